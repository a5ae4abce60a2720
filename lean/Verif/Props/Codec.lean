import Verif.Lemmas.Codec
import Verif.Lemmas.BaseN
import Verif.Spec.Wire
set_option linter.unusedSimpArgs false
/-
Properties C10-C14: the hand-written binary codecs.
-/
namespace Wickr
open Spec

/-! ### C10 cipher results -/

/-- C10.  A well-formed cipher result whose encoding fits a buffer serializes to the documented
layout and parses back to itself. -/
theorem C10_cipher_result_round_trip (r : CipherResult) (h : WfCipherResult r)
    (hsize : (cipherResultLayout r).length ≤ maxBuffer) :
    cipherResultSerialize r = some (cipherResultLayout r) ∧
    cipherResultFromBuffer (cipherResultLayout r) = some r := by
  obtain ⟨c, iv, ct, tag⟩ := r
  obtain ⟨hiv, htag, hct⟩ := h
  have hmb := maxBuffer_val
  cases c with
  | gcm =>
    simp only [Cipher.isAuth, if_true] at htag
    obtain ⟨t, rfl, ht⟩ := htag
    simp only [Cipher.ivLen, Cipher.tagLen] at hiv ht
    constructor
    · simp only [cipherResultSerialize, cipherResultIsValid, Cipher.isAuth, Option.isNone_some,
        Bool.and_false, Bool.not_false, Bool.not_true, Bool.false_eq_true, if_false]
      rw [concatMulti_some]
      refine ⟨?_, ?_, hsize⟩
      · cases ct <;> simp [cipherResultLayout, opt, optBytes]
      · simp [cipherResultLayout]
    · have h1 : copySection (cipherResultLayout ⟨.gcm, iv, ct, some t⟩) 1 12 = some iv := by
        have := copySection_mid [Cipher.gcm.id] iv (t ++ opt ct) (by omega)
          (by simpa [cipherResultLayout, opt] using hsize) (by omega) 1 12 rfl hiv.symm
        simpa [cipherResultLayout, opt] using this
      have h2 : copySection (cipherResultLayout ⟨.gcm, iv, ct, some t⟩) 13 16 = some t := by
        have := copySection_mid ([Cipher.gcm.id] ++ iv) t (opt ct) (by omega)
          (by simpa [cipherResultLayout, opt] using hsize) (by omega) 13 16 (by simp [hiv]) ht.symm
        simpa [cipherResultLayout, opt] using this
      have hl : (cipherResultLayout ⟨.gcm, iv, ct, some t⟩).length = 29 + (opt ct).length := by
        simp [cipherResultLayout, opt, hiv, ht]; omega
      cases ct with
      | none =>
        simp only [opt, Option.getD_none, List.length_nil, Nat.add_zero] at hl
        generalize hL : cipherResultLayout ⟨.gcm, iv, none, some t⟩ = L at h1 h2 hl
        have : ∃ tl, L = 0 :: tl := ⟨_, by rw [← hL]; rfl⟩
        obtain ⟨tl, rfl⟩ := this
        simp only [cipherResultFromBuffer, Cipher.find, if_true, Cipher.ivLen, Cipher.tagLen,
          Cipher.isAuth, hl, h1, h2, Option.bind_some, Nat.reduceAdd, Nat.lt_irrefl, if_false, gt_iff_lt]
        simp [cipherResultCreate, Cipher.ivLen, Cipher.tagLen, hiv, ht, Cipher.isAuth]
      | some c =>
        have hc : c ≠ [] := hct c rfl
        have hc' : 0 < c.length := List.length_pos_iff.2 hc
        simp only [opt, Option.getD_some] at hl
        have h3 : copySection (cipherResultLayout ⟨.gcm, iv, some c, some t⟩) 29 c.length = some c := by
          have := copySection_mid ([Cipher.gcm.id] ++ iv ++ t) c [] hc'
            (by simpa [cipherResultLayout, opt] using hsize) (by omega) 29 c.length (by simp [hiv, ht]) rfl
          simpa [cipherResultLayout, opt] using this
        generalize hL : cipherResultLayout ⟨.gcm, iv, some c, some t⟩ = L at h1 h2 h3 hl
        have : ∃ tl, L = 0 :: tl := ⟨_, by rw [← hL]; rfl⟩
        obtain ⟨tl, rfl⟩ := this
        have e : 29 + c.length - 29 = c.length := by omega
        have hlt : ¬ (29 + c.length < 29) := by omega
        have hgt : 29 < 29 + c.length := by omega
        simp only [cipherResultFromBuffer, Cipher.find, if_true, Cipher.ivLen, Cipher.tagLen,
          Cipher.isAuth, hl, h1, h2, Option.bind_some, Nat.reduceAdd, hlt, if_false, gt_iff_lt, hgt, e, h3]
        simp [cipherResultCreate, Cipher.ivLen, Cipher.tagLen, hiv, ht, Cipher.isAuth]
  | ctr =>
    simp only [Cipher.isAuth, Bool.false_eq_true, if_false] at htag
    subst htag
    simp only [Cipher.ivLen] at hiv
    constructor
    · simp only [cipherResultSerialize, cipherResultIsValid, Cipher.isAuth,
        Bool.false_and, Bool.not_false, Bool.not_true, Bool.false_eq_true, if_false, if_true]
      rw [concatMulti_some]
      refine ⟨?_, ?_, hsize⟩
      · cases ct <;> simp [cipherResultLayout, opt, optBytes]
      · simp [cipherResultLayout]
    · have h1 : copySection (cipherResultLayout ⟨.ctr, iv, ct, none⟩) 1 16 = some iv := by
        have := copySection_mid [Cipher.ctr.id] iv (opt ct) (by omega)
          (by simpa [cipherResultLayout, opt] using hsize) (by omega) 1 16 rfl hiv.symm
        simpa [cipherResultLayout, opt] using this
      have hl : (cipherResultLayout ⟨.ctr, iv, ct, none⟩).length = 17 + (opt ct).length := by
        simp [cipherResultLayout, opt, hiv]; omega
      cases ct with
      | none =>
        simp only [opt, Option.getD_none, List.length_nil, Nat.add_zero] at hl
        generalize hL : cipherResultLayout ⟨.ctr, iv, none, none⟩ = L at h1 hl
        have : ∃ tl, L = 1 :: tl := ⟨_, by rw [← hL]; rfl⟩
        obtain ⟨tl, rfl⟩ := this
        have h10 : ¬ ((1 : UInt8) = 0) := by decide
        simp only [cipherResultFromBuffer, Cipher.find, if_true, Cipher.ivLen, Cipher.tagLen, h10,
          Cipher.isAuth, hl, h1, Option.bind_some, Nat.reduceAdd, Nat.lt_irrefl, if_false, gt_iff_lt,
          Bool.false_eq_true]
        simp [cipherResultCreate, Cipher.ivLen, Cipher.tagLen, hiv, Cipher.isAuth]
      | some c =>
        have hc : c ≠ [] := hct c rfl
        have hc' : 0 < c.length := List.length_pos_iff.2 hc
        simp only [opt, Option.getD_some] at hl
        have h3 : copySection (cipherResultLayout ⟨.ctr, iv, some c, none⟩) 17 c.length = some c := by
          have := copySection_mid ([Cipher.ctr.id] ++ iv) c [] hc'
            (by simpa [cipherResultLayout, opt] using hsize) (by omega) 17 c.length (by simp [hiv]) rfl
          simpa [cipherResultLayout, opt] using this
        generalize hL : cipherResultLayout ⟨.ctr, iv, some c, none⟩ = L at h1 h3 hl
        have : ∃ tl, L = 1 :: tl := ⟨_, by rw [← hL]; rfl⟩
        obtain ⟨tl, rfl⟩ := this
        have h10 : ¬ ((1 : UInt8) = 0) := by decide
        have e : 17 + c.length - 17 = c.length := by omega
        have hlt : ¬ (17 + c.length < 17) := by omega
        have hgt : 17 < 17 + c.length := by omega
        simp only [cipherResultFromBuffer, Cipher.find, if_true, Cipher.ivLen, Cipher.tagLen, h10,
          Cipher.isAuth, hl, h1, Option.bind_some, Nat.reduceAdd, hlt, if_false, gt_iff_lt, hgt, e, h3,
          Bool.false_eq_true]
        simp [cipherResultCreate, Cipher.ivLen, Cipher.tagLen, hiv, Cipher.isAuth]

/-- C10, too large to serialize. -/
theorem C10_cipher_result_too_large (r : CipherResult) (h : WfCipherResult r)
    (hsize : maxBuffer < (cipherResultLayout r).length) : cipherResultSerialize r = none := by
  obtain ⟨c, iv, ct, tag⟩ := r
  cases hs : cipherResultSerialize ⟨c, iv, ct, tag⟩ with
  | none => rfl
  | some b =>
    exfalso
    obtain ⟨hiv, htag, hct⟩ := h
    cases c with
    | gcm =>
      simp only [Cipher.isAuth, if_true] at htag
      obtain ⟨t, rfl, ht⟩ := htag
      simp only [cipherResultSerialize, cipherResultIsValid, Cipher.isAuth, Option.isNone_some,
        Bool.and_false, Bool.not_false, Bool.not_true, Bool.false_eq_true, if_false,
        concatMulti_some] at hs
      have e : b = cipherResultLayout ⟨.gcm, iv, ct, some t⟩ := by
        rw [hs.1]; cases ct <;> simp [cipherResultLayout, opt, optBytes]
      have := hs.2.2
      rw [e] at this; omega
    | ctr =>
      simp only [Cipher.isAuth, Bool.false_eq_true, if_false] at htag
      subst htag
      simp only [cipherResultSerialize, cipherResultIsValid, Cipher.isAuth,
        Bool.false_and, Bool.not_false, Bool.not_true, Bool.false_eq_true, if_false, if_true,
        concatMulti_some] at hs
      have e : b = cipherResultLayout ⟨.ctr, iv, ct, none⟩ := by
        rw [hs.1]; cases ct <;> simp [cipherResultLayout, opt, optBytes]
      have := hs.2.2
      rw [e] at this; omega

theorem cipherResult_split (b : Bytes) (c : Cipher) (h0 : b[0]? = some c.id)
    (hl : 1 + c.ivLen + c.tagLen ≤ b.length) :
    ∃ r, r.cipher = c ∧ WfCipherResult r ∧ cipherResultLayout r = b := by
  obtain ⟨b0, tl, rfl⟩ : ∃ b0 tl, b = b0 :: tl := by
    cases b with
    | nil => simp at h0
    | cons x y => exact ⟨x, y, rfl⟩
  simp only [List.getElem?_cons_zero, Option.some.injEq] at h0
  subst h0
  simp only [List.length_cons] at hl
  let rest := tl.drop (c.ivLen + c.tagLen)
  let ct : Option Bytes := if rest = [] then none else some rest
  have hct : opt ct = rest := by
    simp only [ct]; split <;> simp_all [opt]
  refine ⟨⟨c, tl.take c.ivLen, ct, if c.isAuth then some ((tl.drop c.ivLen).take c.tagLen) else none⟩,
    rfl, ⟨by simp; omega, ?_, ?_⟩, ?_⟩
  · cases c <;> simp [Cipher.isAuth, Cipher.tagLen, Cipher.ivLen] at hl ⊢; omega
  · intro x hx
    simp only [ct] at hx
    split at hx
    · simp at hx
    · cases hx; assumption
  · have e : tl.take c.ivLen ++ ((tl.drop c.ivLen).take c.tagLen ++ rest) = tl := by
      have : rest = (tl.drop c.ivLen).drop c.tagLen := by simp [rest, List.drop_drop]
      rw [this, List.take_append_drop, List.take_append_drop]
    simp only [cipherResultLayout, hct]
    cases c <;> simpa [Cipher.isAuth, opt, Cipher.tagLen, List.append_assoc] using e

theorem cipherResult_accepts {b : Bytes} {r : CipherResult} (h : cipherResultFromBuffer b = some r) :
    ∃ c : Cipher, b[0]? = some c.id ∧ 1 + c.ivLen + c.tagLen ≤ b.length := by
  cases b with
  | nil => simp [cipherResultFromBuffer] at h
  | cons b0 tl =>
    simp only [cipherResultFromBuffer] at h
    cases hf : Cipher.find b0 with
    | none => simp [hf] at h
    | some c =>
      simp only [hf] at h
      refine ⟨c, by simp [Cipher.find_some hf], ?_⟩
      split at h
      · simp at h
      · omega

/-- C10, acceptance: exactly the strings whose first byte is a known cipher id and that are long
enough for that cipher's IV and tag are accepted. -/
theorem C10_cipher_result_accepts_iff (b : Bytes) (hb : b.length ≤ maxBuffer) :
    (∃ r, cipherResultFromBuffer b = some r) ↔
    ∃ c : Cipher, b[0]? = some c.id ∧ 1 + c.ivLen + c.tagLen ≤ b.length := by
  constructor
  · rintro ⟨r, h⟩; exact cipherResult_accepts h
  · rintro ⟨c, h0, hl⟩
    obtain ⟨r, _, hw, rfl⟩ := cipherResult_split b c h0 hl
    exact ⟨r, (C10_cipher_result_round_trip r hw hb).2⟩

/-- C10, canonicity: whatever is accepted is well formed and serializes to the very same bytes. -/
theorem C10_cipher_result_reserialize (b : Bytes) (hb : b.length ≤ maxBuffer) (r : CipherResult)
    (h : cipherResultFromBuffer b = some r) :
    WfCipherResult r ∧ cipherResultSerialize r = some b := by
  obtain ⟨c, h0, hl⟩ := cipherResult_accepts h
  obtain ⟨r', _, hw, rfl⟩ := cipherResult_split b c h0 hl
  have := C10_cipher_result_round_trip r' hw hb
  rw [h] at this
  obtain ⟨h1, h2⟩ := this
  cases h2
  exact ⟨hw, h1⟩

/-- A concrete GCM result meets the hypotheses. -/
example : WfCipherResult ⟨.gcm, List.replicate 12 7, some [1, 2, 3], some (List.replicate 16 9)⟩ ∧
    cipherResultFromBuffer ([0] ++ List.replicate 12 7 ++ List.replicate 16 9 ++ [1, 2, 3]) =
      some ⟨.gcm, List.replicate 12 7, some [1, 2, 3], some (List.replicate 16 9)⟩ := by
  refine ⟨⟨rfl, ?_, ?_⟩, by decide⟩
  · exact ⟨_, rfl, rfl⟩
  · intro c hc; cases hc; simp
example : cipherResultFromBuffer ([0] ++ List.replicate 27 7) = none := by decide
example : cipherResultFromBuffer ([2] ++ List.replicate 60 7) = none := by decide

/-! ### C11 cipher keys -/

/-- C11.  Every cipher key the API can create serializes to id followed by key and parses back,
also when other bytes follow the key. -/
theorem C11_cipher_key_round_trip (k : CipherKey) (hk : k.key.length = k.cipher.keyLen)
    (trail : Bytes) (ht : (cipherKeyLayout k ++ trail).length ≤ maxBuffer) :
    cipherKeySerialize k = some (cipherKeyLayout k) ∧
    cipherKeyFromBuffer (cipherKeyLayout k ++ trail) = some k := by
  obtain ⟨c, d⟩ := k
  have hmb := maxBuffer_val
  have hkl : c.keyLen = 32 := by cases c <;> rfl
  simp only [hkl] at hk
  have ht' : 33 + trail.length ≤ maxBuffer := by
    have : (cipherKeyLayout ⟨c, d⟩ ++ trail).length = 33 + trail.length := by
      simp [cipherKeyLayout, hk]; omega
    omega
  constructor
  · rw [cipherKeySerialize, concat2_some]
    exact ⟨rfl, by simp [cipherKeyLayout], by simp [cipherKeyLayout, hk]; omega⟩
  · have h1 := copySection_mid [c.id] d trail (by omega) (by simp [hk]; omega) (by omega) 1 32 rfl hk.symm
    simp only [cipherKeyFromBuffer, cipherKeyLayout]
    have hl : ([c.id] ++ d ++ trail).length = 33 + trail.length := by simp [hk]; omega
    have hn : ¬ (33 + trail.length ≤ 1) := by omega
    have hn2 : ¬ (33 + trail.length - 1 < 32) := by omega
    simp only [hl, hn, if_false]
    simp only [List.cons_append, List.nil_append] at h1 ⊢
    simp [Cipher.find_id, hkl, hn2, h1, cipherKeyCreate, hk]

/-- C11, rejection: nothing else is accepted, and what is accepted is a complete key of the named
cipher taken from the front of the input. -/
theorem C11_cipher_key_accepts (b : Bytes) (k : CipherKey) (h : cipherKeyFromBuffer b = some k) :
    b[0]? = some k.cipher.id ∧ k.key.length = k.cipher.keyLen ∧
    1 + k.cipher.keyLen ≤ b.length ∧ cipherKeyLayout k = b.take (1 + k.cipher.keyLen) := by
  cases b with
  | nil => simp [cipherKeyFromBuffer] at h
  | cons b0 tl =>
    simp only [cipherKeyFromBuffer] at h
    split at h
    · simp at h
    · cases hf : Cipher.find b0 with
      | none => simp [hf] at h
      | some c =>
        simp only [hf] at h
        split at h
        · simp at h
        · rename_i hlen hlen2
          simp only [Option.bind_eq_some_iff] at h
          obtain ⟨d, hd, hc⟩ := h
          have := copySection_some hd
          simp only [cipherKeyCreate] at hc
          split at hc
          · simp at hc
          · rename_i hkl
            cases hc
            refine ⟨by simp [Cipher.find_some hf], by simpa using hkl, by
              simp only [List.length_cons] at hlen2 ⊢; omega, ?_⟩
            simp only [cipherKeyLayout]
            rw [this.2.2.1, Cipher.find_some hf, Nat.add_comm]
            simp

/-- C11, a key shorter than required or an unknown id is refused. -/
theorem C11_cipher_key_rejects (b : Bytes)
    (h : ¬ ∃ c : Cipher, b[0]? = some c.id ∧ 1 + c.keyLen ≤ b.length) : cipherKeyFromBuffer b = none := by
  cases hk : cipherKeyFromBuffer b with
  | none => rfl
  | some k =>
    have := C11_cipher_key_accepts b k hk
    exact absurd ⟨k.cipher, this.1, this.2.2.1⟩ h

example : cipherKeyFromBuffer ([1] ++ List.replicate 32 5 ++ [9]) = some ⟨.ctr, List.replicate 32 5⟩ := by
  decide

/-! ### C12 KDF parameters -/

/-- C12.  Parameters of scrypt and bcrypt survive the codec with any data following, and the
reported size is exactly the number of bytes of the parameters. -/
theorem C12_kdf_meta_round_trip (a : KdfAlgo) (ha : a ∈ wireKdfs) (salt : Bytes)
    (hs : salt.length = a.saltSize.toNat) (trail : Bytes)
    (ht : 1 + salt.length + trail.length ≤ maxBuffer) :
    ∃ b, kdfMetaSerialize ⟨a, some salt, none⟩ = some b ∧ b = [a.kdfId] ++ salt ∧
      (kdfMetaSize (b ++ trail)).toNat = b.length ∧
      kdfMetaFromBuffer (b ++ trail) = some ⟨a, some salt, none⟩ := by
  have hmb := maxBuffer_val
  have key : ∀ (i s : UInt8), KdfAlgo.find i = some a → a.kdfId = i → a.saltSize = s → a.kind ≠ .hkdf →
      0 < s.toNat → s.toNat < 100 → ((1 : UInt8) + s).toNat = 1 + s.toNat →
      ∃ b, kdfMetaSerialize ⟨a, some salt, none⟩ = some b ∧ b = [a.kdfId] ++ salt ∧
      (kdfMetaSize (b ++ trail)).toNat = b.length ∧
      kdfMetaFromBuffer (b ++ trail) = some ⟨a, some salt, none⟩ := by
    intro i s hf hi hss hk h0 h1 hadd
    subst hss hi
    have hsz : kdfMetaSize ([a.kdfId] ++ salt ++ trail) = 1 + a.saltSize := by
      have hn : ¬ (([a.kdfId] ++ salt ++ trail).length ≤ 1) := by simp [hs]; omega
      simp only [kdfMetaSize, if_neg hn]
      simp [hf]
    refine ⟨[a.kdfId] ++ salt, ?_, rfl, ?_, ?_⟩
    · simp only [kdfMetaSerialize, hk, false_and, if_false, concat2_some]
      exact ⟨trivial, by simp, by simp [hs]; omega⟩
    · rw [hsz, hadd]; simp [hs]; omega
    · have hcs := copySection_mid [a.kdfId] salt trail (by omega) (by simp [hs]; omega) (by omega) 1
        a.saltSize.toNat rfl hs.symm
      have hne : ¬ ((1 : UInt8) + a.saltSize = 0) := by
        intro hh; rw [hh] at hadd; simp at hadd; omega
      have hlt : ¬ (([a.kdfId] ++ salt ++ trail).length < ((1 : UInt8) + a.saltSize).toNat) := by
        rw [hadd]; simp [hs]; omega
      simp only [kdfMetaFromBuffer, hsz, hne, if_false, hlt]
      simp only [List.cons_append, List.nil_append] at hcs ⊢
      simp only [hf, hcs, Option.bind_some, kdfMetaCreate]
      cases hkd : a.kind <;> simp_all
  simp only [wireKdfs, List.mem_cons, List.not_mem_nil, or_false] at ha
  rcases ha with rfl | rfl | rfl | rfl | rfl
  · exact key 1 16 rfl rfl rfl (by decide) (by decide) (by decide) (by decide)
  · exact key 2 16 rfl rfl rfl (by decide) (by decide) (by decide) (by decide)
  · exact key 3 16 rfl rfl rfl (by decide) (by decide) (by decide) (by decide)
  · exact key 4 16 rfl rfl rfl (by decide) (by decide) (by decide) (by decide)
  · exact key 5 22 rfl rfl rfl (by decide) (by decide) (by decide) (by decide)

theorem kdfFind_mem {i : UInt8} {a : KdfAlgo} (h : KdfAlgo.find i = some a) :
    a ∈ wireKdfs ∧ a.kdfId = i := by
  unfold KdfAlgo.find at h
  repeat' split at h
  all_goals first
    | (cases h; subst_vars; exact ⟨by decide, rfl⟩)
    | simp at h

/-- C12, canonicity of the parser: whatever it accepts is one of the wire algorithms with a full
salt, and it is the parse of exactly the reported number of leading bytes. -/
theorem C12_kdf_meta_accepts (b : Bytes) (m : KdfMeta) (h : kdfMetaFromBuffer b = some m) :
    m.algo ∈ wireKdfs ∧ m.info = none ∧ (∃ s, m.salt = some s ∧ s.length = m.algo.saltSize.toNat) ∧
    (kdfMetaSize b).toNat ≤ b.length ∧ kdfMetaSerialize m = some (b.take (kdfMetaSize b).toNat) := by
  cases b with
  | nil => simp [kdfMetaFromBuffer, kdfMetaSize] at h
  | cons b0 tl =>
    simp only [kdfMetaFromBuffer] at h
    split at h
    · simp at h
    · split at h
      · simp at h
      · cases hf : KdfAlgo.find b0 with
        | none => simp [hf] at h
        | some a =>
          simp only [hf, Option.bind_eq_some_iff] at h
          rename_i hz hl
          obtain ⟨s, hs, hc⟩ := h
          have hcs := copySection_some hs
          obtain ⟨hmem, hid⟩ := kdfFind_mem hf
          have hk : a.kind ≠ .hkdf ∧ (1 + a.saltSize).toNat = a.saltSize.toNat + 1 ∧ a.saltSize.toNat ≤ 22 := by
            simp only [wireKdfs, List.mem_cons, List.not_mem_nil, or_false] at hmem
            rcases hmem with rfl | rfl | rfl | rfl | rfl <;> decide
          have hm : m = ⟨a, some s, none⟩ := by
            simp only [kdfMetaCreate] at hc
            cases hkd : a.kind <;> simp_all
          subst hm
          have hsz : kdfMetaSize (b0 :: tl) = 1 + a.saltSize := by
            have hn : ¬ ((b0 :: tl).length ≤ 1) := by
              intro hh; apply hz; simp only [kdfMetaSize, if_pos hh]
            simp only [kdfMetaSize, if_neg hn, hf]
          refine ⟨hmem, rfl, ⟨s, rfl, hcs.2.2.2⟩, by omega, ?_⟩
          simp only [kdfMetaSerialize, hk.1, false_and, if_false, concat2_some, hsz, hk.2.1]
          have hmb := maxBuffer_val
          refine ⟨?_, ?_⟩
          · rw [hcs.2.2.1, hid]; simp
          · rw [List.take_succ_cons]
            constructor
            · simp
            · simp only [List.length_cons, List.length_take]; omega

/-- Parameters of HKDF can be serialized but never parsed back (the parser's table has no HKDF
ids): the restriction to the wire algorithms in C12 is necessary. -/
theorem C12_hkdf_not_parseable (salt info : Option Bytes) (d : Digest) (b trail : Bytes)
    (h : kdfMetaSerialize ⟨hkdfAlgoForDigest d, salt, info⟩ = some b) :
    kdfMetaFromBuffer (b ++ trail) = none := by
  cases salt with
  | none => cases d <;> simp [kdfMetaSerialize, hkdfAlgoForDigest, hkdfSha256, hkdfSha384, hkdfSha512] at h
  | some s =>
    have hb : b = [(hkdfAlgoForDigest d).kdfId] ++ s := by
      simp only [kdfMetaSerialize, Option.isNone_some, Bool.false_eq_true, and_false, if_false,
        concat2_some] at h
      exact h.1
    subst hb
    have hf : KdfAlgo.find (hkdfAlgoForDigest d).kdfId = none := by cases d <;> decide
    simp [kdfMetaFromBuffer, kdfMetaSize, hf]

example : kdfMetaFromBuffer ([1] ++ List.replicate 16 3 ++ [4, 5]) =
    some ⟨scrypt17, some (List.replicate 16 3), none⟩ := by decide
example : kdfMetaSerialize ⟨hkdfSha512, some [1], none⟩ = some [8, 1] := by decide

/-! ### C13 signatures -/

theorem ecdsaHdr (c : Curve) (d : Digest) :
    (c.id <<< 4 ||| d.id : UInt8) = c.id * 16 + d.id ∧
    ((c.id * 16 + d.id) &&& 0xF0) >>> 4 = c.id ∧ (c.id * 16 + d.id) &&& 0xF = d.id := by
  cases c <;> cases d <;> decide

/-- C13.  A signature that fits serializes to exactly the curve's signature size, in the
documented layout, and parses back to the same curve, digest and signature bytes; one that does
not fit is refused. -/
theorem C13_ecdsa_round_trip (r : EcdsaResult) (h0 : r.sig ≠ []) :
    (r.sig.length + 2 ≤ r.curve.sigSize →
      ecdsaSerialize r = some (ecdsaLayout r) ∧ (ecdsaLayout r).length = r.curve.sigSize ∧
      ecdsaFromBuffer (ecdsaLayout r) = some r) ∧
    (r.curve.sigSize < r.sig.length + 2 → ecdsaSerialize r = none) := by
  obtain ⟨c, d, sig⟩ := r
  have hmb := maxBuffer_val
  have hpos : 0 < sig.length := List.length_pos_iff.2 h0
  have hcs : c.sigSize = 143 := by cases c; rfl
  constructor
  · intro hle
    simp only [hcs] at hle
    have hpad : (UInt8.ofNat (143 - 2 - sig.length)).toNat = 143 - 2 - sig.length := by
      rw [UInt8.toNat_ofNat']; omega
    have hlen : (ecdsaLayout ⟨c, d, sig⟩).length = 143 := by
      simp [ecdsaLayout, hcs]; omega
    refine ⟨?_, by simp only [hcs, hlen], ?_⟩
    · have hn : ¬ (143 < sig.length + 2) := by omega
      have hsub : 143 - sig.length - 2 = 143 - 2 - sig.length := by omega
      simp only [ecdsaSerialize, hcs, hn, if_false, concatMulti_some, hsub, hpad, (ecdsaHdr c d).1]
      refine ⟨?_, by simp only [hlen, ValidBuf]; omega⟩
      by_cases hz : 143 - 2 - sig.length = 0
      · simp [hz, zeroBuf, optBytes, ecdsaLayout, hcs]
      · have : 0 < 143 - 2 - sig.length ∧ 143 - 2 - sig.length ≤ maxBuffer := by omega
        simp only [zeroBuf, if_pos this]
        simp [optBytes, ecdsaLayout, hcs]
    · have hcopy := copySection_mid ([c.id * 16 + d.id, UInt8.ofNat (143 - 2 - sig.length)] ++
          List.replicate (143 - 2 - sig.length) 0) sig [] hpos (by simp; omega) (by omega)
          (2 + (143 - 2 - sig.length)) sig.length (by simp; omega) rfl
      simp only [List.append_nil] at hcopy
      have hL : ecdsaLayout ⟨c, d, sig⟩ = [c.id * 16 + d.id, UInt8.ofNat (143 - 2 - sig.length)] ++
          List.replicate (143 - 2 - sig.length) 0 ++ sig := by simp only [ecdsaLayout, hcs]
      rw [hL] at hlen ⊢
      simp only [ecdsaFromBuffer, hlen]
      have hn : ¬ ((143:Nat) < 2) := by omega
      simp only [if_neg hn]
      simp only [List.cons_append, List.nil_append] at hcopy ⊢
      simp only [(ecdsaHdr c d).2.1, (ecdsaHdr c d).2.2, Curve.find_id, Digest.find_id, hpad]
      have hn2 : ¬ (143 ≤ 2 + (143 - 2 - sig.length)) := by omega
      have hsl : 143 - (2 + (143 - 2 - sig.length)) = sig.length := by omega
      simp only [if_neg hn2, hsl, hcopy, Option.map_some]
  · intro hlt
    simp only [ecdsaSerialize, if_pos hlt]

/-- C13, parsing: what is accepted has a known curve and digest, and the signature is exactly the
bytes after the declared padding, of which there is at least one. -/
theorem C13_ecdsa_accepts_iff (b : Bytes) (hb : b.length ≤ maxBuffer) (r : EcdsaResult) :
    ecdsaFromBuffer b = some r ↔
    ∃ b0 b1 : UInt8, b[0]? = some b0 ∧ b[1]? = some b1 ∧ b0.toNat / 16 = r.curve.id.toNat ∧
      b0.toNat % 16 = r.digest.id.toNat ∧ 2 + b1.toNat < b.length ∧ r.sig = b.drop (2 + b1.toNat) := by
  have hmb := maxBuffer_val
  match b with
  | [] => simp [ecdsaFromBuffer]
  | [x] => simp [ecdsaFromBuffer]
  | b0 :: b1 :: tl =>
    have hhi : ∀ x : UInt8, ((x &&& 0xF0) >>> 4).toNat = x.toNat / 16 ∧ (x &&& 0xF).toNat = x.toNat % 16 :=
      forall_u8 (by decide +kernel)
    have hn : ¬ ((b0 :: b1 :: tl).length < 2) := by simp
    simp only [ecdsaFromBuffer, if_neg hn]
    constructor
    · intro h
      refine ⟨b0, b1, rfl, rfl, ?_⟩
      cases hc : Curve.find ((b0 &&& 0xF0) >>> 4) with
      | none => simp [hc] at h
      | some c =>
        cases hd : Digest.find (b0 &&& 0xF) with
        | none => simp [hc, hd] at h
        | some d =>
          simp only [hc, hd] at h
          split at h
          · simp at h
          · rename_i hl
            simp only [Option.map_eq_some_iff] at h
            obtain ⟨k, hk, rfl⟩ := h
            have := copySection_some hk
            refine ⟨?_, ?_, by omega, ?_⟩
            · rw [← (hhi b0).1, Curve.find_some hc]
            · rw [← (hhi b0).2, Digest.find_some hd]
            · rw [this.2.2.1]
              apply List.take_of_length_le
              simp only [List.length_drop]; omega
    · rintro ⟨x0, x1, h0, h1, hc, hd, hl, hs⟩
      simp only [List.getElem?_cons_zero, Option.some.injEq] at h0
      have h1' : b1 = x1 := by simpa using h1
      subst h0 h1'
      have hc' : (b0 &&& 0xF0) >>> 4 = r.curve.id := UInt8.toNat_inj.1 (by rw [(hhi b0).1, hc])
      have hd' : b0 &&& 0xF = r.digest.id := UInt8.toNat_inj.1 (by rw [(hhi b0).2, hd])
      rw [hc', hd', Curve.find_id, Digest.find_id]
      have hn2 : ¬ ((b0 :: b1 :: tl).length ≤ 2 + b1.toNat) := by omega
      simp only [if_neg hn2]
      rw [copySection_of hb (by omega) (by omega) (by omega)]
      simp only [Option.map_some, Option.some.injEq]
      have : List.take ((b0 :: b1 :: tl).length - (2 + b1.toNat)) (List.drop (2 + b1.toNat) (b0 :: b1 :: tl))
          = r.sig := by
        rw [hs]; apply List.take_of_length_le; simp only [List.length_drop]; omega
      rw [this]

set_option maxRecDepth 4096 in
/-- The parser is not canonical: padding bytes are not checked, so one signature has many
serializations. -/
theorem C13_padding_malleable : ∃ b1 b2 : Bytes, b1 ≠ b2 ∧ b1.length = 143 ∧ b2.length = 143 ∧
    ∃ r, ecdsaFromBuffer b1 = some r ∧ ecdsaFromBuffer b2 = some r :=
  ⟨[3, 1, 0] ++ List.replicate 140 7, [3, 1, 9] ++ List.replicate 140 7, by decide, by decide,
    by decide, ⟨.p521, .sha512, List.replicate 140 7⟩, by decide, by decide⟩

set_option maxRecDepth 4096 in
example : (ecdsaSerialize ⟨.p521, .sha512, List.replicate 139 7⟩).map List.length = some 143 := by decide
set_option maxRecDepth 4096 in
example : ecdsaSerialize ⟨.p521, .sha512, List.replicate 142 7⟩ = none := by decide

/-! ### C14 transport packets -/

theorem pktHdr_eq (m : PktMeta) (h : m.mac.toNat < 16) : pktMetaSerialize m = pktHeaderLayout m := by
  have h1 : ∀ x : UInt8, x.toNat < 16 → ((0 : UInt8) <<< 4 ||| x) = x ∧ ((1 : UInt8) <<< 4 ||| x) = 16 + x :=
    forall_u8 (by decide +kernel)
  obtain ⟨b, mac⟩ := m
  cases b with
  | handshake v f => simp [pktMetaSerialize, pktHeaderLayout, BodyMeta.typeId, (h1 mac h).1]
  | data s => simp [pktMetaSerialize, pktHeaderLayout, BodyMeta.typeId, (h1 mac h).2]

theorem nibbles (t : UInt8) : ((t &&& 0xF0) >>> 4 = 1 ↔ t.toNat / 16 = 1) ∧
    ((t &&& 0xF0) >>> 4 = 0 ↔ t.toNat / 16 = 0) ∧ (t &&& 0xF).toNat = t.toNat % 16 ∧
    ((t &&& 0xF) = 2 ↔ t.toNat % 16 = 2) ∧
    (t.toNat / 16 = 1 → 16 + (t &&& 0xF) = t) ∧ (t.toNat / 16 = 0 → (t &&& 0xF) = t) :=
  forall_u8 (P := fun t => ((t &&& 0xF0) >>> 4 = 1 ↔ t.toNat / 16 = 1) ∧
    ((t &&& 0xF0) >>> 4 = 0 ↔ t.toNat / 16 = 0) ∧ (t &&& 0xF).toNat = t.toNat % 16 ∧
    ((t &&& 0xF) = 2 ↔ t.toNat % 16 = 2) ∧
    (t.toNat / 16 = 1 → 16 + (t &&& 0xF) = t) ∧ (t.toNat / 16 = 0 → (t &&& 0xF) = t))
    (by decide +kernel) t

/-- Length of the fixed header. -/
def hdrLen (m : PktMeta) : Nat := match m.body with | .handshake _ _ => 10 | .data _ => 9

theorem pktHeader_parse (m : PktMeta) (h : m.mac.toNat < 16) (rest : Bytes) :
    pktMetaParse (pktHeaderLayout m ++ rest) = some (m, hdrLen m) := by
  have h1 : ∀ x : UInt8, x.toNat < 16 → (16 + x) &&& 0xF = x ∧ x &&& 0xF = x ∧
      ((16 + x) &&& 0xF0) >>> 4 = 1 ∧ (x &&& 0xF0) >>> 4 = 0 := forall_u8 (by decide +kernel)
  obtain ⟨b, mac⟩ := m
  obtain ⟨a1, a2, a3, a4⟩ := h1 mac h
  cases b with
  | handshake v f =>
    have hn : ¬ ((mac :: v :: (le64 f ++ rest)).length ≤ 1) := by simp
    have hn2 : ¬ ((mac :: v :: (le64 f ++ rest)).length < 2 + 8) := by simp [le64_length]
    have e01 : ¬ ((0 : UInt8) = 1) := by decide
    simp only [pktHeaderLayout, List.cons_append, List.nil_append, pktMetaParse, if_neg hn, a4, a2,
      if_true, if_neg hn2, hdrLen, e01, if_false]
    rw [List.take_append_of_le_length (by simp [le64_length]), List.take_of_length_le (by simp [le64_length]),
      fromLe64_le64]
  | data s =>
    have hn : ¬ (((16 + mac) :: (le64 s ++ rest)).length ≤ 1) := by simp [le64_length]
    have hn2 : ¬ (((16 + mac) :: (le64 s ++ rest)).length < 1 + 8) := by simp [le64_length]
    simp only [pktHeaderLayout, List.cons_append, List.nil_append, pktMetaParse, if_neg hn, a3, a1,
      if_true, if_neg hn2, hdrLen]
    rw [List.take_append_of_le_length (by simp [le64_length]), List.take_of_length_le (by simp [le64_length]),
      fromLe64_le64]

theorem pktHeaderLayout_length (m : PktMeta) : (pktHeaderLayout m).length = hdrLen m := by
  obtain ⟨b, mac⟩ := m
  cases b <;> simp [pktHeaderLayout, hdrLen, le64_length]

/-- C14.  A well-formed packet that fits a buffer serializes to header, body, MAC and parses back
to the same header, body and MAC, remembering the exact bytes it was parsed from. -/
theorem C14_packet_round_trip (p : Packet) (h : WfPacket p) (hsize : (pktLayout p).length ≤ maxBuffer) :
    pktSerialize p = some (pktLayout p) ∧
    pktFromBuffer (pktLayout p) = some { p with network := some (pktLayout p) } := by
  obtain ⟨m, body, mac, net⟩ := p
  obtain ⟨hm, hbody, hmac⟩ := h
  simp only at hm hbody hmac
  have hmb := maxBuffer_val
  have hbl : 0 < body.length := List.length_pos_iff.2 hbody
  have hhl := pktHeaderLayout_length m
  have hh : hdrLen m = 9 ∨ hdrLen m = 10 := by unfold hdrLen; split <;> simp
  have hv : ValidBuf (pktLayout ⟨m, body, mac, net⟩) := by
    refine ⟨?_, hsize⟩; simp [pktLayout]; omega
  constructor
  · simp only [pktSerialize, concatMulti_some, pktHdr_eq m hm]
    refine ⟨?_, hv⟩
    cases mac <;> simp [pktLayout, optBytes, opt]
  · have hparse : pktMetaParse (pktLayout ⟨m, body, mac, net⟩) = some (m, hdrLen m) := by
      simp only [pktLayout, List.append_assoc]; exact pktHeader_parse m hm _
    simp only [pktFromBuffer, hparse]
    by_cases hmp : m.mac = macP521
    · simp only [hmp, if_true] at hmac
      obtain ⟨t, rfl, ht⟩ := hmac
      have hl : (pktLayout ⟨m, body, some t, net⟩).length = hdrLen m + body.length + 143 := by
        simp [pktLayout, opt, hhl, ht, Nat.add_assoc]
      have c1 := copySection_mid (pktHeaderLayout m ++ body) t [] (by omega)
        (by simpa [pktLayout, opt] using hsize) (by omega) (hdrLen m + body.length) 143
        (by simp [hhl]) ht.symm
      have c2 := copySection_mid (pktHeaderLayout m) body t (by omega)
        (by simpa [pktLayout, opt] using hsize) (by rw [hl] at hsize; omega) (hdrLen m) body.length
        hhl.symm rfl
      have e : pktLayout ⟨m, body, some t, net⟩ = pktHeaderLayout m ++ body ++ t := rfl
      simp only [List.append_nil] at c1
      rw [← e] at c1 c2
      have hms : pktMacSize m.mac = 143 := by simp [pktMacSize, hmp, Curve.sigSize]
      have hn : ¬ (hdrLen m + body.length + 143 ≤ hdrLen m + 143) := by omega
      have e1 : hdrLen m + body.length + 143 - 143 = hdrLen m + body.length := by omega
      have e2 : hdrLen m + body.length - hdrLen m = body.length := by omega
      have h143 : (143 : Nat) ≠ 0 := by omega
      simp only [hl, hms, if_neg hn, e1, e2, c1, c2, dup_of hv, Option.bind_some, Option.map_some,
        if_pos h143]
    · simp only [hmp, if_false] at hmac
      subst hmac
      have hl : (pktLayout ⟨m, body, none, net⟩).length = hdrLen m + body.length := by
        simp [pktLayout, opt, hhl]
      have c2 := copySection_mid (pktHeaderLayout m) body [] (by omega)
        (by simpa [pktLayout, opt] using hsize) (by rw [hl] at hsize; omega) (hdrLen m) body.length
        hhl.symm rfl
      have e : pktLayout ⟨m, body, none, net⟩ = pktHeaderLayout m ++ body ++ [] := rfl
      rw [← e] at c2
      have hms : pktMacSize m.mac = 0 := by simp [pktMacSize, hmp]
      have hn : ¬ (hdrLen m + body.length ≤ hdrLen m + 0) := by omega
      have e2 : hdrLen m + body.length - 0 - hdrLen m = body.length := by omega
      simp only [hl, hms, if_neg hn, e2, c2, dup_of hv, Option.bind_some, Option.map_some, ne_eq,
        not_true_eq_false, if_false]

theorem pkt_split (b : Bytes) (h : IsPacketString b) : ∃ p : Packet, p.network = none ∧ WfPacket p ∧ pktLayout p = b := by
  obtain ⟨t, h0, hty, hlen⟩ := h
  obtain ⟨rest, rfl⟩ : ∃ rest, b = t :: rest := by
    cases b with
    | nil => simp at h0
    | cons x y => simp only [List.getElem?_cons_zero, Option.some.injEq] at h0; exact ⟨y, by rw [h0]⟩
  obtain ⟨n1, n2, n3, n4, n5, n6⟩ := nibbles t
  have hm16 : (t &&& 0xF).toNat < 16 := by rw [n3]; omega
  -- split of what follows the header
  have tailSplit : ∀ r : Bytes, (if t.toNat % 16 = 2 then 143 else 0) < r.length →
      ∃ body mac, r = body ++ opt mac ∧ body ≠ [] ∧
        (if (t &&& 0xF) = macP521 then ∃ m, mac = some m ∧ m.length = 143 else mac = none) := by
    intro r hr
    by_cases h2 : t.toNat % 16 = 2
    · rw [if_pos h2] at hr
      refine ⟨r.take (r.length - 143), some (r.drop (r.length - 143)), by simp [opt], ?_, ?_⟩
      · intro hh
        have := congrArg List.length hh
        simp at this; omega
      · rw [if_pos (show (t &&& 0xF) = macP521 from n4.2 h2)]
        exact ⟨_, rfl, by simp; omega⟩
    · rw [if_neg h2] at hr
      refine ⟨r, none, by simp [opt], List.length_pos_iff.1 hr, ?_⟩
      rw [if_neg (show ¬ (t &&& 0xF) = macP521 from fun hh => h2 (n4.1 hh))]
  rcases hty with hty | hty
  · simp only [hty, if_true, List.length_cons] at hlen
    obtain ⟨v, r, rfl⟩ : ∃ v r, rest = v :: r := by
      cases rest with
      | nil => simp at hlen
      | cons x y => exact ⟨x, y, rfl⟩
    simp only [List.length_cons] at hlen
    obtain ⟨body, mac, hr, hb, hmac⟩ := tailSplit (r.drop 8) (by simp; omega)
    refine ⟨⟨⟨.handshake v (fromLe64 (r.take 8)), t &&& 0xF⟩, body, mac, none⟩, rfl, ⟨hm16, hb, hmac⟩, ?_⟩
    simp only [pktLayout, pktHeaderLayout, n6 hty]
    rw [le64_fromLe64 _ (by simp; omega), List.append_assoc, ← hr]
    simp
  · have hne : ¬ (t.toNat / 16 = 0) := by omega
    simp only [if_neg hne, List.length_cons] at hlen
    obtain ⟨body, mac, hr, hb, hmac⟩ := tailSplit (rest.drop 8) (by simp; omega)
    refine ⟨⟨⟨.data (fromLe64 (rest.take 8)), t &&& 0xF⟩, body, mac, none⟩, rfl, ⟨hm16, hb, hmac⟩, ?_⟩
    simp only [pktLayout, pktHeaderLayout, n5 hty]
    rw [le64_fromLe64 _ (by simp; omega), List.append_assoc, ← hr]
    simp

theorem pkt_accepts {b : Bytes} {p : Packet} (h : pktFromBuffer b = some p) : IsPacketString b := by
  unfold pktFromBuffer at h
  cases hp : pktMetaParse b with
  | none => simp [hp] at h
  | some ms =>
    obtain ⟨m, start⟩ := ms
    simp only [hp] at h
    split at h
    · simp at h
    · rename_i hlen
      unfold pktMetaParse at hp
      split at hp
      · simp at hp
      · cases b with
        | nil => simp at hp
        | cons t rest =>
          obtain ⟨n1, n2, n3, n4, n5, n6⟩ := nibbles t
          refine ⟨t, rfl, ?_⟩
          simp only at hp
          have hmac : m.mac = t &&& 0xF → pktMacSize m.mac = if t.toNat % 16 = 2 then 143 else 0 := by
            intro e; rw [e]; unfold pktMacSize macP521
            by_cases h2 : t.toNat % 16 = 2
            · rw [if_pos h2, if_pos (n4.2 h2)]; rfl
            · rw [if_neg h2, if_neg (mt n4.1 h2)]
          split at hp
          · rename_i h1
            split at hp
            · simp at hp
            · simp only [Option.some.injEq, Prod.mk.injEq] at hp
              obtain ⟨rfl, rfl⟩ := hp
              have h1' := n1.1 h1
              rw [hmac rfl] at hlen
              refine ⟨Or.inr h1', ?_⟩
              rw [if_neg (by omega : ¬ t.toNat / 16 = 0)]; omega
          · split at hp
            · rename_i h0
              split at hp
              · simp at hp
              · cases rest with
                | nil => simp at hp
                | cons v r =>
                  simp only [Option.some.injEq, Prod.mk.injEq] at hp
                  obtain ⟨rfl, rfl⟩ := hp
                  have h0' := n2.1 h0
                  rw [hmac rfl] at hlen
                  refine ⟨Or.inl h0', ?_⟩
                  rw [if_pos h0']; omega
            · simp at hp

/-- C14, acceptance: exactly the strings with a known body type, a complete header, a non-empty
body and room for the announced MAC are accepted. -/
theorem C14_packet_accepts_iff (b : Bytes) (hb : b.length ≤ maxBuffer) :
    (∃ p, pktFromBuffer b = some p) ↔ IsPacketString b := by
  constructor
  · rintro ⟨p, h⟩; exact pkt_accepts h
  · intro h
    obtain ⟨p, _, hw, rfl⟩ := pkt_split b h
    exact ⟨_, (C14_packet_round_trip p hw hb).2⟩

/-- C14, canonicity: an accepted packet is well formed, remembers its bytes and serializes to
exactly the bytes it was parsed from. -/
theorem C14_packet_reserialize (b : Bytes) (hb : b.length ≤ maxBuffer) (p : Packet)
    (h : pktFromBuffer b = some p) :
    WfPacket p ∧ p.network = some b ∧ pktSerialize p = some b := by
  obtain ⟨p', _, hw, rfl⟩ := pkt_split b (pkt_accepts h)
  have := C14_packet_round_trip p' hw hb
  rw [h] at this
  obtain ⟨h1, h2⟩ := this
  cases h2
  exact ⟨hw, rfl, h1⟩

/-- C14, copying a packet keeps its wire form. -/
theorem C14_packet_copy (p : Packet) (h : WfPacket p) (hsize : (pktLayout p).length ≤ maxBuffer) :
    ∃ q, pktCopy p = some q ∧ q.hdr = p.hdr ∧ q.body = p.body ∧ q.mac = p.mac ∧
      pktSerialize q = pktSerialize p := by
  obtain ⟨m, body, mac, net⟩ := p
  obtain ⟨hm, hbody, hmac⟩ := h
  simp only at hm hbody hmac
  have hmb := maxBuffer_val
  have hbl : 0 < body.length := List.length_pos_iff.2 hbody
  have hl : (pktLayout ⟨m, body, mac, net⟩).length = hdrLen m + body.length + (opt mac).length := by
    simp only [pktLayout, List.length_append, pktHeaderLayout_length]
  have h1 : dup body = some body := dup_of ⟨hbl, by omega⟩
  have h2 : dupOpt mac = some mac := by
    apply dupOpt_of
    intro x hx
    subst hx
    by_cases hp : m.mac = macP521
    · simp only [hp, if_true, Option.some.injEq] at hmac
      obtain ⟨y, rfl, hy⟩ := hmac
      exact ⟨by omega, by omega⟩
    · simp [hp] at hmac
  exact ⟨⟨m, body, mac, none⟩, by simp [pktCopy, h1, h2], rfl, rfl, rfl, rfl⟩

example : pktFromBuffer [0x11, 1, 0, 0, 0, 0, 0, 0, 0, 42] =
    some ⟨⟨.data 1, 1⟩, [42], none, some [0x11, 1, 0, 0, 0, 0, 0, 0, 0, 42]⟩ := by decide
example : pktFromBuffer [0x11, 1, 0, 0, 0, 0, 0, 0, 0] = none := by decide
example : IsPacketString [0x11, 1, 0, 0, 0, 0, 0, 0, 0, 42] := ⟨0x11, rfl, by decide, by decide⟩

end Wickr
