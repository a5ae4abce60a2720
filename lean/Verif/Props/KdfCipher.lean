import Verif.Model.KdfCipher
import Verif.Model.Toy
import Verif.Props.Codec
import Verif.Lemmas.Engine
import Verif.Props.MessageE2E
set_option linter.unusedSimpArgs false
/-
C47: passphrase encryption (wickr_crypto_engine_kdf_cipher and _kdf_decipher).
C63: what a passphrase hash depends on.
-/
namespace Wickr
open Spec

/-- The documented layout: KDF id, salt, serialized cipher result. -/
def Spec.kdfLayout (a : KdfAlgo) (salt : Bytes) (r : CipherResult) : Bytes :=
  [a.kdfId] ++ salt ++ cipherResultLayout r

/-- The scrypt settings on offer. -/
def Spec.scrypts : List KdfAlgo := [scrypt17, scrypt18, scrypt19, scrypt20]

theorem scrypts_facts {a : KdfAlgo} (h : a ∈ scrypts) :
    a ∈ wireKdfs ∧ a.kind = .scrypt ∧ a.saltSize.toNat = 16 ∧ a.outputSize.toNat = 32 := by
  simp only [scrypts, List.mem_cons, List.not_mem_nil, or_false] at h
  rcases h with rfl | rfl | rfl | rfl <;> decide

/-- C47, round trip: for every lawful engine, scrypt setting, value, passphrase, salt and IV, the output
is `| KDF_ID | SALT | CIPHER_ID | IV | TAG | CIPHER_TEXT |`, 46 bytes longer than the value, and
deciphers to the value with the same passphrase. -/
theorem C47_round_trip (E : Engine) (hE : E.Lawful) (a : KdfAlgo) (ha : a ∈ scrypts) (value pass salt iv : Bytes)
    (hv : 0 < value.length) (hvl : value.length + 46 ≤ maxBuffer) (hp : 0 < pass.length) (hpl : pass.length ≤ maxBuffer)
    (hs : salt.length = 16) (hiv : iv.length = 12) :
    ∃ out r, kdfCipher E a .gcm value pass salt iv = some out ∧ out = kdfLayout a salt r ∧ r.cipher = .gcm ∧
      r.iv = iv ∧ out.length = value.length + 46 ∧ kdfDecipher E out pass = some value := by
  have hmb := maxBuffer_val
  obtain ⟨w, hk, hss, ho⟩ := scrypts_facts ha
  obtain ⟨h, h1, h2⟩ := hE.scrypt_len a salt pass ha (by omega) hp hpl
  obtain ⟨r, ct, e1, e2, e3, e4, e5, e6, e7⟩ := hE.enc_dec value none ⟨.gcm, h⟩ iv hv (by omega)
    (by simp only [h2, ho]; rfl) hiv (by simp)
  have hrl := layout_len_of e4 e5
  rw [e2] at hrl
  simp only [Cipher.ivLen, Cipher.tagLen] at hrl
  have hcr := C10_cipher_result_round_trip r e4 (by omega)
  obtain ⟨mb, m1, m2, m3, m4⟩ := C12_kdf_meta_round_trip a w salt (by omega) (cipherResultLayout r) (by omega)
  have hml : mb.length = 17 := by rw [m2]; simp [hs]
  have hlen : (mb ++ cipherResultLayout r).length = value.length + 46 := by
    rw [List.length_append, hml, hrl, e6]; omega
  have hcat : concat2 (some mb) (some (cipherResultLayout r)) = some (mb ++ cipherResultLayout r) := by
    rw [concat2_some]
    exact ⟨by simp [optBytes], by omega, by omega⟩
  refine ⟨mb ++ cipherResultLayout r, r, ?_, by rw [m2]; simp [kdfLayout], e2, e3, hlen, ?_⟩
  · unfold kdfCipher
    rw [if_neg (by simp [hk, Cipher.isAuth, ho, Cipher.keyLen])]
    simp [h1, e1, hcr.1, m1, hcat]
  · unfold kdfDecipher
    simp only []
    rw [m3, if_neg (by omega), m4]
    have hd : (mb ++ cipherResultLayout r).drop mb.length = cipherResultLayout r := by simp
    have hkey : cipherKeyFromKdf h r.cipher = some ⟨.gcm, h⟩ := by
      unfold cipherKeyFromKdf cipherKeyCreate
      have hl : h.length = Cipher.gcm.keyLen := by rw [h2, ho]; rfl
      rw [e2, if_neg (by rw [hl]; simp), dup_of ⟨by rw [h2]; omega, by rw [h2]; omega⟩]
      simp [hl]
    simp only [Option.bind_some, h1, hd, hcr.2, hkey]
    exact e7 true (by simp [Cipher.isAuth])

/-- C47: only scrypt, and only authenticated ciphers, are used to encrypt, whatever the engine. -/
theorem C47_refuses_weak (E : Engine) (a : KdfAlgo) (c : Cipher) (value pass salt iv out : Bytes)
    (h : kdfCipher E a c value pass salt iv = some out) : a.kind = .scrypt ∧ c.isAuth = true := by
  unfold kdfCipher at h
  split at h
  · cases h
  · rename_i hn
    simp only [not_or, Decidable.not_not, Bool.not_eq_false] at hn
    exact ⟨hn.1, hn.2.1⟩

/-- C47, what is accepted: for every lawful engine and every byte string, a successful decryption means
that the string is a known KDF id, its salt, and a cipher result under an authenticated cipher, and that
the result decrypts under the passphrase's hash to the value returned.  Every other string is refused. -/
theorem C47_accepts_only (E : Engine) (hE : E.Lawful) (b pass v : Bytes) (hb : b.length ≤ maxBuffer)
    (h : kdfDecipher E b pass = some v) :
    ∃ a salt r k, b = kdfLayout a salt r ∧ a ∈ wireKdfs ∧ salt.length = a.saltSize.toNat ∧ r.cipher.isAuth = true ∧
      WfCipherResult r ∧ E.kdf ⟨a, some salt, none⟩ pass = some k ∧ k.length = r.cipher.keyLen ∧
      E.decrypt r none ⟨r.cipher, k⟩ true = some v := by
  unfold kdfDecipher at h
  simp only [] at h
  split at h
  · cases h
  · rename_i hn
    simp only [Option.bind_eq_some_iff] at h
    obtain ⟨m, hm, k, hk, r, hr, ck, hck, hd⟩ := h
    obtain ⟨m1, m2, ⟨s, m3, m4⟩, m5, m6⟩ := C12_kdf_meta_accepts b m hm
    obtain ⟨w, hr'⟩ := C10_cipher_result_reserialize _ (by simp; omega) r hr
    have hlay : cipherResultLayout r = b.drop (kdfMetaSize b).toNat := by
      by_cases hs : (cipherResultLayout r).length ≤ maxBuffer
      · rw [(C10_cipher_result_round_trip r w hs).1] at hr'
        exact Option.some.inj hr'
      · rw [C10_cipher_result_too_large r w (by omega)] at hr'
        cases hr'
    have hmeq : m = ⟨m.algo, some s, none⟩ := by
      cases m; simp only at m2 m3; rw [m2, m3]
    have hmb : [m.algo.kdfId] ++ s = b.take (kdfMetaSize b).toNat := by
      rw [hmeq] at m6
      simp only [kdfMetaSerialize, Option.isNone_some, Bool.false_eq_true, and_false, if_false, concat2_some] at m6
      rw [m6.1]
    have hckk : ck = ⟨r.cipher, k⟩ ∧ k.length = r.cipher.keyLen := by
      unfold cipherKeyFromKdf at hck
      split at hck
      · cases hck
      · rename_i hl
        simp only [Option.bind_eq_some_iff, dup_eq_some] at hck
        obtain ⟨_, ⟨_, rfl⟩, hc⟩ := hck
        unfold cipherKeyCreate at hc
        rw [if_neg hl] at hc
        cases hc
        exact ⟨rfl, by omega⟩
    refine ⟨m.algo, s, r, k, ?_, m1, m4, hE.dec_auth _ _ _ _ hd, w, by rw [← hmeq]; exact hk, hckk.2, ?_⟩
    · rw [kdfLayout, hmb, hlay, List.take_append_drop]
    · rw [← hckk.1]; exact hd

/-- C47, strings too short to hold salt, IV, tag and cipher text are refused. -/
theorem C47_short_refused (E : Engine) (hE : E.Lawful) (b pass : Bytes) (h : b.length < 45) :
    kdfDecipher E b pass = none := by
  cases hd : kdfDecipher E b pass with
  | none => rfl
  | some v =>
    have hmb := maxBuffer_val
    obtain ⟨a, salt, r, k, h1, h2, h3, h4, h5, _⟩ := C47_accepts_only E hE b pass v (by omega) hd
    have hs : 16 ≤ a.saltSize.toNat := by
      simp only [wireKdfs, List.mem_cons, List.not_mem_nil, or_false] at h2
      rcases h2 with rfl | rfl | rfl | rfl | rfl <;> decide
    have hl : 29 ≤ (cipherResultLayout r).length := by
      obtain ⟨w1, w2, _⟩ := h5
      rw [h4] at w2
      obtain ⟨t, t1, t2⟩ := w2
      simp only [cipherResultLayout, opt, t1, List.length_append, List.length_cons, List.length_nil, w1,
        Option.getD_some, t2]
      cases hc : r.cipher with
      | gcm => simp [Cipher.ivLen, Cipher.tagLen]
      | ctr => rw [hc] at h4; cases h4
    have := congrArg List.length h1
    simp only [kdfLayout, List.length_append, List.length_cons, List.length_nil] at this
    omega

/-- C47, bcrypt: with the default engine, provided bcrypt hashes do not happen to have the size of a
cipher key (they have 60 characters), a string naming bcrypt is refused. -/
theorem C47_bcrypt_refused (P : Prim) (hP : P.Lawful) (hb : ∀ p s h, P.bcrypt p s = some h → h.length ≠ 32)
    (b pass : Bytes) (hl : b.length ≤ maxBuffer) (h : b[0]? = some bcrypt15.kdfId) :
    kdfDecipher (defaultEngine P) b pass = none := by
  cases hd : kdfDecipher (defaultEngine P) b pass with
  | none => rfl
  | some v =>
    obtain ⟨a, salt, r, k, h1, h2, h3, h4, h5, h6, h7, _⟩ := C47_accepts_only _ (defaultEngine_lawful P hP) b pass v hl hd
    have ha : a = bcrypt15 := by
      rw [h1] at h
      simp only [kdfLayout, List.append_assoc, List.cons_append, List.getElem?_cons_zero, Option.some.injEq] at h
      simp only [wireKdfs, List.mem_cons, List.not_mem_nil, or_false] at h2
      rcases h2 with rfl | rfl | rfl | rfl | rfl
      · exact absurd h (by decide)
      · exact absurd h (by decide)
      · exact absurd h (by decide)
      · exact absurd h (by decide)
      · rfl
    subst ha
    have hkl : r.cipher.keyLen = 32 := by cases r.cipher <;> rfl
    simp only [defaultEngine, performKdfMeta, bcrypt15, bcryptHash, Option.bind_eq_some_iff, Option.map_eq_some_iff] at h6
    obtain ⟨k', hk', _, _, rfl⟩ := h6
    split at hk'
    · cases hk'
    · split at hk'
      · cases hk'
      · split at hk'
        · cases hk'
        · simp only [Option.bind_eq_some_iff, dup_eq_some] at hk'
          obtain ⟨x, hx, _, rfl⟩ := hk'
          exact absurd (by omega) (hb _ _ _ hx)

/-- C47 on the toy engine: the round trip, the wrong passphrase, a flipped tag. -/
example :
    (kdfCipher toyEngine scrypt17 .gcm [1, 2, 3] [9] (List.replicate 16 4) (List.replicate 12 5)).bind
      (kdfDecipher toyEngine · [9]) = some [1, 2, 3] ∧
    (kdfCipher toyEngine scrypt17 .gcm [1, 2, 3] [9] (List.replicate 16 4) (List.replicate 12 5)).bind
      (kdfDecipher toyEngine · [8]) = none ∧
    (kdfCipher toyEngine scrypt17 .gcm [1, 2, 3] [9] (List.replicate 16 4) (List.replicate 12 5)).bind
      (fun b => kdfDecipher toyEngine (b.set 40 0) [9]) = none ∧
    kdfCipher toyEngine scrypt17 .ctr [1, 2, 3] [9] (List.replicate 16 4) (List.replicate 16 5) = none := by
  decide +kernel

/-! ### C63 -/

/-- C63 is false for bcrypt: bytes after the first NUL of a passphrase do not influence the hash. -/
theorem C63_bcrypt_stops_at_nul (P : Prim) (m : KdfMeta) (hm : m.algo.kind = .bcrypt) (p x y : Bytes)
    (hx : p.length + x.length + 2 ≤ maxBuffer) (hy : p.length + y.length + 2 ≤ maxBuffer) :
    (defaultEngine P).kdf m (p ++ 0 :: x) = (defaultEngine P).kdf m (p ++ 0 :: y) := by
  have ht : ∀ z : Bytes, (p ++ 0 :: z).takeWhile (· ≠ 0) = p.takeWhile (· ≠ 0) := by
    intro z
    induction p with
    | nil => simp
    | cons a p ih =>
      simp only [List.cons_append, List.takeWhile_cons]
      split
      · congr 1
        exact ih (by simp only [List.length_cons] at hx; omega) (by simp only [List.length_cons] at hy; omega)
      · rfl
  simp only [defaultEngine, performKdfMeta, hm, bcryptHash]
  cases hs : m.salt with
  | none => rfl
  | some s =>
    simp only [ht, List.length_append, List.length_cons]
    have e1 : ¬ (p.length + (x.length + 1) = 0 ∨ p.length + (x.length + 1) + 1 > maxBuffer) := by omega
    have e2 : ¬ (p.length + (y.length + 1) = 0 ∨ p.length + (y.length + 1) + 1 > maxBuffer) := by omega
    simp only [e1, e2, if_false]

/-- C63 (what holds): the four scrypt settings hash the whole passphrase, with the documented
parameters: N = 2^17 .. 2^20, r = 8, p = 1, 32 bytes.

Missing from C63: bcrypt, see above. -/
theorem C63_scrypt_whole_passphrase_partial (P : Prim) (salt pass : Bytes) (hs : salt.length = 16)
    (a : KdfAlgo) (n : Nat) (h : (a, n) ∈ [(scrypt17, 17), (scrypt18, 18), (scrypt19, 19), (scrypt20, 20)]) :
    (defaultEngine P).kdf ⟨a, some salt, none⟩ pass = P.scrypt pass salt (2 ^ n) 8 1 32 := by
  have hmb := maxBuffer_val
  have hd := dup_of (b := salt) ⟨by omega, by omega⟩
  simp only [List.mem_cons, List.not_mem_nil, or_false, Prod.mk.injEq] at h
  rcases h with ⟨rfl, rfl⟩ | ⟨rfl, rfl⟩ | ⟨rfl, rfl⟩ | ⟨rfl, rfl⟩ <;>
    simp [defaultEngine, performKdfMeta, scryptHash, scrypt17, scrypt18, scrypt19, scrypt20, kdfMetaCopy, dupOpt, hd,
      kdfMetaCreate, hs]

/-- C63 on the toy engine: two passphrases with the same bcrypt hash and different scrypt hashes. -/
example : toyEngine.kdf ⟨bcrypt15, some (List.replicate 22 1), none⟩ [5, 0, 6] =
      toyEngine.kdf ⟨bcrypt15, some (List.replicate 22 1), none⟩ [5, 0, 7, 8] ∧
    (toyEngine.kdf ⟨bcrypt15, some (List.replicate 22 1), none⟩ [5, 0, 6]).isSome ∧
    toyEngine.kdf ⟨scrypt17, some (List.replicate 16 1), none⟩ [5, 0, 6] ≠
      toyEngine.kdf ⟨scrypt17, some (List.replicate 16 1), none⟩ [5, 0, 7] := by decide +kernel

end Wickr
