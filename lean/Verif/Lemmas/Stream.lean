import Verif.Spec.Stream
import Verif.Spec.Engine
import Verif.Lemmas.Codec
set_option linter.unusedSimpArgs false
namespace Wickr
open Spec

theorem cipherKeyCopy_of {k : CipherKey} (h : k.key.length = k.cipher.keyLen) : cipherKeyCopy k = some k := by
  have hv : ValidBuf k.key := by
    have := maxBuffer_val
    cases hc : k.cipher <;> rw [hc] at h <;> simp only [Cipher.keyLen] at h <;> exact ⟨by omega, by omega⟩
  simp [cipherKeyCopy, dup_of hv, cipherKeyCreate, h]

theorem cipherKeyCopy_some {k k' : CipherKey} (h : cipherKeyCopy k = some k') : k' = k := by
  unfold cipherKeyCopy at h
  cases hd : dup k.key with
  | none => rw [hd] at h; simp at h
  | some d =>
    rw [hd] at h
    have := (dup_eq_some.1 hd).2
    subst this
    simp only [Option.bind_some, cipherKeyCreate] at h
    split at h
    · simp at h
    · injection h with h; exact h.symm

theorem keyLen_32 (c : Cipher) : c.keyLen = 32 := by cases c <;> rfl

theorem ppe_ok {p : UInt32} : (p < ppeMin ∨ p > ppeMax) ↔ ¬ (1 ≤ p.toNat ∧ p.toNat ≤ 32768) := by
  rw [UInt32.lt_iff_toNat_lt, gt_iff_lt, UInt32.lt_iff_toNat_lt]
  have h1 : ppeMin.toNat = 1 := rfl
  have h2 : ppeMax.toNat = 32768 := rfl
  omega

theorem streamKeyCreate_of {ck : CipherKey} {e : Bytes} {p : UInt32} {u : Option Bytes}
    (h : 1 ≤ p.toNat ∧ p.toNat ≤ 32768) : streamKeyCreate ck e p u = some ⟨ck, e, p, u⟩ := by
  rw [streamKeyCreate, if_neg]; rw [ppe_ok]; exact fun hn => hn h

theorem streamKeyCreate_some {ck : CipherKey} {e : Bytes} {p : UInt32} {u : Option Bytes} {k : StreamKey}
    (h : streamKeyCreate ck e p u = some k) :
    k = ⟨ck, e, p, u⟩ ∧ 1 ≤ p.toNat ∧ p.toNat ≤ 32768 := by
  unfold streamKeyCreate at h
  split at h
  · simp at h
  · next hn =>
    rw [ppe_ok] at hn
    injection h with h
    exact ⟨h.symm, Decidable.byContradiction fun hc => hn hc⟩

theorem streamKeyCopy_of {k : StreamKey} (h : WfStreamKey k) : streamKeyCopy k = some k := by
  rw [streamKeyCopy, cipherKeyCopy_of (by rw [keyLen_32]; exact h.key), Option.bind_some, dup_of h.evo,
    Option.bind_some, dupOpt_of h.user, Option.bind_some, streamKeyCreate_of h.ppe]

theorem streamKeyCopy_some {k k' : StreamKey} (h : streamKeyCopy k = some k') : k' = k := by
  unfold streamKeyCopy at h
  cases hc : cipherKeyCopy k.cipherKey with
  | none => rw [hc] at h; simp at h
  | some ck =>
    rw [hc, Option.bind_some] at h
    cases hd : dup k.evoKey with
    | none => rw [hd] at h; simp at h
    | some e =>
      rw [hd, Option.bind_some] at h
      cases hu : dupOpt k.userData with
      | none => rw [hu] at h; simp at h
      | some u =>
        rw [hu, Option.bind_some] at h
        have h1 := cipherKeyCopy_some hc
        have h2 := (dup_eq_some.1 hd).2
        have h3 := (dupOpt_eq_some.1 hu).1
        have h4 := (streamKeyCreate_some h).1
        subst h1 h2 h3
        exact h4

/-! ### Key evolution -/

theorem evo_add (E : Engine) (k : Bytes × Bytes) (m n : Nat) : evo E k (m + n) = evo E (evo E k m) n := by
  induction m generalizing k with
  | zero => simp [evo]
  | succ m ih => rw [Nat.succ_add]; exact ih _

/-- The stream key after `n` evolutions, as a key object. -/
def evoKeyObj (E : Engine) (k : StreamKey) (n : Nat) : StreamKey :=
  { k with
    cipherKey := { k.cipherKey with key := (evo E (keyBytes k) n).1 }
    evoKey := (evo E (keyBytes k) n).2
    userData := if n = 0 then k.userData else none }

theorem evoKeyObj_zero (E : Engine) (k : StreamKey) : evoKeyObj E k 0 = k := rfl

theorem streamKeyFromEvo_of {k : StreamKey} (hw : WfStreamKey k) {h : Bytes} (hl : h.length = 64) :
    streamKeyFromEvo k h = some ⟨{ k.cipherKey with key := h.take 32 }, h.drop 32, k.ppe, none⟩ := by
  have hmb := maxBuffer_val
  have h1 : copySection h 0 32 = some (h.take 32) := by
    rw [copySection_of (by omega) (by omega) (by omega) (by omega)]; rfl
  have h2 : copySection h 32 32 = some (h.drop 32) := by
    rw [copySection_of (by omega) (by omega) (by omega) (by omega)]
    rw [List.take_of_length_le]; simp; omega
  have hck : cipherKeyCreate k.cipherKey.cipher (h.take 32) = some { k.cipherKey with key := h.take 32 } := by
    simp [cipherKeyCreate, keyLen_32, hl]
  rw [streamKeyFromEvo, h1, Option.bind_some, h2, Option.bind_some, hck, Option.bind_some,
    streamKeyCreate_of hw.ppe]

theorem evoStep_wf {E : Engine} (hE : E.Lawful) {k : StreamKey} (hw : WfStreamKey k) :
    ∃ k', (E.hmac k.cipherKey.key k.evoKey .sha512).bind (streamKeyFromEvo k) = some k' ∧
      WfStreamKey k' ∧ k' = evoKeyObj E k 1 := by
  obtain ⟨h, hh, hl⟩ := hE.hmac_len k.cipherKey.key k.evoKey .sha512
  have hl : h.length = 64 := hl
  have hmb := maxBuffer_val
  refine ⟨_, by rw [hh, Option.bind_some, streamKeyFromEvo_of hw hl], ?_, ?_⟩
  · exact ⟨hw.auth, by simp [hl], ⟨by simp [hl], by simp [hl]; omega⟩, hw.ppe, by simp⟩
  · simp [evoKeyObj, evo, evoStep, keyBytes, hh]

theorem evoKeyObj_wf {E : Engine} (hE : E.Lawful) : ∀ (n : Nat) {k : StreamKey}, WfStreamKey k →
    WfStreamKey (evoKeyObj E k n) := by
  intro n
  induction n with
  | zero => intro k h; exact h
  | succ n ih =>
    intro k h
    obtain ⟨k', -, hw, he⟩ := evoStep_wf hE h
    have := ih hw
    have h2 : evoKeyObj E k' n = evoKeyObj E k (n + 1) := by
      subst he
      simp only [evoKeyObj, Nat.add_comm n 1]
      rw [evo_add]
      simp only [keyBytes]
      congr 1
      split <;> simp_all
    rw [h2] at this; exact this

theorem evoKeyObj_add {E : Engine} (k : StreamKey) (m n : Nat) :
    evoKeyObj E (evoKeyObj E k m) n = evoKeyObj E k (m + n) := by
  have hb : keyBytes (evoKeyObj E k m) = evo E (keyBytes k) m := rfl
  unfold evoKeyObj
  rw [evo_add]
  simp only [← hb]
  congr 1
  by_cases hm : m = 0 <;> by_cases hn : n = 0 <;> simp [hm, hn]

theorem evolveLoop_eq {E : Engine} (hE : E.Lawful) : ∀ (n : Nat) {k : StreamKey}, WfStreamKey k →
    evolveLoop E n k = (n, some (evoKeyObj E k n)) := by
  intro n
  induction n with
  | zero => intro k _; rfl
  | succ n ih =>
    intro k hw
    obtain ⟨k', h1, h2, h3⟩ := evoStep_wf hE hw
    rw [evolveLoop, h1]
    simp only [ih h2]
    rw [h3, evoKeyObj_add, Nat.add_comm 1 n]

/-- Which evolution sequence number `s` belongs to. -/
def epoch (k : StreamKey) (s : UInt64) : Nat := s.toNat / k.ppe.toNat

theorem div_toNat (s : UInt64) (p : UInt32) : (s / p.toUInt64).toNat = s.toNat / p.toNat := by
  simp

theorem epoch_mono {k : StreamKey} {a b : UInt64} (h : a ≤ b) : epoch k a ≤ epoch k b :=
  Nat.div_le_div_right (UInt64.le_iff_toNat_le.1 h)

theorem streamEvolve_eq {E : Engine} (hE : E.Lawful) {c : StreamCtx} (hw : WfStreamKey c.key) {seq : UInt64}
    (h : c.lastSeq ≤ seq) :
    streamEvolve E c seq = (epoch c.key seq - epoch c.key c.lastSeq,
      some (evoKeyObj E c.key (epoch c.key seq - epoch c.key c.lastSeq))) := by
  have hm := epoch_mono (k := c.key) h
  unfold streamEvolve
  simp only []
  have hd : ∀ s : UInt64, (s / c.key.ppe.toUInt64).toNat = epoch c.key s := fun s => div_toNat s c.key.ppe
  rw [if_neg (by rw [UInt64.lt_iff_toNat_lt, hd, hd]; omega)]
  by_cases he : seq / c.key.ppe.toUInt64 = c.lastSeq / c.key.ppe.toUInt64
  · rw [if_pos he]
    have : epoch c.key seq = epoch c.key c.lastSeq := by rw [← hd, ← hd, he]
    rw [this, Nat.sub_self, evoKeyObj_zero]
  · rw [if_neg he, streamKeyCopy_of hw]
    have hs : (seq / c.key.ppe.toUInt64 - c.lastSeq / c.key.ppe.toUInt64).toNat =
        epoch c.key seq - epoch c.key c.lastSeq := by
      rw [UInt64.toNat_sub_of_le _ _ (by rw [UInt64.le_iff_toNat_le, hd, hd]; exact hm), hd, hd]
    simp only [hs, evolveLoop_eq hE _ hw]

/-! ### Single calls -/

theorem streamEncode_refused {E : Engine} {c : StreamCtx} {d : Bytes} {a : Option Bytes} {s : UInt64}
    (h : s ≤ c.lastSeq ∨ c.dir ≠ .encode) : streamEncode E c d a s = (c, none) := by
  rw [streamEncode, if_pos h]

theorem streamDecode_refused {E : Engine} {c : StreamCtx} {r : CipherResult} {a : Option Bytes} {s : UInt64}
    (h : s ≤ c.lastSeq ∨ c.dir ≠ .decode) : streamDecode E c r a s = (c, none) := by
  rw [streamDecode, if_pos h]

theorem not_le_u64 {a b : UInt64} : ¬ a ≤ b ↔ b < a := by
  rw [UInt64.le_iff_toNat_le, UInt64.lt_iff_toNat_lt]; omega

/-- Without any assumption on the engine: data comes out only for a larger sequence number, which
becomes the last one; otherwise the last one can only grow. -/
theorem streamEncode_seq (E : Engine) (c : StreamCtx) (d : Bytes) (a : Option Bytes) (s : UInt64) :
    let r := streamEncode E c d a s
    (r.2 ≠ none → c.lastSeq < s ∧ c.dir = .encode ∧ r.1.lastSeq = s) ∧ c.lastSeq ≤ r.1.lastSeq ∧
      r.1.dir = c.dir := by
  unfold streamEncode
  by_cases h : s ≤ c.lastSeq ∨ c.dir ≠ .encode
  · simp [if_pos h]
  · rw [if_neg h]
    have h1 : c.lastSeq < s := not_le_u64.1 fun hc => h (Or.inl hc)
    have h2 : c.dir = .encode := Decidable.byContradiction fun hc => h (Or.inr hc)
    have h3 : c.lastSeq ≤ s := UInt64.le_of_lt h1
    split
    · simp
    · simp only []
      split
      · simp
      · simp [h1, h2, h3]

theorem streamDecode_seq (E : Engine) (c : StreamCtx) (d : CipherResult) (a : Option Bytes) (s : UInt64) :
    let r := streamDecode E c d a s
    (r.2 ≠ none → c.lastSeq < s ∧ c.dir = .decode ∧ r.1.lastSeq = s) ∧ c.lastSeq ≤ r.1.lastSeq ∧
      r.1.dir = c.dir := by
  unfold streamDecode
  by_cases h : s ≤ c.lastSeq ∨ c.dir ≠ .decode
  · simp [if_pos h]
  · rw [if_neg h]
    have h1 : c.lastSeq < s := not_le_u64.1 fun hc => h (Or.inl hc)
    have h2 : c.dir = .decode := Decidable.byContradiction fun hc => h (Or.inr hc)
    have h3 : c.lastSeq ≤ s := UInt64.le_of_lt h1
    split
    · simp
    · simp [h1, h2, h3]

theorem streamCtxCopy_some {c c' : StreamCtx} (h : streamCtxCopy c = some c') :
    c'.key = c.key ∧ c'.lastSeq = c.lastSeq ∧ c'.dir = c.dir ∧ (c.dir = .encode → c'.iv = c.iv) := by
  unfold streamCtxCopy at h
  cases hk : streamKeyCopy c.key with
  | none => rw [hk] at h; simp at h
  | some k =>
    rw [hk] at h
    simp only [] at h
    split at h
    · simp at h
    · next hn =>
      injection h with h; subst h
      refine ⟨streamKeyCopy_some hk, rfl, rfl, ?_⟩
      intro hd
      cases hi : c.iv.bind streamIvCopy with
      | none => exact absurd ⟨by rw [hi]; rfl, hd⟩ hn
      | some i =>
        simp only []
        cases hci : c.iv with
        | none => rw [hci] at hi; simp at hi
        | some j =>
          rw [hci, Option.bind_some, streamIvCopy] at hi
          cases hds : dup j.seed with
          | none => rw [hds] at hi; simp at hi
          | some s =>
            rw [hds] at hi
            have := (dup_eq_some.1 hds).2
            subst this
            simp at hi
            rw [← hi]

/-! ### Invariant under lawful engines -/

/-- A context whose key is the initial key `k` evolved to the epoch of its last sequence number. -/
structure StreamInv (E : Engine) (k : StreamKey) (c : StreamCtx) : Prop where
  key : c.key = evoKeyObj E k (epoch k c.lastSeq)

theorem StreamInv.ppe {E : Engine} {k : StreamKey} {c : StreamCtx} (h : StreamInv E k c) (s : UInt64) :
    epoch c.key s = epoch k s := by rw [h.key]; rfl

theorem StreamInv.wf {E : Engine} (hE : E.Lawful) {k : StreamKey} (hw : WfStreamKey k) {c : StreamCtx}
    (h : StreamInv E k c) : WfStreamKey c.key := by rw [h.key]; exact evoKeyObj_wf hE _ hw

theorem StreamInv.evolve {E : Engine} (hE : E.Lawful) {k : StreamKey} (hw : WfStreamKey k) {c : StreamCtx}
    (h : StreamInv E k c) {s : UInt64} (hs : c.lastSeq ≤ s) :
    streamEvolve E c s = (epoch k s - epoch k c.lastSeq, some (evoKeyObj E k (epoch k s))) := by
  rw [streamEvolve_eq hE (h.wf hE hw) hs, h.ppe, h.ppe]
  have := epoch_mono (k := k) hs
  have e : evoKeyObj E c.key (epoch k s - epoch k c.lastSeq) = evoKeyObj E k (epoch k s) := by
    rw [h.key, evoKeyObj_add]; congr 1; omega
  rw [e]

theorem streamCtxCreate_some {k : StreamKey} {d : Dir} {seed : Bytes} {c : StreamCtx}
    (h : streamCtxCreate k d seed = some c) :
    c = ⟨k, if d = .encode then some ⟨k.cipherKey.cipher, seed, 0⟩ else none, 0, d, 1⟩ ∧
      k.cipherKey.cipher.isAuth = true := by
  unfold streamCtxCreate at h
  split at h
  · simp at h
  · next hn => injection h with h; exact ⟨h.symm, by simpa using hn⟩

theorem streamCtxCreate_inv {E : Engine} {k : StreamKey} {d : Dir} {seed : Bytes} {c : StreamCtx}
    (h : streamCtxCreate k d seed = some c) : StreamInv E k c := by
  have := (streamCtxCreate_some h).1
  subst this
  constructor
  have : epoch k 0 = 0 := Nat.zero_div _
  simp [this, evoKeyObj_zero]

/-- The exact effect of an accepted encode call. -/
theorem streamEncode_eq {E : Engine} (hE : E.Lawful) {k : StreamKey} (hw : WfStreamKey k) {c : StreamCtx}
    (h : StreamInv E k c) {f : StreamIv} (hi : c.iv = some f) (hd : c.dir = .encode) {s : UInt64}
    (hs : c.lastSeq < s) (d : Bytes) (a : Option Bytes) :
    ∃ hm, E.hmac (le64 f.count) f.seed .sha512 = some hm ∧ hm.length = 64 ∧
      streamEncode E c d a s =
        ({ c with iv := some { f with count := f.count + 1 }, key := evoKeyObj E k (epoch k s), lastSeq := s },
          E.encrypt d a (evoKeyObj E k (epoch k s)).cipherKey (hm.take f.cipher.ivLen)) := by
  obtain ⟨hm, h1, h2⟩ := hE.hmac_len (le64 f.count) f.seed .sha512
  refine ⟨hm, h1, h2, ?_⟩
  have hle : c.lastSeq ≤ s := UInt64.le_of_lt hs
  have hn : ¬ (s ≤ c.lastSeq ∨ c.dir ≠ .encode) := by
    rintro (hc | hc)
    · exact not_le_u64.2 hs hc
    · exact hc hd
  have hev := StreamInv.evolve (c := { c with iv := some { f with count := f.count + 1 } }) hE hw
    ⟨h.key⟩ hle
  rw [streamEncode, if_neg hn, hi]
  simp [streamIvGenerate, h1, hev]

theorem streamDecode_eq {E : Engine} (hE : E.Lawful) {k : StreamKey} (hw : WfStreamKey k) {c : StreamCtx}
    (h : StreamInv E k c) (hd : c.dir = .decode) {s : UInt64}
    (hs : c.lastSeq < s) (r : CipherResult) (a : Option Bytes) :
    streamDecode E c r a s =
      ({ c with key := evoKeyObj E k (epoch k s), lastSeq := s },
        E.decrypt r a (evoKeyObj E k (epoch k s)).cipherKey true) := by
  have hle : c.lastSeq ≤ s := UInt64.le_of_lt hs
  have hn : ¬ (s ≤ c.lastSeq ∨ c.dir ≠ .decode) := by
    rintro (hc | hc)
    · exact not_le_u64.2 hs hc
    · exact hc hd
  rw [streamDecode, if_neg hn, h.evolve hE hw hle]

/-- A context in the given direction has an IV factory exactly when it encodes. -/
def DirIv (c : StreamCtx) : Prop := c.dir = .encode → ∃ f, c.iv = some f

theorem step_inv {E : Engine} (hE : E.Lawful) {k : StreamKey} (hw : WfStreamKey k) {c : StreamCtx}
    (h : StreamInv E k c) (hdi : DirIv c) (op : StreamOp) :
    StreamInv E k (op.step E c).1 ∧ DirIv (op.step E c).1 ∧ (op.step E c).1.dir = c.dir := by
  cases op with
  | encode d a s =>
    have e1 : (StreamOp.step E c (.encode d a s)).1 = (streamEncode E c d a s).1 := by
      simp only [StreamOp.step]; split <;> simp_all
    rw [e1]
    by_cases hr : s ≤ c.lastSeq ∨ c.dir ≠ .encode
    · rw [streamEncode_refused hr]; exact ⟨h, hdi, rfl⟩
    · have h1 : c.lastSeq < s := not_le_u64.1 fun hc => hr (Or.inl hc)
      have h2 : c.dir = .encode := Decidable.byContradiction fun hc => hr (Or.inr hc)
      obtain ⟨f, hf⟩ := hdi h2
      obtain ⟨hm, -, -, he⟩ := streamEncode_eq hE hw h hf h2 h1 d a
      rw [he]
      exact ⟨⟨rfl⟩, fun _ => ⟨_, rfl⟩, rfl⟩
  | decode r a s =>
    have e1 : (StreamOp.step E c (.decode r a s)).1 = (streamDecode E c r a s).1 := by
      simp only [StreamOp.step]; split <;> simp_all
    rw [e1]
    by_cases hr : s ≤ c.lastSeq ∨ c.dir ≠ .decode
    · rw [streamDecode_refused hr]; exact ⟨h, hdi, rfl⟩
    · have h1 : c.lastSeq < s := not_le_u64.1 fun hc => hr (Or.inl hc)
      have h2 : c.dir = .decode := Decidable.byContradiction fun hc => hr (Or.inr hc)
      rw [streamDecode_eq hE hw h h2 h1]
      exact ⟨⟨rfl⟩, hdi, rfl⟩
  | copy =>
    simp only [StreamOp.step]
    cases hc : streamCtxCopy c with
    | none => exact ⟨h, hdi, rfl⟩
    | some c' =>
      obtain ⟨h1, h2, h3, h4⟩ := streamCtxCopy_some hc
      refine ⟨⟨?_⟩, ?_, h3⟩
      · simp only [Option.getD_some]; rw [h1, h2]; exact h.key
      · intro hd
        simp only [Option.getD_some] at hd ⊢
        rw [h3] at hd
        rw [h4 hd]; exact hdi hd

theorem run_inv {E : Engine} (hE : E.Lawful) {k : StreamKey} (hw : WfStreamKey k) (ops : List StreamOp) :
    ∀ {c : StreamCtx}, StreamInv E k c → DirIv c →
    StreamInv E k (streamRun E c ops).1 ∧ DirIv (streamRun E c ops).1 ∧ (streamRun E c ops).1.dir = c.dir := by
  induction ops with
  | nil => intro c h hd; exact ⟨h, hd, rfl⟩
  | cons op ops ih =>
    intro c h hd
    obtain ⟨h1, h2, h3⟩ := step_inv hE hw h hd op
    obtain ⟨i1, i2, i3⟩ := ih h1 h2
    exact ⟨i1, i2, i3.trans h3⟩

theorem create_dirIv {k : StreamKey} {d : Dir} {seed : Bytes} {c : StreamCtx}
    (h : streamCtxCreate k d seed = some c) : DirIv c := by
  have := (streamCtxCreate_some h).1
  subst this
  intro hd
  simp only at hd
  exact ⟨_, by rw [if_pos hd]⟩

/-! ### Sorted sublists -/

theorem sublist_of_sorted {α : Type} (f : α → UInt64) : ∀ (B A : List α),
    A.Pairwise (fun x y => f x < f y) → B.Pairwise (fun x y => f x < f y) → (∀ x ∈ A, x ∈ B) →
    A.Sublist B := by
  intro B
  induction B with
  | nil => intro A _ _ hs; cases A with
    | nil => exact List.Sublist.slnil
    | cons x _ => exact absurd (hs x (by simp)) (by simp)
  | cons b B ih =>
    intro A hA hB hs
    cases A with
    | nil => exact List.nil_sublist _
    | cons a A =>
      rw [List.pairwise_cons] at hA hB
      rcases List.mem_cons.1 (hs a (by simp)) with hab | hab
      · subst hab
        refine List.Sublist.cons_cons _ (ih A hA.2 hB.2 ?_)
        intro x hx
        rcases List.mem_cons.1 (hs x (by simp [hx])) with h | h
        · subst h; exact absurd (hA.1 x hx) (by simp [UInt64.lt_irrefl])
        · exact h
      · refine List.Sublist.cons _ (ih (a :: A) (List.pairwise_cons.2 hA) hB.2 ?_)
        intro x hx
        rcases List.mem_cons.1 hx with h | h
        · subst h; exact hab
        · rcases List.mem_cons.1 (hs x (by simp [h])) with h' | h'
          · subst h'
            have h1 := hA.1 x h
            have h2 := hB.1 a hab
            rw [UInt64.lt_iff_toNat_lt] at h1 h2; omega
          · exact h'

end Wickr
