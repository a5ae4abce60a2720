import Verif.Model.KeyExchange
import Verif.Model.Toy
import Verif.Lemmas.ProtoSize
import Verif.Lemmas.Identity
set_option linter.unusedSimpArgs false
/-
C40: key exchanges, looking them up, and the codec of exchange sets.
-/
namespace Wickr
open Spec

/-- An exchange the library can produce: identifier and cipher text are valid buffers. -/
structure Spec.WfExchange (x : KeyExchange) : Prop where
  id : ValidBuf x.id
  ct : WfCipherResult x.ct
  size : (cipherResultLayout x.ct).length ≤ maxBuffer

theorem cipherResultCopy_wf {r : CipherResult} (h : WfCipherResult r)
    (hs : (cipherResultLayout r).length ≤ maxBuffer) : cipherResultCopy r = some r := by
  have hmb := maxBuffer_val
  obtain ⟨c, iv, ct, tag⟩ := r
  obtain ⟨h1, h2, h3⟩ := h
  simp only at h1 h2 h3
  have hct : ct.bind dup = ct := by
    cases ct with
    | none => rfl
    | some x =>
      have : x.length ≤ maxBuffer := by simp [cipherResultLayout, opt] at hs; omega
      simp [dup_of ⟨List.length_pos_iff.2 (h3 x rfl), this⟩]
  cases c with
  | gcm =>
    simp only [Cipher.isAuth, if_true, Cipher.ivLen, Cipher.tagLen] at h1 h2
    obtain ⟨t, rfl, ht⟩ := h2
    have hiv : dup iv = some iv := dup_of ⟨by omega, by omega⟩
    have htg : dup t = some t := dup_of ⟨by omega, by omega⟩
    simp [cipherResultCopy, hiv, hct, htg, cipherResultCreate, Cipher.ivLen, Cipher.tagLen, Cipher.isAuth, h1, ht]
  | ctr =>
    simp only [Cipher.isAuth, Cipher.ivLen, Cipher.tagLen, Bool.false_eq_true, if_false] at h1 h2
    subst h2
    have hiv : dup iv = some iv := dup_of ⟨by omega, by omega⟩
    simp [cipherResultCopy, hiv, hct, cipherResultCreate, Cipher.ivLen, Cipher.tagLen, Cipher.isAuth, h1]

theorem exchangeCopy_wf {x : KeyExchange} (h : WfExchange x) : exchangeCopy x = some x := by
  simp [exchangeCopy, cipherResultCopy_wf h.ct h.size, dup_of h.id]

/-! ### Lookup -/

/-- C40.  In a set whose slots are all filled, `wickr_key_exchange_set_find` returns the first
exchange whose identifier equals the one asked for, and NULL if there is none. -/
theorem C40_find_first (k : EcKey) (xs : List KeyExchange) (h : ∀ x ∈ xs, WfExchange x) (i : Bytes) :
    exchangeSetFind ⟨k, xs.map some⟩ i = Res.ofOption (xs.find? fun x => x.id == i) := by
  unfold exchangeSetFind
  simp only []
  induction xs with
  | nil => rfl
  | cons x xs ih =>
    have ih := ih fun y hy => h y (by simp [hy])
    simp only [List.map_cons, exchangeFind]
    by_cases hi : i = x.id
    · have : bufIsEqual (some i) (some x.id) none = true := bufIsEqual_none.2 ⟨i, rfl, by rw [hi]⟩
      have h2 : (x.id == i) = true := by simp [hi]
      rw [if_pos this, exchangeCopy_wf (h x (by simp))]
      simp only [List.find?, h2, Res.ofOption]
    · have : ¬ bufIsEqual (some i) (some x.id) none = true := fun hc => by
        obtain ⟨y, h1, h2⟩ := bufIsEqual_none.1 hc
        cases h1; exact hi (Option.some.inj h2).symm
      have h2 : (x.id == i) = false := by simpa using Ne.symm hi
      simp [this, List.find?, h2, ih]

/-- C40, the answer spelled out: the exchange returned is in the set, has the identifier, and no
earlier one has it. -/
theorem C40_find_ok_iff (k : EcKey) (xs : List KeyExchange) (h : ∀ x ∈ xs, WfExchange x) (i : Bytes)
    (y : KeyExchange) : exchangeSetFind ⟨k, xs.map some⟩ i = .ok y ↔
    ∃ pre post, xs = pre ++ y :: post ∧ y.id = i ∧ ∀ x ∈ pre, x.id ≠ i := by
  rw [C40_find_first k xs h i]
  have : (Res.ofOption (xs.find? fun x => x.id == i) = .ok y) ↔ xs.find? (fun x => x.id == i) = some y := by
    cases xs.find? (fun x => x.id == i) <;> simp [Res.ofOption]
  rw [this, List.find?_eq_some_iff_append]
  constructor
  · rintro ⟨h1, pre, post, h2, h3⟩
    exact ⟨pre, post, h2, by simpa using h1, fun x hx => by simpa using h3 x hx⟩
  · rintro ⟨pre, post, h2, h1, h3⟩
    exact ⟨by simpa using h1, pre, post, h2, fun x hx => by simpa using h3 x hx⟩

/-- C40: NULL exactly if no exchange has the identifier. -/
theorem C40_find_null_iff (k : EcKey) (xs : List KeyExchange) (h : ∀ x ∈ xs, WfExchange x) (i : Bytes) :
    exchangeSetFind ⟨k, xs.map some⟩ i = .null ↔ ∀ x ∈ xs, x.id ≠ i := by
  rw [C40_find_first k xs h i]
  cases hf : xs.find? (fun x => x.id == i) with
  | none =>
    have hn := List.find?_eq_none.1 hf
    simp only [Res.ofOption, true_iff]
    intro x hx; simpa using hn x hx
  | some y =>
    have h1 := List.mem_of_find?_eq_some hf
    have h2 := List.find?_some hf
    simp only [Res.ofOption, reduceCtorEq, false_iff]
    intro hc; exact hc y h1 (by simpa using h2)

/-- C40, what a slot that was never filled does: the search is undefined exactly if it reaches such a
slot before it finds the identifier. -/
theorem C40_unset_slot_undefined_iff (k : EcKey) (xs : List (Option KeyExchange)) (i : Bytes) :
    exchangeSetFind ⟨k, xs⟩ i = .ub ↔
    ∃ pre post, xs = pre ++ none :: post ∧ ∀ o ∈ pre, ∃ x, o = some x ∧ x.id ≠ i := by
  unfold exchangeSetFind
  simp only []
  induction xs with
  | nil => simp [exchangeFind]
  | cons o xs ih =>
    cases o with
    | none =>
      simp only [exchangeFind, true_iff]
      exact ⟨[], xs, rfl, by simp⟩
    | some x =>
      simp only [exchangeFind]
      by_cases hi : i = x.id
      · have : bufIsEqual (some i) (some x.id) none = true := bufIsEqual_none.2 ⟨i, rfl, by rw [hi]⟩
        rw [if_pos this]
        constructor
        · cases exchangeCopy x <;> simp [Res.ofOption]
        · rintro ⟨pre, post, h1, h2⟩
          cases pre with
          | nil => simp at h1
          | cons p pre =>
            simp only [List.cons_append, List.cons.injEq] at h1
            obtain ⟨y, hy, hne⟩ := h2 p (by simp)
            rw [← h1.1] at hy
            cases hy; exact absurd hi.symm hne
      · have : ¬ bufIsEqual (some i) (some x.id) none = true := fun hc => by
          obtain ⟨y, h1, h2⟩ := bufIsEqual_none.1 hc
          cases h1; exact hi (Option.some.inj h2).symm
        rw [if_neg this, ih]
        constructor
        · rintro ⟨pre, post, rfl, h2⟩
          refine ⟨some x :: pre, post, rfl, ?_⟩
          intro o ho
          rcases List.mem_cons.1 ho with rfl | ho
          · exact ⟨x, rfl, Ne.symm hi⟩
          · exact h2 o ho
        · rintro ⟨pre, post, h1, h2⟩
          cases pre with
          | nil => simp at h1
          | cons p pre =>
            simp only [List.cons_append, List.cons.injEq] at h1
            exact ⟨pre, post, h1.2, fun o ho => h2 o (by simp [ho])⟩

/-- C40 does not hold for every set: a set can be made from an array with an unset slot, and looking
an identifier up in it is undefined although the identifier is there. -/
theorem C40_unset_slot_undefined_witness : ∃ (s : KeyExchangeSet) (x : KeyExchange),
    some x ∈ s.exchanges ∧ WfExchange x ∧ exchangeSetFind s x.id = .ub := by
  refine ⟨⟨toyKey 3, [none, some ⟨[1], 5, ⟨.ctr, List.replicate 16 0, some [9], none⟩⟩]⟩,
    ⟨[1], 5, ⟨.ctr, List.replicate 16 0, some [9], none⟩⟩, by simp, ⟨?_, ⟨rfl, rfl, by simp⟩, ?_⟩, rfl⟩
  · exact ⟨by decide, by decide⟩
  · decide

/-! ### Codec -/

theorem exchangeToProto_wf {x : KeyExchange} (h : WfExchange x) :
    exchangeToProto x = some ⟨x.id, x.keyId, cipherResultLayout x.ct⟩ := by
  simp [exchangeToProto, (C10_cipher_result_round_trip x.ct h.ct h.size).1]

theorem cipherResultLayout_pos (r : CipherResult) : 0 < (cipherResultLayout r).length := by
  simp [cipherResultLayout]

theorem exchangeFromProto_wf {x : KeyExchange} (h : WfExchange x) :
    exchangeFromProto ⟨x.id, x.keyId, cipherResultLayout x.ct⟩ = some x := by
  have h1 : x.id ≠ [] := List.length_pos_iff.1 h.id.1
  have h2 := cipherResultLayout_pos x.ct
  have h3 : cipherResultLayout x.ct ≠ [] := List.length_pos_iff.1 h2
  simp [exchangeFromProto, h1, h3, dup_of ⟨h2, h.size⟩, (C10_cipher_result_round_trip x.ct h.ct h.size).2,
    dup_of h.id]

theorem mapM_some_of {α β : Type} {f : α → Option β} {g : α → β} : ∀ {xs : List α},
    (∀ x ∈ xs, f x = some (g x)) → xs.mapM f = some (xs.map g)
  | [], _ => rfl
  | x :: xs, h => by
    have ih := mapM_some_of (f := f) (g := g) (xs := xs) fun y hy => h y (by simp [hy])
    simp [List.mapM_cons, h x (by simp), ih]

/-- The message an exchange set is written as. -/
def Spec.exchangeSetProto (k : EcKey) (xs : List KeyExchange) : PExchangeSet :=
  ⟨k.pub, xs.map fun x => ⟨x.id, x.keyId, cipherResultLayout x.ct⟩⟩

theorem exchangeSetToProto_wf (k : EcKey) {xs : List KeyExchange} (h : ∀ x ∈ xs, WfExchange x) (h0 : xs ≠ []) :
    exchangeSetToProto ⟨k, xs.map some⟩ = some (exchangeSetProto k xs) := by
  have : (xs.map some).mapM (fun (x : Option KeyExchange) => x.bind exchangeToProto) =
      some (xs.map fun x => ⟨x.id, x.keyId, cipherResultLayout x.ct⟩) := by
    rw [List.mapM_map]
    exact mapM_some_of fun x hx => exchangeToProto_wf (h x hx)
  simp [exchangeSetToProto, this, exchangeSetProto, h0]

theorem exchangeSetFromProto_wf {E : Engine} {k : EcKey} {xs : List KeyExchange}
    (h : ∀ x ∈ xs, WfExchange x) (h0 : xs ≠ []) (hf : 8 * xs.length ≤ maxBuffer) (hp : k.pub ≠ [])
    (hk : E.ecImport k.pub false = some { k with pri := none }) :
    exchangeSetFromProto E (exchangeSetProto k xs) = some ⟨{ k with pri := none }, xs.map some⟩ := by
  have hmb := maxBuffer_val
  have hm : (xs.map fun x => (⟨x.id, x.keyId, cipherResultLayout x.ct⟩ : PExchange)).mapM exchangeFromProto =
      some xs := by
    rw [List.mapM_map]
    have := mapM_some_of (f := fun x => exchangeFromProto ⟨x.id, x.keyId, cipherResultLayout x.ct⟩) (g := id)
      (xs := xs) fun x hx => exchangeFromProto_wf (h x hx)
    simpa [Function.comp_def] using this
  have hl : xs.length ≠ 0 := fun hc => h0 (List.length_eq_zero_iff.1 hc)
  have hn : ¬ (xs.length = 0 ∨ xs.length > 2147483647 ∨ k.pub = []) := by
    rintro (hc | hc | hc)
    · exact hl hc
    · omega
    · exact hp hc
  simp only [exchangeSetFromProto, exchangeSetProto, List.length_map, if_neg hn, arrayFits,
    decide_eq_true_eq, not_true_eq_false, hf, if_false, hm, Option.bind_some, hk, Option.map_some]

theorem PExchange.size (m : PExchange) :
    (fieldsEnc m.pack).length ≤ 60 + m.identifier.length + m.data.length := by
  have h1 := size_putBytes 1 (some m.identifier)
  have h2 := size_putU64 2 (some m.keyId)
  have h3 := size_putBytes 3 (some m.data)
  simp only [PExchange.pack, fieldsEnc_append, List.length_append, optBytes] at *; omega

theorem size_putRep {α : Type} (pack : α → List Field) (n : Nat) (f : α → Nat) : ∀ (ms : List α),
    (∀ m ∈ ms, (fieldsEnc (pack m)).length + 20 ≤ f m) →
    (fieldsEnc (putRep pack n ms)).length ≤ (ms.map f).sum
  | [], _ => by simp [putRep, fieldsEnc]
  | m :: ms, h => by
    have ih := size_putRep pack n f ms fun x hx => h x (by simp [hx])
    have h1 := size_putMsg pack n (some m)
    have h2 := h m (by simp)
    have : putRep pack n (m :: ms) = putMsg pack n (some m) ++ putRep pack n ms := by simp [putRep, putMsg]
    rw [this, fieldsEnc_append, List.length_append]
    simp only [List.map_cons, List.sum_cons] at *; omega

/-- Room an exchange needs at most in a serialized set. -/
def Spec.exchangeRoom (x : KeyExchange) : Nat := 80 + x.id.length + (cipherResultLayout x.ct).length

theorem exchangeSet_size (k : EcKey) (xs : List KeyExchange) :
    (fieldsEnc (exchangeSetProto k xs).pack).length ≤ 20 + k.pub.length + (xs.map exchangeRoom).sum := by
  have h1 := size_putBytes 1 (some k.pub)
  have h2 := size_putRep PExchange.pack 2 (fun m => 80 + m.identifier.length + m.data.length)
    (exchangeSetProto k xs).exchanges fun m _ => by have := PExchange.size m; omega
  have h3 : ((exchangeSetProto k xs).exchanges.map fun m => 80 + m.identifier.length + m.data.length).sum =
      (xs.map exchangeRoom).sum := by
    simp only [exchangeSetProto, List.map_map]; rfl
  rw [h3] at h2
  simp only [PExchangeSet.pack, fieldsEnc_append, List.length_append, optBytes, exchangeSetProto] at *
  omega

theorem room_sum_ge : ∀ (xs : List KeyExchange), 80 * xs.length ≤ (xs.map exchangeRoom).sum
  | [] => by simp
  | x :: xs => by
    have := room_sum_ge xs
    simp only [List.length_cons, List.map_cons, List.sum_cons, exchangeRoom] at *; omega

/-- C40, codec: a non-empty set (of any number of exchanges that fits a buffer) survives
serialization with number, order, identifiers, key ids and cipher texts; of the sender's key only the
public half. -/
theorem C40_set_round_trip (E : Engine) (k : EcKey) (xs : List KeyExchange) (h : ∀ x ∈ xs, WfExchange x)
    (h0 : xs ≠ []) (hk : E.ecImport k.pub false = some { k with pri := none }) (hp : k.pub ≠ [])
    (hs : 20 + k.pub.length + (xs.map exchangeRoom).sum ≤ maxBuffer) :
    ∃ b, exchangeSetSerialize ⟨k, xs.map some⟩ = some b ∧ b.length ≤ 20 + k.pub.length + (xs.map exchangeRoom).sum ∧
      exchangeSetFromBuffer E b = some ⟨{ k with pri := none }, xs.map some⟩ := by
  have hz := exchangeSet_size k xs
  have hr := room_sum_ge xs
  have hpk : protoPack (exchangeSetProto k xs).pack = some (fieldsEnc (exchangeSetProto k xs).pack) :=
    protoPack_ok (by simp [PExchangeSet.pack, putBytes]) (by omega)
  refine ⟨_, by simp [exchangeSetSerialize, exchangeSetToProto_wf k h h0, hpk], hz, ?_⟩
  unfold exchangeSetFromBuffer
  rw [PExchangeSet.lawful.round_trip _ _ hpk]
  exact exchangeSetFromProto_wf h h0 (by omega) hp hk

theorem size_rep_ge {α : Type} (pack : α → List Field) (n c : Nat) : ∀ (ms : List α),
    (∀ m ∈ ms, c ≤ (fieldsEnc (pack m)).length) → c * ms.length ≤ (fieldsEnc (putRep pack n ms)).length
  | [], _ => by simp
  | m :: ms, h => by
    have ih := size_rep_ge pack n c ms fun x hx => h x (by simp [hx])
    have h2 := h m (by simp)
    have h3 : (fieldsEnc (pack m)).length ≤ (fieldsEnc (putMsg pack n (some m))).length :=
      len_le_of_mem (n := n) (by simp [putMsg])
    have : putRep pack n (m :: ms) = putMsg pack n (some m) ++ putRep pack n ms := by simp [putRep, putMsg]
    rw [this, fieldsEnc_append, List.length_append, List.length_cons, Nat.mul_succ]
    omega

theorem layout_ge {r : CipherResult} (h : WfCipherResult r) : 17 ≤ (cipherResultLayout r).length := by
  have h1 := h.1
  cases hc : r.cipher
  · have h2 := h.2.1
    simp only [hc, Cipher.isAuth, if_true, Cipher.tagLen, Cipher.ivLen] at h1 h2
    obtain ⟨t, ht, hl⟩ := h2
    simp [cipherResultLayout, h1, ht, opt, hl]
    omega
  · simp only [hc, Cipher.ivLen] at h1
    simp [cipherResultLayout, h1]

/-- C40, codec without a size hypothesis: whatever non-empty set was serialized is read back. -/
theorem C40_serialized_is_read_back (E : Engine) (k : EcKey) (xs : List KeyExchange) (b : Bytes)
    (h : ∀ x ∈ xs, WfExchange x) (h0 : xs ≠ []) (hk : E.ecImport k.pub false = some { k with pri := none })
    (hp : k.pub ≠ []) (hb : exchangeSetSerialize ⟨k, xs.map some⟩ = some b) :
    exchangeSetFromBuffer E b = some ⟨{ k with pri := none }, xs.map some⟩ := by
  simp only [exchangeSetSerialize, exchangeSetToProto_wf k h h0, Option.bind_some] at hb
  unfold exchangeSetFromBuffer
  rw [PExchangeSet.lawful.round_trip _ _ hb]
  refine exchangeSetFromProto_wf h h0 ?_ hp hk
  unfold protoPack at hb
  rw [dup_eq_some] at hb
  have hl := hb.1.2
  have hrep := size_rep_ge PExchange.pack 2 17 (exchangeSetProto k xs).exchanges fun m hm => by
    simp only [exchangeSetProto, List.mem_map] at hm
    obtain ⟨x, hx, rfl⟩ := hm
    refine Nat.le_trans (layout_ge (h x hx).ct) ?_
    exact len_le_of_mem (n := 3) (by simp [PExchange.pack, putBytes, putU64])
  have hlen : (exchangeSetProto k xs).exchanges.length = xs.length := by simp [exchangeSetProto]
  rw [hlen] at hrep
  simp only [PExchangeSet.pack, fieldsEnc_append, List.length_append] at hl
  omega

/-- C40: an empty set cannot be written and a message without exchanges is never accepted; a set with an unset slot cannot be
written. -/
theorem C40_degenerate_sets (E : Engine) (k : EcKey) :
    exchangeSetSerialize ⟨k, []⟩ = none ∧
    (∀ b p, (fieldsDec b).bind PExchangeSet.unpack = some p → p.exchanges = [] → exchangeSetFromBuffer E b = none) ∧
    (∀ xs : List (Option KeyExchange), none ∈ xs → exchangeSetSerialize ⟨k, xs⟩ = none) := by
  refine ⟨rfl, fun b p hb hp => ?_, ?_⟩
  · unfold exchangeSetFromBuffer
    simp [hb, hp, exchangeSetFromProto]
  · intro xs hx
    have : xs.mapM (fun (x : Option KeyExchange) => x.bind exchangeToProto) = none := by
      induction xs with
      | nil => simp at hx
      | cons o xs ih =>
        rw [List.mapM_cons]
        rcases List.mem_cons.1 hx with rfl | hx
        · rfl
        · cases ho : o.bind exchangeToProto with
          | none => rfl
          | some p => simp [ih hx]
    simp [exchangeSetSerialize, exchangeSetToProto, this]

theorem mapM_mem {α β : Type} {f : α → Option β} : ∀ {xs : List α} {ys : List β}, xs.mapM f = some ys →
    ys.length = xs.length ∧ ∀ y ∈ ys, ∃ x ∈ xs, f x = some y
  | [], ys, h => by cases h; simp
  | x :: xs, ys, h => by
    rw [List.mapM_cons] at h
    cases hx : f x with
    | none => simp [hx] at h
    | some y =>
      cases hm : xs.mapM f with
      | none => simp [hx, hm] at h
      | some zs =>
        simp [hx, hm] at h
        subst h
        obtain ⟨h1, h2⟩ := mapM_mem hm
        refine ⟨by simp [h1], fun z hz => ?_⟩
        rcases List.mem_cons.1 hz with rfl | hz
        · exact ⟨x, by simp, hx⟩
        · obtain ⟨w, hw, he⟩ := h2 z hz
          exact ⟨w, by simp [hw], he⟩

/-- C40: whatever bytes are accepted as a set, it has at least one exchange, no unset slot, and only
well-formed exchanges; looking something up in it is never undefined. -/
theorem C40_accepted_sets (E : Engine) (b : Bytes) (s : KeyExchangeSet)
    (h : exchangeSetFromBuffer E b = some s) :
    (∃ xs : List KeyExchange, xs ≠ [] ∧ s.exchanges = xs.map some ∧ ∀ x ∈ xs, WfExchange x) ∧
    ∀ i, exchangeSetFind s i ≠ .ub := by
  have hx : ∃ xs : List KeyExchange, xs ≠ [] ∧ s.exchanges = xs.map some ∧ ∀ x ∈ xs, WfExchange x := by
    unfold exchangeSetFromBuffer exchangeSetFromProto at h
    simp only [Option.bind_eq_some_iff] at h
    obtain ⟨p, _, h⟩ := h
    split at h
    · simp at h
    · next hn =>
      split at h
      · simp at h
      · simp only [Option.bind_eq_some_iff, Option.map_eq_some_iff] at h
        obtain ⟨xs, hm, k, hk, rfl⟩ := h
        obtain ⟨h1, h2⟩ := mapM_mem hm
        refine ⟨xs, ?_, rfl, ?_⟩
        · rintro rfl; simp only [List.length_nil] at h1; omega
        · intro x hx
          obtain ⟨q, _, hq⟩ := h2 x hx
          unfold exchangeFromProto at hq
          split at hq
          · simp at hq
          · simp only [Option.bind_eq_some_iff, Option.map_eq_some_iff] at hq
            obtain ⟨d, hd, c, hc, i, hi, rfl⟩ := hq
            obtain ⟨hv, rfl⟩ := dup_eq_some.1 hd
            obtain ⟨hvi, rfl⟩ := dup_eq_some.1 hi
            obtain ⟨hw, hs⟩ := C10_cipher_result_reserialize _ hv.2 c hc
            refine ⟨hvi, hw, ?_⟩
            obtain ⟨c', h0, hl⟩ := cipherResult_accepts hc
            obtain ⟨r', _, hw', hl'⟩ := cipherResult_split _ c' h0 hl
            have hrt := (C10_cipher_result_round_trip r' hw' (by rw [hl']; exact hv.2)).2
            rw [hl'] at hrt
            rw [hrt] at hc
            cases hc
            rw [hl']; exact hv.2
  refine ⟨hx, fun i hc => ?_⟩
  obtain ⟨xs, _, he, _⟩ := hx
  obtain ⟨k, es⟩ := s
  simp only at he
  subst he
  obtain ⟨pre, post, h1, _⟩ := (C40_unset_slot_undefined_iff k _ i).1 hc
  have : none ∈ xs.map some := by rw [h1]; simp
  simp at this

/-- C40: a copy of a set equals it, unset slots included. -/
theorem C40_set_copy (k : EcKey) (xs : List (Option KeyExchange)) (h : ∀ x, some x ∈ xs → WfExchange x)
    (hf : 8 * xs.length ≤ maxBuffer) (hp : ValidBuf k.pub) (hr : ∀ p, k.pri = some p → ValidBuf p) :
    exchangeSetCopy ⟨k, xs⟩ = some ⟨k, xs⟩ := by
  have hk : ecKeyCopy k = some k := by simp [ecKeyCopy, dup_of hp, dupOpt_of hr]
  have hm : exchangeArrayCopy xs = some xs := by
    unfold exchangeArrayCopy
    have : ¬ ¬ arrayFits xs.length = true := by simp [arrayFits, hf]
    rw [if_neg this]
    refine (mapM_some_of (g := id) fun o ho => ?_).trans (by simp)
    cases o with
    | none => rfl
    | some x => simp [exchangeCopy_wf (h x ho)]
  simp [exchangeSetCopy, hk, hm]

/-- C40: an encrypted set is read back with the key. -/
theorem C40_encrypted_round_trip (E : Engine) (hE : E.Lawful) (k : EcKey) (xs : List KeyExchange)
    (key : CipherKey) (iv : Bytes) (h : ∀ x ∈ xs, WfExchange x) (h0 : xs ≠ [])
    (hk : E.ecImport k.pub false = some { k with pri := none })
    (hs : 100 + k.pub.length + (xs.map exchangeRoom).sum ≤ maxBuffer)
    (hkl : key.key.length = key.cipher.keyLen) (ha : key.cipher.isAuth = true)
    (hiv : iv.length = key.cipher.ivLen) :
    ∃ r ct, exchangeSetEncrypt E ⟨k, xs.map some⟩ key iv = some r ∧ r.cipher = key.cipher ∧ WfCipherResult r ∧
      r.ct = some ct ∧ ct.length ≤ 20 + k.pub.length + (xs.map exchangeRoom).sum ∧
      exchangeSetFromCipher E r (some key) = some ⟨{ k with pri := none }, xs.map some⟩ := by
  have hp : k.pub ≠ [] := by
    have := (hE.import_len _ _ _ hk).1
    exact List.length_pos_iff.1 this
  obtain ⟨b, hb, hbl, hrt⟩ := C40_set_round_trip E k xs h h0 hk hp (by omega)
  have hb0 : 0 < b.length := by
    simp only [exchangeSetSerialize, Option.bind_eq_some_iff, protoPack] at hb
    obtain ⟨_, _, hb⟩ := hb
    obtain ⟨hv, rfl⟩ := dup_eq_some.1 hb
    exact hv.1
  obtain ⟨r, ct, r1, r2, r3, r4, r5, r6, r7⟩ := hE.enc_dec b none key iv hb0 (by omega) hkl hiv (by simp)
  exact ⟨r, ct, by simp [exchangeSetEncrypt, hb, r1], r2, r4, r5, by omega,
    by simp [exchangeSetFromCipher, r7 true (fun _ => ha), hrt]⟩

/-- A set of three exchanges, two with the same identifier: the first of them is found, an unknown
identifier is not, and the set survives its codec. -/
example : let c : CipherResult := ⟨.ctr, List.replicate 16 0, some [9], none⟩
    let xs : List KeyExchange := [⟨[1], 5, c⟩, ⟨[2], 6, c⟩, ⟨[2], 7, c⟩]
    let s : KeyExchangeSet := ⟨toyKey 3, xs.map some⟩
    exchangeSetFind s [2] = .ok ⟨[2], 6, c⟩ ∧ exchangeSetFind s [3] = .null ∧
    (exchangeSetSerialize s).bind (exchangeSetFromBuffer toyEngine) =
      some ⟨{ toyKey 3 with pri := none }, xs.map some⟩ ∧
    20 + (toyKey 3).pub.length + (xs.map exchangeRoom).sum ≤ maxBuffer := by decide +kernel

end Wickr
