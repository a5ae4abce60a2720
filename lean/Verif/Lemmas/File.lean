import Verif.Spec.File
import Verif.Props.Codec
/-
The loops of the file functions.
-/
namespace Wickr

/-- Everything written so far is `written`, on top of the `old` content. -/
def OutAt (o : OutFile) (written old : Bytes) : Prop :=
  o.data = written ++ old.drop written.length ∧ o.pos = written.length

theorem outAt_empty (n : Nat) : OutAt ⟨[], 0, n⟩ [] [] := ⟨rfl, rfl⟩

theorem outAt_rewind (o : OutFile) : OutAt o.rewind [] o.data := ⟨by simp [OutFile.rewind], rfl⟩

theorem fwrite_full {acc : Nat → Option Nat} {o : OutFile} {b d old : Bytes} (h : OutAt o d old)
    (hw : (fwrite acc o b).2 = true) : OutAt (fwrite acc o b).1 (d ++ b) old := by
  obtain ⟨h1, h2⟩ := h
  cases ha : acc o.calls with
  | none => simp [fwrite, ha, OutAt, h1, h2, List.drop_append]
  | some k =>
    simp only [fwrite, ha, List.length_take, decide_eq_true_eq] at hw
    have hb : b.take k = b := List.take_of_length_le (by omega)
    simp [fwrite, ha, OutAt, h1, h2, hb, List.drop_append]

theorem fwrite_all (o : OutFile) (b : Bytes) : (fwrite (fun _ => none) o b).2 = true := by simp [fwrite]

theorem encLoop_sound {V : Evp} {acc : Nat → Option Nat} {old : Bytes} :
    ∀ (fuel : Nat) (st : V.Enc) (input : Bytes) (o : OutFile) (d : Bytes) (st' : V.Enc) (o' : OutFile),
    OutAt o d old → encLoop V acc fuel st input o = (some st', o') →
    ∃ cs out, cs.flatten = input ∧ V.encRun st cs = some (st', out) ∧ OutAt o' (d ++ out) old := by
  intro fuel
  induction fuel with
  | zero => intro st input o d st' o' _ h; simp [encLoop] at h
  | succ fuel ih =>
    intro st input o d st' o' ho h
    simp only [encLoop] at h
    cases hu : V.encUpdate st (input.take chunkSize) with
    | none => simp [hu] at h
    | some r =>
      obtain ⟨s1, out⟩ := r
      simp only [hu] at h
      cases hw : (fwrite acc o out).2 with
      | false => simp [hw] at h
      | true =>
        have ho1 := fwrite_full ho hw
        simp only [hw, Bool.not_true, Bool.false_eq_true, if_false] at h
        by_cases hl : (input.take chunkSize).length < chunkSize
        · rw [if_pos hl] at h
          obtain ⟨rfl, rfl⟩ : s1 = st' ∧ (fwrite acc o out).1 = o' := by simpa using h
          have : input.take chunkSize = input := by
            rw [List.length_take] at hl
            exact List.take_of_length_le (by omega)
          rw [this] at hu
          exact ⟨[input], out, by simp, by simp [Evp.encRun, hu], ho1⟩
        · rw [if_neg hl] at h
          obtain ⟨cs, out', h1, h2, h3⟩ := ih _ _ _ _ _ _ ho1 h
          exact ⟨input.take chunkSize :: cs, out ++ out', by simp [h1], by simp [Evp.encRun, hu, h2],
            by rw [← List.append_assoc]; exact h3⟩

theorem encLoop_complete {V : Evp} :
    ∀ (fuel : Nat) (st : V.Enc) (input : Bytes) (o : OutFile), input.length < fuel * chunkSize →
    (∀ cs : List Bytes, cs.flatten = input → (V.encRun st cs).isSome) →
    ∃ st' o', encLoop V (fun _ => none) fuel st input o = (some st', o') := by
  intro fuel
  induction fuel with
  | zero => intro st input o hl; simp at hl
  | succ fuel ih =>
    intro st input o hl hs
    simp only [encLoop]
    have h0 := hs [input.take chunkSize, input.drop chunkSize] (by simp)
    cases hu : V.encUpdate st (input.take chunkSize) with
    | none => simp [Evp.encRun, hu] at h0
    | some r =>
      obtain ⟨s1, out⟩ := r
      simp only [fwrite_all, Bool.not_true, Bool.false_eq_true, if_false]
      by_cases hc : (input.take chunkSize).length < chunkSize
      · exact ⟨_, _, by rw [if_pos hc]⟩
      · rw [if_neg hc]
        apply ih
        · rw [List.length_take] at hc
          rw [List.length_drop]
          have : (fuel + 1) * chunkSize = fuel * chunkSize + chunkSize := by rw [Nat.add_mul, Nat.one_mul]
          omega
        · intro cs hcs
          have := hs (input.take chunkSize :: cs) (by simp [hcs])
          simp only [Evp.encRun, hu, Option.isSome_map] at this
          exact this

theorem decLoop_sound {V : Evp} {acc : Nat → Option Nat} {old : Bytes} :
    ∀ (fuel : Nat) (st : V.Dec) (input : Bytes) (o : OutFile) (d : Bytes) (o' : OutFile),
    OutAt o d old → decLoop V acc fuel st input o = (true, o') →
    ∃ cs out st', cs.flatten = input ∧ V.decRun st cs = some (st', out) ∧ V.decFinal st' = true ∧
      OutAt o' (d ++ out) old := by
  intro fuel
  induction fuel with
  | zero => intro st input o d o' _ h; simp [decLoop] at h
  | succ fuel ih =>
    intro st input o d o' ho h
    simp only [decLoop] at h
    cases hu : V.decUpdate st (input.take chunkSize) with
    | none => simp [hu] at h
    | some r =>
      obtain ⟨s1, out⟩ := r
      simp only [hu] at h
      cases hw : (fwrite acc o out).2 with
      | false => simp [hw] at h
      | true =>
        have ho1 := fwrite_full ho hw
        simp only [hw, Bool.not_true, Bool.false_eq_true, if_false] at h
        by_cases hl : (input.take chunkSize).length < chunkSize
        · rw [if_pos hl] at h
          obtain ⟨hf, rfl⟩ : V.decFinal s1 = true ∧ (fwrite acc o out).1 = o' := by simpa using h
          have : input.take chunkSize = input := by
            rw [List.length_take] at hl
            exact List.take_of_length_le (by omega)
          rw [this] at hu
          exact ⟨[input], out, s1, by simp, by simp [Evp.decRun, hu], hf, ho1⟩
        · rw [if_neg hl] at h
          obtain ⟨cs, out', st', h1, h2, hf, h3⟩ := ih _ _ _ _ _ ho1 h
          exact ⟨input.take chunkSize :: cs, out ++ out', st', by simp [h1], by simp [Evp.decRun, hu, h2],
            hf, by rw [← List.append_assoc]; exact h3⟩

theorem decLoop_complete {V : Evp} {old : Bytes} :
    ∀ (fuel : Nat) (st : V.Dec) (input : Bytes) (o : OutFile) (d : Bytes), OutAt o d old →
    input.length < fuel * chunkSize →
    (∀ cs : List Bytes, cs.flatten = input → (V.decRun st cs).isSome) →
    ∃ cs out st' o', cs.flatten = input ∧ V.decRun st cs = some (st', out) ∧
      decLoop V (fun _ => none) fuel st input o = (V.decFinal st', o') ∧ OutAt o' (d ++ out) old := by
  intro fuel
  induction fuel with
  | zero => intro st input o d _ hl; simp at hl
  | succ fuel ih =>
    intro st input o d ho hl hs
    simp only [decLoop]
    have h0 := hs [input.take chunkSize, input.drop chunkSize] (by simp)
    cases hu : V.decUpdate st (input.take chunkSize) with
    | none => simp [Evp.decRun, hu] at h0
    | some r =>
      obtain ⟨s1, out⟩ := r
      have ho1 := fwrite_full ho (fwrite_all o out)
      simp only [fwrite_all, Bool.not_true, Bool.false_eq_true, if_false]
      by_cases hc : (input.take chunkSize).length < chunkSize
      · have : input.take chunkSize = input := by
          rw [List.length_take] at hc
          exact List.take_of_length_le (by omega)
        rw [this] at hu hc
        exact ⟨[input], out, s1, _, by simp, by simp [Evp.decRun, hu], by rw [this, if_pos hc], ho1⟩
      · rw [if_neg hc]
        obtain ⟨cs, out', st', o', h1, h2, h3, h4⟩ := ih s1 (input.drop chunkSize) _ _ ho1 (by
          rw [List.length_take] at hc
          rw [List.length_drop]
          have : (fuel + 1) * chunkSize = fuel * chunkSize + chunkSize := by rw [Nat.add_mul, Nat.one_mul]
          omega) (by
          intro cs hcs
          have := hs (input.take chunkSize :: cs) (by simp [hcs])
          simp only [Evp.decRun, hu, Option.isSome_map] at this
          exact this)
        exact ⟨input.take chunkSize :: cs, out ++ out', st', o', by simp [h1], by simp [Evp.decRun, hu, h2], h3,
          by rw [← List.append_assoc]; exact h4⟩

theorem mdLoop_eq {V : Evp} (err : Bool) :
    ∀ (fuel : Nat) (st : V.Md) (input : Bytes), input.length < fuel * chunkSize →
    if err then mdLoop V err fuel st input = none
    else ∃ cs : List Bytes, cs.flatten = input ∧ mdLoop V err fuel st input = some (cs.foldl V.mdUpdate st) := by
  intro fuel
  induction fuel with
  | zero => intro st input hl; simp at hl
  | succ fuel ih =>
    intro st input hl
    simp only [mdLoop]
    by_cases hc : (input.take chunkSize).length < chunkSize
    · have : input.take chunkSize = input := by
        rw [List.length_take] at hc
        exact List.take_of_length_le (by omega)
      rw [this] at hc ⊢
      cases err with
      | true => simp [hc]
      | false => exact ⟨[input], by simp, by simp [hc]⟩
    · have := ih (V.mdUpdate st (input.take chunkSize)) (input.drop chunkSize) (by
        rw [List.length_take] at hc
        rw [List.length_drop]
        have : (fuel + 1) * chunkSize = fuel * chunkSize + chunkSize := by rw [Nat.add_mul, Nat.one_mul]
        omega)
      simp only [hc, decide_false, Bool.false_and, Bool.false_eq_true, if_false]
      cases err with
      | true => simpa using this
      | false =>
        simp only [Bool.false_eq_true, if_false] at this ⊢
        obtain ⟨cs, h1, h2⟩ := this
        exact ⟨input.take chunkSize :: cs, by simp [h1], by simp [h2]⟩

theorem fuel_enough (b : Bytes) : b.length < (b.length / chunkSize + 1) * chunkSize := by
  have := Nat.div_add_mod b.length chunkSize
  have h2 := Nat.mod_lt b.length (show 0 < chunkSize by decide)
  rw [Nat.add_mul, Nat.one_mul, Nat.mul_comm]
  omega

theorem header_ok (c : Cipher) (iv : Bytes) (tag : Option Bytes) (hiv : iv.length = c.ivLen)
    (htag : if c.isAuth then ∃ t, tag = some t ∧ t.length = c.tagLen else tag = none) :
    cipherResultCreate c iv none tag = some ⟨c, iv, none, tag⟩ ∧
    cipherResultSerialize ⟨c, iv, none, tag⟩ = some (c.id :: iv ++ optBytes tag) ∧
    cipherResultFromBuffer (c.id :: iv ++ optBytes tag) = some ⟨c, iv, none, tag⟩ := by
  have hmb := maxBuffer_val
  have hw : Spec.WfCipherResult ⟨c, iv, none, tag⟩ := ⟨hiv, htag, by simp⟩
  have hl : Spec.cipherResultLayout ⟨c, iv, none, tag⟩ = c.id :: iv ++ optBytes tag := by
    cases tag <;> simp [Spec.cipherResultLayout, Spec.opt, optBytes]
  have hlen : (c.id :: iv ++ optBytes tag).length ≤ 29 := by
    cases c with
    | gcm => obtain ⟨t, rfl, ht⟩ := htag; simp [optBytes, Cipher.ivLen, Cipher.tagLen] at *; omega
    | ctr =>
      have : tag = none := by simpa [Cipher.isAuth] using htag
      subst this; simp [optBytes, Cipher.ivLen] at *; omega
  have h := C10_cipher_result_round_trip _ hw (by rw [hl]; omega)
  rw [hl] at h
  refine ⟨?_, h.1, h.2⟩
  cases c with
  | gcm => obtain ⟨t, rfl, ht⟩ := htag; simp [cipherResultCreate, hiv, ht]
  | ctr =>
    have : tag = none := by simpa [Cipher.isAuth] using htag
    subst this; simp [cipherResultCreate, hiv, Cipher.isAuth]

end Wickr
