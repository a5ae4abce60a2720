import Verif.Model.Buffer
namespace Wickr

@[simp] theorem maxBuffer64_toNat : maxBuffer64.toNat = 2147483631 := by decide
theorem maxBuffer_val : maxBuffer = 2147483631 := by decide

theorem len64_toNat {b : Bytes} (h : Fits b) : (len64 b).toNat = b.length := by
  unfold len64; unfold Fits at h
  simpa using Nat.mod_eq_of_lt h

theorem validateRange_iff (length start len : UInt64) :
    validateRange length start len = true ↔
      0 < len.toNat ∧ len.toNat < maxBuffer ∧ start.toNat + len.toNat ≤ maxBuffer ∧
        start.toNat + len.toNat ≤ length.toNat := by
  have hm := maxBuffer64_toNat
  have h1 := start.toNat_lt
  have h2 := len.toNat_lt
  have h3 := length.toNat_lt
  simp only [maxBuffer_val]
  unfold validateRange
  by_cases hA : start ≥ maxBuffer64 || len ≥ maxBuffer64 || len == 0
  · simp only [hA, if_true]
    simp only [Bool.or_eq_true, decide_eq_true_eq, beq_iff_eq, ge_iff_le, UInt64.le_iff_toNat_le, ← UInt64.toNat_inj, hm] at hA
    simp at hA ⊢; omega
  · simp only [hA]
    simp only [Bool.or_eq_true, decide_eq_true_eq, beq_iff_eq, ge_iff_le, UInt64.le_iff_toNat_le, ← UInt64.toNat_inj, hm, not_or] at hA
    obtain ⟨⟨ha, hb⟩, hc⟩ := hA
    have hsub : (maxBuffer64 - start).toNat = 2147483631 - start.toNat := by
      rw [UInt64.toNat_sub_of_le _ _ (by rw [UInt64.le_iff_toNat_le, hm]; omega), hm]
    have hadd : (start + len).toNat = start.toNat + len.toNat := by
      rw [UInt64.toNat_add]; omega
    simp at hc
    simp only [gt_iff_lt, UInt64.lt_iff_toNat_lt, hsub, hadd]
    by_cases h5 : 2147483631 - start.toNat < len.toNat
    · simp [h5]; omega
    · by_cases h6 : length.toNat < start.toNat + len.toNat
      · simp [h5, h6]
      · simp [h5, h6]; omega

theorem canAlloc_iff (len : UInt64) : canAlloc len = true ↔ 0 < len.toNat ∧ len.toNat ≤ maxBuffer := by
  unfold canAlloc
  simp only [Bool.not_eq_true', Bool.or_eq_false_iff, decide_eq_false_iff_not, gt_iff_lt,
    UInt64.lt_iff_toNat_lt, maxBuffer64_toNat, maxBuffer_val, beq_eq_false_iff_ne, ne_eq,
    ← UInt64.toNat_inj]
  simp; omega

theorem bufCreate_eq {b : Bytes} (h : Fits b) :
    bufCreate b = if 0 < b.length ∧ b.length ≤ maxBuffer then some b else none := by
  unfold bufCreate
  have := canAlloc_iff (len64 b)
  rw [len64_toNat h] at this
  by_cases hc : canAlloc (len64 b) = true
  · rw [if_pos hc, if_pos (this.1 hc)]
  · rw [if_neg hc, if_neg (fun h => hc (this.2 h))]

theorem copySectionC_eq {b : Bytes} (h : Fits b) (start len : UInt64) :
    copySectionC (some b) start len = Res.ofOption (copySection b start.toNat len.toNat) := by
  unfold copySectionC copySection
  have h1 := validateRange_iff (len64 b) start len
  rw [len64_toNat h] at h1
  have h2 := canAlloc_iff len
  by_cases hv : validateRange (len64 b) start len = true
  · have hv' := h1.1 hv
    have hc : canAlloc len = true := h2.2 ⟨by omega, by omega⟩
    have : start.toNat < maxBuffer ∧ 0 < len.toNat ∧ len.toNat < maxBuffer ∧ start.toNat + len.toNat ≤ maxBuffer
      ∧ start.toNat + len.toNat ≤ b.length := by omega
    simp only [hv, hc, Bool.not_true, Bool.false_eq_true, if_false, if_pos this]
    simp [memRead, hv'.2.2.2, Res.ofOption]
  · have : ¬ (start.toNat < maxBuffer ∧ 0 < len.toNat ∧ len.toNat < maxBuffer ∧ start.toNat + len.toNat ≤ maxBuffer
      ∧ start.toNat + len.toNat ≤ b.length) := by
      intro hh; exact hv (h1.2 (by omega))
    simp only [Bool.not_eq_true] at hv
    rw [if_neg this]; simp [hv, Res.ofOption]

theorem memWrite_length {b src b' : Bytes} {s : Nat} (h : memWrite b s src = .ok b') :
    b'.length = b.length := by
  unfold memWrite at h
  split at h
  · injection h with h; subst h; simp; omega
  · cases h

theorem concat2_of {a b : Bytes} (h : 0 < a.length + b.length) (h2 : a.length + b.length ≤ maxBuffer) :
    concat2 (some a) (some b) = some (a ++ b) := by
  simp only [concat2]; rw [if_neg]; omega

theorem concatC_eq (fill : Nat → UInt8) {b1 b2 : Bytes} (h1 : Fits b1) (h2 : Fits b2) :
    concatC fill (some b1) (some b2) = Res.ofOption (concat2 (some b1) (some b2)) := by
  have e1 := len64_toNat h1
  have e2 := len64_toNat h2
  have hm := maxBuffer64_toNat
  simp only [concatC, concat2, maxBuffer_val]
  by_cases hA : len64 b1 > maxBuffer64 || len64 b2 > maxBuffer64
  · simp only [hA, if_true]
    simp only [Bool.or_eq_true, decide_eq_true_eq, gt_iff_lt, UInt64.lt_iff_toNat_lt, hm, e1, e2] at hA
    rw [if_pos (by omega)]; rfl
  · simp only [hA]
    simp only [Bool.or_eq_true, decide_eq_true_eq, gt_iff_lt, UInt64.lt_iff_toNat_lt, hm, e1, e2, not_or] at hA
    have hsub : (maxBuffer64 - len64 b1).toNat = 2147483631 - b1.length := by
      rw [UInt64.toNat_sub_of_le _ _ (by rw [UInt64.le_iff_toNat_le, hm, e1]; omega), hm, e1]
    have hadd : (len64 b1 + len64 b2).toNat = b1.length + b2.length := by
      rw [UInt64.toNat_add, e1, e2]; omega
    simp only [UInt64.lt_iff_toNat_lt, hsub, e2]
    by_cases h5 : 2147483631 - b1.length < b2.length
    · rw [if_pos (show (b1.length + b2.length = 0 ∨ b1.length + b2.length > 2147483631) by omega)]
      simp [h5, Res.ofOption]
    · rw [if_neg h5]
      have hc := canAlloc_iff (len64 b1 + len64 b2)
      rw [hadd, maxBuffer_val] at hc
      by_cases h6 : b1.length + b2.length = 0
      · have : canAlloc (len64 b1 + len64 b2) = false := by
          rw [Bool.eq_false_iff]; intro hh; have := hc.1 hh; omega
        simp [this, h6, Res.ofOption]
      · have : canAlloc (len64 b1 + len64 b2) = true := hc.2 (by omega)
        rw [if_neg (show ¬ (b1.length + b2.length = 0 ∨ b1.length + b2.length > 2147483631) by omega)]
        simp only [this, hadd]
        simp [memWrite, Res.bind, Res.ofOption]

theorem concatCount_eq (bs : List (Option Bytes)) (hb : ∀ b, some b ∈ bs → Fits b) (count : UInt64)
    (hc : count.toNat ≤ maxBuffer) :
    concatCount bs count =
      if count.toNat + (bs.flatMap optBytes).length ≤ maxBuffer then
        some (UInt64.ofNat (count.toNat + (bs.flatMap optBytes).length)) else none := by
  induction bs generalizing count with
  | nil => simp [concatCount]; simpa using hc
  | cons x xs ih =>
    have hxs : ∀ b, some b ∈ xs → Fits b := fun b hb' => hb b (List.mem_cons_of_mem _ hb')
    cases x with
    | none => simp only [concatCount]; rw [ih hxs _ hc]; simp [optBytes]
    | some b =>
      have e := len64_toNat (hb b (by simp))
      simp only [concatCount, List.flatMap_cons, optBytes, List.length_append]
      simp only [maxBuffer_val] at *
      by_cases h0 : len64 b == 0
      · have : b.length = 0 := by
          rw [beq_iff_eq] at h0; rw [← e, h0]; rfl
        rw [if_pos h0, ih hxs _ hc, this]; simp
      · rw [if_neg h0]
        have hsub : (maxBuffer64 - count).toNat = 2147483631 - count.toNat := by
          rw [UInt64.toNat_sub_of_le _ _ (by rw [UInt64.le_iff_toNat_le]; simpa using hc)]; simp
        by_cases hA : len64 b > maxBuffer64 || maxBuffer64 - count < len64 b
        · rw [if_pos hA]
          simp only [Bool.or_eq_true, decide_eq_true_eq, gt_iff_lt, UInt64.lt_iff_toNat_lt, maxBuffer64_toNat, e, hsub] at hA
          rw [if_neg (by omega)]
        · rw [if_neg hA]
          simp only [Bool.or_eq_true, decide_eq_true_eq, gt_iff_lt, UInt64.lt_iff_toNat_lt, maxBuffer64_toNat, e, hsub, not_or] at hA
          have hadd : (count + len64 b).toNat = count.toNat + b.length := by
            rw [UInt64.toNat_add, e]; omega
          rw [ih hxs _ (by rw [hadd]; omega), hadd]
          simp only [Nat.add_assoc]

theorem concatFill_eq (bs : List (Option Bytes)) (hb : ∀ b, some b ∈ bs → Fits b) (count : UInt64)
    (done rest : Bytes) (hd : count.toNat = done.length)
    (hr : rest.length = (bs.flatMap optBytes).length)
    (hlt : done.length + rest.length < 2 ^ 64) :
    concatFill bs count (done ++ rest) = .ok (done ++ bs.flatMap optBytes) := by
  induction bs generalizing count done rest with
  | nil => simp [concatFill] at *; simpa using hr
  | cons x xs ih =>
    have hxs : ∀ b, some b ∈ xs → Fits b := fun b hb' => hb b (List.mem_cons_of_mem _ hb')
    cases x with
    | none => simp only [concatFill]; rw [ih hxs _ _ _ hd (by simpa [optBytes] using hr) hlt]; simp [optBytes]
    | some b =>
      have e := len64_toNat (hb b (by simp))
      simp only [List.flatMap_cons, optBytes, List.length_append] at hr
      simp only [concatFill, List.flatMap_cons, optBytes]
      by_cases h0 : len64 b == 0
      · have h0' : b.length = 0 := by
          rw [beq_iff_eq] at h0; rw [← e, h0]; rfl
        rw [if_pos h0, ih hxs _ _ _ hd (by omega) hlt]
        simp [List.eq_nil_of_length_eq_zero h0']
      · rw [if_neg h0]
        have hw : memWrite (done ++ rest) count.toNat b = .ok ((done ++ b) ++ rest.drop b.length) := by
          unfold memWrite
          rw [if_pos (by simp; omega), hd]
          simp
        rw [hw]
        simp only [Res.bind]
        rw [ih hxs]
        · simp
        · rw [UInt64.toNat_add, e, List.length_append]; omega
        · rw [List.length_drop]; omega
        · rw [List.length_append, List.length_drop]; omega

theorem concatMultiC_eq (fill : Nat → UInt8) (bs : List (Option Bytes)) (hb : ∀ b, some b ∈ bs → Fits b) :
    concatMultiC fill bs = Res.ofOption (concatMulti bs) := by
  unfold concatMultiC concatMulti
  by_cases h0 : bs.length = 0
  · have := List.eq_nil_of_length_eq_zero h0; subst this; simp [Res.ofOption]
  · rw [if_neg h0, concatCount_eq bs hb 0 (by simp)]
    simp only [UInt64.toNat_zero, Nat.zero_add]
    generalize hall : (bs.flatMap optBytes) = all
    simp only [maxBuffer_val]
    by_cases h1 : all.length ≤ 2147483631
    · rw [if_pos h1]
      simp only
      have hn : (UInt64.ofNat all.length).toNat = all.length := by simp; omega
      have hc := canAlloc_iff (UInt64.ofNat all.length)
      rw [hn, maxBuffer_val] at hc
      by_cases h2 : all.length = 0
      · have : canAlloc (UInt64.ofNat all.length) = false := by
          rw [Bool.eq_false_iff]; intro hh; have := hc.1 hh; omega
        rw [this, if_pos (show (all.length = 0 ∨ all.length > 2147483631) by omega)]; simp [Res.ofOption]
      · have : canAlloc (UInt64.ofNat all.length) = true := hc.2 (by omega)
        rw [this, if_neg (show ¬ (all.length = 0 ∨ all.length > 2147483631) by omega)]
        simp only [Bool.not_true, Bool.false_eq_true, if_false, hn, Res.ofOption]
        have := concatFill_eq bs hb 0 [] ((List.range all.length).map fill) (by simp) (by simp [hall]) (by simp; omega)
        simpa [hall] using this
    · rw [if_neg h1, if_pos (by omega)]; rfl

end Wickr
