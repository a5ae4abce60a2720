import Verif.Lemmas.Buffer
import Verif.Spec.Bytes
/-
Properties C01-C04: the buffer primitives.
-/
namespace Wickr
open Spec

/-- C01.  For every buffer and every 64-bit `start`, `len`: if the section is non-empty, inside the
buffer (as natural numbers, so no wrap-around) and within the library's size limit, the copy is
exactly that section; otherwise the result is `NULL`.  In no case is memory outside the buffer
read (`.ub` is not a possible outcome). -/
theorem C01_copy_section (b : Bytes) (hb : Fits b) (start len : UInt64) :
    (0 < len.toNat ∧ start.toNat + len.toNat ≤ b.length ∧
        len.toNat < maxBuffer ∧ start.toNat + len.toNat ≤ maxBuffer →
      ∃ r, copySectionC (some b) start len = .ok r ∧ IsSection b start.toNat len.toNat r) ∧
    (¬ (0 < len.toNat ∧ start.toNat + len.toNat ≤ b.length ∧
        len.toNat < maxBuffer ∧ start.toNat + len.toNat ≤ maxBuffer) →
      copySectionC (some b) start len = .null) := by
  rw [copySectionC_eq hb]
  unfold copySection
  constructor
  · intro h
    rw [if_pos (by omega)]
    refine ⟨_, rfl, ?_, ?_⟩
    · simp; omega
    · intro i hi; simp [hi]
  · intro h
    rw [if_neg (by omega)]; rfl

/-- C01, NULL source. -/
theorem C01_copy_section_null (start len : UInt64) : copySectionC none start len = .null := rfl

/-- The wrap-around pair of `start`/`len` that a naive check `start + len <= length` would accept. -/
example : copySectionC (some [1, 2, 3]) 0xFFFFFFFFFFFFFFFF 2 = .null := by decide
/-- Hypotheses of the first half of C01 are satisfiable. -/
example : copySectionC (some [1, 2, 3]) 1 2 = .ok [2, 3] := by decide

/-- C02.  `wickr_buffer_modify_section` on any buffer, any source of at least `len` readable bytes
and any 64-bit range. -/
theorem C02_modify_section (b src : Bytes) (hb : Fits b) (start len : UInt64)
    (hsrc : len.toNat ≤ src.length) :
    (0 < len.toNat ∧ start.toNat + len.toNat ≤ b.length ∧
        len.toNat < maxBuffer ∧ start.toNat + len.toNat ≤ maxBuffer →
      ∃ b', modifySectionC b src start len = .ok (true, b') ∧
        IsOverwrite b src start.toNat len.toNat b') ∧
    (¬ (0 < len.toNat ∧ start.toNat + len.toNat ≤ b.length ∧
        len.toNat < maxBuffer ∧ start.toNat + len.toNat ≤ maxBuffer) →
      modifySectionC b src start len = .ok (false, b)) := by
  have h1 := validateRange_iff (len64 b) start len
  rw [len64_toNat hb] at h1
  unfold modifySectionC
  constructor
  · intro h
    have hv : validateRange (len64 b) start len = true := h1.2 (by omega)
    simp only [hv, Bool.not_true, Bool.false_eq_true, if_false, memRead, Nat.zero_add, hsrc, if_true,
      Res.bind, memWrite, List.drop_zero, List.length_take, Nat.min_eq_left hsrc, h.2.1]
    refine ⟨_, rfl, ?_, ?_, ?_⟩
    · simp; omega
    · intro i hi
      rw [List.getElem?_append_left (by simp; omega), List.getElem?_append_right (by simp; omega)]
      have : start.toNat + i - (List.take start.toNat b).length = i := by simp; omega
      rw [this, List.getElem?_take_of_lt hi]
    · intro i hi
      rcases hi with hi | hi
      · rw [List.append_assoc, List.getElem?_append_left (by simp; omega), List.getElem?_take_of_lt hi]
      · rw [List.getElem?_append_right (by simp; omega)]
        simp only [List.getElem?_drop, List.length_append, List.length_take]
        congr 1; omega
  · intro h
    have hv : validateRange (len64 b) start len = false := by
      rw [Bool.eq_false_iff]; intro hh; have := h1.1 hh; omega
    simp [hv]

example : modifySectionC [1, 2, 3, 4] [9, 8] 1 2 = .ok (true, [1, 9, 8, 4]) := by decide
example : modifySectionC [1, 2, 3, 4] [9, 8] 3 2 = .ok (false, [1, 2, 3, 4]) := by decide

/-- C03 for `wickr_buffer_concat`: whatever the fresh memory contained before, the result is the
exact concatenation, or `NULL` exactly when it would be empty or too large. -/
theorem C03_concat (fill : Nat → UInt8) (b1 b2 : Bytes) (h1 : Fits b1) (h2 : Fits b2) :
    (0 < b1.length + b2.length ∧ b1.length + b2.length ≤ maxBuffer →
      concatC fill (some b1) (some b2) = .ok (b1 ++ b2)) ∧
    (¬ (0 < b1.length + b2.length ∧ b1.length + b2.length ≤ maxBuffer) →
      concatC fill (some b1) (some b2) = .null) := by
  rw [concatC_eq fill h1 h2]
  simp only [concat2]
  constructor
  · intro h; rw [if_neg (by omega)]; rfl
  · intro h; rw [if_pos (by omega)]; rfl

theorem C03_concat_null (fill : Nat → UInt8) (b : Option Bytes) :
    concatC fill none b = .null ∧ concatC fill b none = .null := by
  cases b <;> exact ⟨rfl, rfl⟩

/-- C03 for `wickr_buffer_concat_multi`: the result is the in-order concatenation of the non-NULL
inputs, or `NULL` exactly when that is empty or too large.  No partial sum wraps, no byte is
written outside the merged buffer and no byte of it stays uninitialised (`fill` is arbitrary). -/
theorem C03_concat_multi (fill : Nat → UInt8) (bs : List (Option Bytes))
    (hb : ∀ b, some b ∈ bs → Fits b) :
    let all := (bs.filterMap id).flatten
    (0 < all.length ∧ all.length ≤ maxBuffer → concatMultiC fill bs = .ok all) ∧
    (¬ (0 < all.length ∧ all.length ≤ maxBuffer) → concatMultiC fill bs = .null) := by
  have hall : (bs.filterMap id).flatten = bs.flatMap optBytes := by
    clear hb
    induction bs with
    | nil => rfl
    | cons x xs ih => cases x <;> simp [optBytes, ih]
  simp only
  rw [concatMultiC_eq fill bs hb, hall]
  simp only [concatMulti]
  constructor
  · intro h; rw [if_neg (by omega)]; rfl
  · intro h; rw [if_pos (by omega)]; rfl

example : concatMultiC (fun _ => 0xAA) [some [1, 2], none, some [], some [3]] = .ok [1, 2, 3] := by
  decide
example : concatMultiC (fun _ => 0xAA) [none, some []] = .null := by decide

/-- C04.  With `memcmp`, or with any comparison function that is 0 exactly on equal memory of equal
length, `wickr_buffer_is_equal` decides equality of non-NULL buffers. -/
theorem C04_is_equal (b1 b2 : Option Bytes) (h1 : ∀ b, b1 = some b → Fits b)
    (h2 : ∀ b, b2 = some b → Fits b) (cmp : Option (Bytes → Bytes → Int))
    (hcmp : ∀ f, cmp = some f → ∀ x y : Bytes, x.length = y.length → (f x y = 0 ↔ x = y)) :
    bufIsEqual b1 b2 cmp = true ↔ ∃ b, b1 = some b ∧ b2 = some b := by
  cases b1 with
  | none => simp [bufIsEqual]
  | some x =>
    cases b2 with
    | none => simp [bufIsEqual]
    | some y =>
      have e1 := len64_toNat (h1 x rfl)
      have e2 := len64_toNat (h2 y rfl)
      simp only [bufIsEqual, Option.some.injEq]
      by_cases hl : x.length = y.length
      · have : len64 x = len64 y := by
          rw [← UInt64.toNat_inj, e1, e2, hl]
        simp only [this, ne_eq, not_true_eq_false, if_false]
        cases cmp with
        | none => by_cases h : x = y <;> simp [h, Ne.symm]

        | some f =>
          have := hcmp f rfl x y hl
          by_cases h : x = y
          · have := this.2 h
            subst h; simp [this]
          · have h' : ¬ f x y = 0 := fun hh => h (this.1 hh)
            simp [h', Ne.symm h]
      · have : len64 x ≠ len64 y := by
          rw [ne_eq, ← UInt64.toNat_inj, e1, e2]; exact hl
        simp only [this, ne_eq, not_false_eq_true, if_true]
        constructor
        · intro h; cases h
        · rintro ⟨b, rfl, rfl⟩; exact absurd rfl hl

example : bufIsEqual (some [1, 2]) (some [1, 2]) none = true ∧
    bufIsEqual (some [1, 2]) (some [1, 3]) none = false := by decide

end Wickr
