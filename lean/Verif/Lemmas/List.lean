/-
List facts that core lacks.
-/
namespace Wickr

/-- Induction on the last element: the last event of a history. -/
@[elab_as_elim]
theorem snocInd {α : Type u} {P : List α → Prop} (l : List α) (nil : P [])
    (snoc : ∀ l a, P l → P (l ++ [a])) : P l := by
  have : ∀ l : List α, P l.reverse := by
    intro l
    induction l with
    | nil => exact nil
    | cons a l ih => rw [List.reverse_cons]; exact snoc _ _ ih
  rw [← List.reverse_reverse l]; exact this _

end Wickr
