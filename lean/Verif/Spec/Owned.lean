import Verif.Spec.Memory
/-
What a function owes its callers that changes objects in memory and returns something, said about runs.
-/
namespace Wickr.Spec
open Wickr Asrt

/-- Called in a memory that consists of the objects `P` and of other blocks, `h`, that satisfy `args`, whatever the allocator does: there
is no undefined behaviour; NULL is dereferenced only after an allocation has failed.  Otherwise the other blocks are as they were, and
the rest of memory is `R` of the answer, of whether an allocation failed, and of some value that `Q` allows. -/
def Transforms {α V : Type} (args : Heap → Prop) (P : Asrt) (Q : α → Bool → V → Prop) (R : α → Bool → V → Asrt) (m : H α) : Prop :=
  ∀ (A : Alloc) (s : St) (h : Heap), s.oom = false → args h → (P ∗ keep h) s.heap →
    match m A s with
    | .ub => False
    | .crash s' => s'.oom = true
    | .ret r s' => ∃ v, Q r s'.oom v ∧ (R r s'.oom v ∗ keep h) s'.heap

end Wickr.Spec
