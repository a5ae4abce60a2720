import Verif.Spec.Update
/-
What a function owes its callers that makes an object that takes over another one, and looks at further objects.
-/
namespace Wickr.Spec
open Wickr Asrt

variable {U V : Type}

/-- Called on an object at `p` that it may take over, and on objects that `args` describes: with a result, which has the value `x`, the
object belongs to the result; without one it is as it was.  Nothing else in memory changes, and nothing is leaked unless an allocation
failed. -/
def AdoptsFrom (args : Heap → Prop) (R₀ : Addr → U → Asrt) (p : Addr) (u : U) (R : Addr → V → Asrt) (x : Option V) (m : H Ptr) : Prop :=
  ∀ (A : Alloc) (s : St) (h : Heap), s.oom = false → args h → (R₀ p u ∗ keep h) s.heap →
    match m A s with
    | .ub => False
    | .crash s' => s'.oom = true
    | .ret none s' => (s'.oom = true ∨ x = none) ∧ (R₀ p u ∗ keep h ∗ Asrt.any) s'.heap ∧ (s'.oom = false → (R₀ p u ∗ keep h) s'.heap)
    | .ret (some b) s' => ∃ v, x = some v ∧ (R b v ∗ keep h) s'.heap

/-- No block is released that still holds a secret: what is not wiped is in `pubs`. -/
def AdoptsFromDiscreetly (args : Heap → Prop) (R₀ : Addr → U → Asrt) (p : Addr) (u : U) (pubs : List Bytes) (m : H Ptr) : Prop :=
  ∀ (A : Alloc) (s : St) (h : Heap), s.oom = false → args h → (R₀ p u ∗ keep h) s.heap → ReleasesOnly pubs s (m A s)

/-- The same if every allocation succeeds. -/
def AdoptsFromDiscreetlyWithMemory (args : Heap → Prop) (R₀ : Addr → U → Asrt) (p : Addr) (u : U) (pubs : List Bytes) (m : H Ptr) : Prop :=
  ∀ (A : Alloc) (s : St) (h : Heap), s.oom = false → args h → (R₀ p u ∗ keep h) s.heap →
    ∀ r s', m A s = .ret r s' → s'.oom = false → ReleasesOnly pubs s (m A s)

end Wickr.Spec
