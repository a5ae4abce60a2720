import Verif.Spec.Memory
/-
What a function owes its callers that looks at objects in memory and makes a new one, said about runs.  `args` says which objects
are in memory, `x` is the value the result should have.
-/
namespace Wickr.Spec
open Wickr Asrt

variable {V : Type}

/-- Whatever the allocator does: there is no undefined behaviour; NULL is dereferenced only after an allocation has failed; every
block that was there is as it was; a result is an object equal to `x` up to `L`, and there is one unless `x` does not exist or an
allocation failed.  If no allocation failed, the result is exactly `x`, consists of new blocks, and nothing else is new in
memory. -/
def ComputesUpTo (L : V → V → Prop) (args : Heap → Prop) (R : Addr → V → Asrt) (x : Option V) (m : H Ptr) : Prop :=
  ∀ (A : Alloc) (s : St), s.oom = false → args s.heap →
    match m A s with
    | .ub => False
    | .crash s' => s'.oom = true
    | .ret r s' => (∀ a, s.heap a ≠ none → s'.heap a = s.heap a) ∧
      match r with
      | none => (s'.oom = true ∨ x = none) ∧ (s'.oom = false → s'.heap = s.heap)
      | some b => ∃ v, x = some v ∧ (∃ v', L v v' ∧ Has R s'.heap b v') ∧ (s'.oom = false → (R b v ∗ keep s.heap) s'.heap)

/-- The same where a result has exactly the value, even if allocations failed. -/
def Computes (args : Heap → Prop) (R : Addr → V → Asrt) (x : Option V) (m : H Ptr) : Prop := ComputesUpTo Eq args R x m

/-- Nothing is leaked, even if allocations fail: without a result memory is as it was, with a result only the object is new. -/
def Tidy (args : Heap → Prop) (R : Addr → V → Asrt) (m : H Ptr) : Prop :=
  ∀ (A : Alloc) (s : St), s.oom = false → args s.heap →
    match m A s with
    | .ret none s' => s'.heap = s.heap
    | .ret (some b) s' => ∃ v, (R b v ∗ keep s.heap) s'.heap
    | _ => True

/-- NULL is never dereferenced. -/
def Sturdy {α : Type} (args : Heap → Prop) (m : H α) : Prop :=
  ∀ (A : Alloc) (s : St), s.oom = false → args s.heap → ∀ s', m A s ≠ .crash s'

/-- No block is released that still holds a secret: what is not wiped is in `pubs`. -/
def Discreet (args : Heap → Prop) (pubs : List Bytes) (m : H Ptr) : Prop :=
  ∀ (A : Alloc) (s : St), s.oom = false → args s.heap → ReleasesOnly pubs s (m A s)

/-- The same if every allocation succeeds. -/
def DiscreetWithMemory (args : Heap → Prop) (pubs : List Bytes) (m : H Ptr) : Prop :=
  ∀ (A : Alloc) (s : St), s.oom = false → args s.heap → ∀ r s', m A s = .ret r s' → s'.oom = false → ReleasesOnly pubs s (m A s)

end Wickr.Spec
