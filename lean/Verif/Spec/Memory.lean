import Verif.Spec.Repr
/-
What copy, destroy and create functions owe their callers, said about runs.
-/
namespace Wickr.Spec
open Wickr Asrt

variable {V : Type}

/-- An object `v` at `a`, somewhere in memory. -/
def Has (R : Addr → V → Asrt) (h : Heap) (a : Addr) (v : V) : Prop := (R a v ∗ Asrt.any) h

/-- Copying an object, whatever the allocator does: there is no undefined behaviour; NULL is dereferenced only after an
allocation has failed; every block that was there is as it was; and if no allocation failed, the result is an object equal to
`img v` made of new blocks, besides which there is nothing new in memory. -/
def CopySafe (R : Addr → V → Asrt) (ok : V → Prop) (img : V → V) (copy : Ptr → H Ptr) : Prop :=
  ∀ (A : Alloc) (s : St) (a : Addr) (v : V), ok v → s.oom = false → Has R s.heap a v →
    match copy (some a) A s with
    | .ub => False
    | .crash s' => s'.oom = true
    | .ret r s' => (∀ x, s.heap x ≠ none → s'.heap x = s.heap x) ∧ (r = none → s'.oom = true) ∧
        (s'.oom = false → ∃ b, r = some b ∧ (R b (img v) ∗ keep s.heap) s'.heap)

/-- Releasing an object: the blocks it consists of are released, each once, and nothing else changes. -/
def DestroySafe (R : Addr → V → Asrt) (ok : V → Prop) (destroy : Ptr → H Ptr) : Prop :=
  ∀ (A : Alloc) (s : St) (a : Addr) (v : V) (rest : Heap), ok v → (R a v ∗ keep rest) s.heap →
    ∃ s', destroy (some a) A s = .ret none s' ∧ s'.heap = rest

/-- Releasing a copy, even one made while allocations failed, brings memory back to what it was before the copy was made. -/
def CopyUndone (R : Addr → V → Asrt) (ok : V → Prop) (copy destroy : Ptr → H Ptr) : Prop :=
  ∀ (A A' : Alloc) (s : St) (a : Addr) (v : V) (b : Addr) (s' : St), ok v → s.oom = false → Has R s.heap a v →
    copy (some a) A s = .ret (some b) s' →
    ∃ s'', destroy (some b) A' s' = .ret none s'' ∧ s''.heap = s.heap

/-- The same for copies made while no allocation failed. -/
def FullCopyUndone (R : Addr → V → Asrt) (ok : V → Prop) (copy destroy : Ptr → H Ptr) : Prop :=
  ∀ (A A' : Alloc) (s : St) (a : Addr) (v : V) (b : Addr) (s' : St), ok v → s.oom = false → Has R s.heap a v →
    copy (some a) A s = .ret (some b) s' → s'.oom = false →
    ∃ s'', destroy (some b) A' s' = .ret none s'' ∧ s''.heap = s.heap

/-- A copy that could not be made leaves memory as it was. -/
def CopyNoLeak (R : Addr → V → Asrt) (ok : V → Prop) (copy : Ptr → H Ptr) : Prop :=
  ∀ (A : Alloc) (s : St) (a : Addr) (v : V) (s' : St), ok v → s.oom = false → Has R s.heap a v →
    copy (some a) A s = .ret none s' → s'.heap = s.heap

/-- A copy, even one made while allocations failed, is equal to the original. -/
def CopyFaithful (R : Addr → V → Asrt) (ok : V → Prop) (img : V → V) (copy : Ptr → H Ptr) : Prop :=
  ∀ (A : Alloc) (s : St) (a : Addr) (v : V) (b : Addr) (s' : St), ok v → s.oom = false → Has R s.heap a v →
    copy (some a) A s = .ret (some b) s' → Has R s'.heap b (img v)

/-- The same, for copies from which something may be missing. -/
def CopyUpTo (R : Addr → V → Asrt) (ok : V → Prop) (L : V → V → Prop) (copy : Ptr → H Ptr) : Prop :=
  ∀ (A : Alloc) (s : St) (a : Addr) (v : V) (b : Addr) (s' : St), ok v → s.oom = false → Has R s.heap a v →
    copy (some a) A s = .ret (some b) s' → ∃ v', L v v' ∧ Has R s'.heap b v'

/-- Copying never dereferences NULL. -/
def CopyNoCrash (R : Addr → V → Asrt) (ok : V → Prop) (copy : Ptr → H Ptr) : Prop :=
  ∀ (A : Alloc) (s : St) (a : Addr) (v : V), ok v → s.oom = false → Has R s.heap a v →
    ∀ s', copy (some a) A s ≠ .crash s'

/-- Every block that is released while running `m` held zeros or something in `pubs`. -/
def ReleasesOnly (pubs : List Bytes) (s : St) : Out Ptr → Prop
  | .ub => False
  | .crash s' => ∀ b ∈ s'.log, b ∈ s.log ∨ Wiped b ∨ b ∈ pubs
  | .ret _ s' => ∀ b ∈ s'.log, b ∈ s.log ∨ Wiped b ∨ b ∈ pubs

/-- Copying or releasing an object releases no block that still holds a secret. -/
def Wipes (R : Addr → V → Asrt) (ok : V → Prop) (pubs : V → List Bytes) (run : Ptr → H Ptr) : Prop :=
  ∀ (A : Alloc) (s : St) (a : Addr) (v : V), ok v → s.oom = false → Has R s.heap a v →
    ReleasesOnly (pubs v) s (run (some a) A s)

/-- Making an object out of parts: on success the object consists of the parts and one new block; on failure, which happens only
when the allocation fails, memory is as it was and the parts still belong to the caller. -/
def CreateSafe (parts : Asrt) (R : Addr → V → Asrt) (v : V) (create : H Ptr) : Prop :=
  ∀ (A : Alloc) (s : St) (rest : Heap), s.oom = false → (parts ∗ keep rest) s.heap →
    match create A s with
    | .ub => False
    | .crash s' => s'.oom = true
    | .ret none s' => s'.oom = true ∧ (parts ∗ keep rest) s'.heap
    | .ret (some b) s' => (R b v ∗ keep rest) s'.heap

/-- Nothing is made and nothing happens. -/
def Refuses (create : H Ptr) : Prop := ∀ (A : Alloc) (s : St), create A s = .ret none s

/-- With these parts nothing is made; memory stays as it is. -/
def RefusesIn (parts : Asrt) (create : H Ptr) : Prop := ∀ (A : Alloc) (s : St), (parts ∗ any) s.heap →
  ∃ s', create A s = .ret none s' ∧ s'.heap = s.heap ∧ s'.oom = s.oom

end Wickr.Spec

namespace Wickr

/-- An optional object, somewhere in memory. -/
def HasOpt {V : Type _} (R : Addr → V → Asrt) (h : Heap) : Ptr → Option V → Prop
  | none, none => True
  | some a, some v => (R a v ∗ Asrt.any) h
  | _, _ => False

end Wickr
