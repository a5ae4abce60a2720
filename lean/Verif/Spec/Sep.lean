import Verif.Model.Heap
/-
What it means for a program to treat memory well.

An assertion describes a piece of the heap exactly: nothing more may be in the piece.  A `Triple` says that from
any heap with such a piece, whatever else is in memory and whatever the allocator does, the program never
has undefined behaviour, leaves everything else as it was, and turns the piece into exactly the piece described
by its postcondition.  A leak would be a cell that no postcondition accounts for.
-/
namespace Wickr

abbrev Asrt := Heap → Prop

namespace Asrt

def emp : Asrt := fun h => h = fun _ => none
/-- One block. -/
def cell (a : Addr) (c : Cell) : Asrt := fun h => h = fun x => if x = a then some c else none
/-- Two pieces without common addresses. -/
def star (P Q : Asrt) : Asrt := fun h => ∃ h1 h2 : Heap, (∀ a, h1 a = none ∨ h2 a = none) ∧
  (h = fun a => (h1 a).or (h2 a)) ∧ P h1 ∧ Q h2
/-- Nothing in memory, and `φ` holds. -/
def pure (φ : Prop) : Asrt := fun h => φ ∧ h = fun _ => none
def ex {α : Sort _} (P : α → Asrt) : Asrt := fun h => ∃ x, P x h
/-- Exactly this piece of memory. -/
def keep (h : Heap) : Asrt := fun h' => h' = h
/-- Any piece of memory: what a leaking program leaves behind. -/
def any : Asrt := fun _ => True

end Asrt

open Asrt

infixr:60 " ∗ " => Asrt.star
notation:70 a " ↦ " c => Asrt.cell a c
notation "⌜" φ "⌝" => Asrt.pure φ

/-- What a program is allowed to do: release blocks of bytes unwiped whose content is in `pub`, dereference NULL after an
allocation has failed if `crash`, and release anything unwiped in a run in which an allocation fails if `lax`. -/
structure Rules where
  pub : Bytes → Prop
  crash : Prop
  lax : Prop := False

/-- The strictest rules: every block of bytes is wiped before it is released, and NULL is never dereferenced. -/
def Rules.strict : Rules := { pub := fun _ => False, crash := False }

def Wiped (b : Bytes) : Prop := ∀ x ∈ b, x = 0

/-- What may be in a block that a run releases; `f`: whether an allocation has failed by the end of the run. -/
def Rules.May (c : Rules) (f : Bool) (b : Bytes) : Prop := Wiped b ∨ c.pub b ∨ (f = true ∧ c.lax)

/-- What a run from `s` may end in.  `f`: whether an allocation had failed before it; `F`: the rest of memory. -/
def Good (c : Rules) (f : Bool) (s : St) (F : Asrt) (Q : α → Bool → Asrt) : Out α → Prop
  | .ret a s' => (Q a s'.oom ∗ F) s'.heap ∧ (f = true → s'.oom = true) ∧
      ∀ b ∈ s'.log, b ∈ s.log ∨ c.May s'.oom b
  | .crash s' => c.crash ∧ s'.oom = true ∧ ∀ b ∈ s'.log, b ∈ s.log ∨ c.May s'.oom b
  | .ub => False

def Triple (c : Rules) (f : Bool) (P : Asrt) (m : H α) (Q : α → Bool → Asrt) : Prop :=
  ∀ (A : Alloc) (s : St) (F : Asrt), s.oom = f → (P ∗ F) s.heap → Good c f s F Q (m A s)

/-- A pointer that is NULL or points to a representation. -/
def optRep {α : Type _} (R : Addr → α → Asrt) : Ptr → Option α → Asrt
  | none, none => emp
  | some a, some v => R a v
  | none, some _ => ⌜False⌝
  | some _, none => ⌜False⌝

/-- The result of a function that makes a new object: the object, or NULL if an allocation failed. -/
def fresh {α : Type _} (R : Addr → α → Asrt) (v : α) (r : Ptr) (f : Bool) : Asrt :=
  match r with
  | none => ⌜f = true⌝
  | some a => R a v

/-- The result of a function that makes a new object out of the parts `P`; if it cannot they stay with the caller. -/
def orKeep {α : Type _} (P : Asrt) (R : Addr → α → Asrt) (v : α) (r : Ptr) (f : Bool) : Asrt :=
  match r with
  | none => ⌜f = true⌝ ∗ P
  | some a => R a v

/-- The same for a function with the value `x`, which may refuse the parts. -/
def orGives {α : Type _} (P : Asrt) (R : Addr → α → Asrt) (x : Option α) (r : Ptr) (f : Bool) : Asrt :=
  match r with
  | none => ⌜f = true ∨ x = none⌝ ∗ P
  | some a => Asrt.ex fun v => ⌜x = some v⌝ ∗ R a v

/-- What may be left behind: something, if an allocation failed. -/
def spill : Bool → Asrt
  | true => Asrt.any
  | false => emp

/-- The same for a function that may leak when an allocation failed. -/
def orSpills {α : Type _} (P : Asrt) (R : Addr → α → Asrt) (x : Option α) (r : Ptr) (f : Bool) : Asrt :=
  match r with
  | none => ⌜f = true ∨ x = none⌝ ∗ P ∗ spill f
  | some a => Asrt.ex fun v => ⌜x = some v⌝ ∗ R a v

/-- The result of a function that makes a new object and dereferences NULL if it cannot. -/
def made {α : Type _} (R : Addr → α → Asrt) (v : α) (r : Ptr) : Asrt :=
  match r with
  | none => ⌜False⌝
  | some a => R a v

/-- The same for a function whose object may differ from `v`, as `L` says, when an allocation failed. -/
def freshL {α : Type _} (R : Addr → α → Asrt) (L : α → α → Prop) (v : α) (r : Ptr) (f : Bool) : Asrt :=
  match r with
  | none => ⌜f = true⌝
  | some a => Asrt.ex fun v' => ⌜L v v' ∧ (f = false → v' = v)⌝ ∗ R a v'

/-- The same for a function that may leak when it fails. -/
def leaky {α : Type _} (R : Addr → α → Asrt) (L : α → α → Prop) (v : α) (r : Ptr) (f : Bool) : Asrt :=
  match r with
  | none => ⌜f = true⌝ ∗ Asrt.any
  | some a => Asrt.ex fun v' => ⌜L v v' ∧ (f = false → v' = v)⌝ ∗ R a v'

/-- The same for a function that may leak whether it fails or not. -/
def wasteful {α : Type _} (R : Addr → α → Asrt) (L : α → α → Prop) (v : α) (r : Ptr) (f : Bool) : Asrt :=
  match r with
  | none => ⌜f = true⌝ ∗ Asrt.any
  | some a => Asrt.ex fun v' => ⌜L v v' ∧ (f = false → v' = v)⌝ ∗ R a v' ∗ spill f

/-- The result of a function that computes `x`: an object with the value, or NULL if there is none or an allocation failed. -/
def gives {α : Type _} (R : Addr → α → Asrt) (x : Option α) (r : Ptr) (f : Bool) : Asrt :=
  match r with
  | none => ⌜f = true ∨ x = none⌝
  | some a => Asrt.ex fun v => ⌜x = some v⌝ ∗ R a v

/-- The same for a function whose object may differ from the value, as `L` says, when an allocation failed. -/
def givesL {α : Type _} (R : Addr → α → Asrt) (L : α → α → Prop) (x : Option α) (r : Ptr) (f : Bool) : Asrt :=
  match r with
  | none => ⌜f = true ∨ x = none⌝
  | some a => Asrt.ex fun v => Asrt.ex fun v' => ⌜x = some v ∧ L v v' ∧ (f = false → v' = v)⌝ ∗ R a v'

/-- The same for a function that may leak when an allocation failed. -/
def givesA {α : Type _} (R : Addr → α → Asrt) (L : α → α → Prop) (x : Option α) (r : Ptr) (f : Bool) : Asrt :=
  match r with
  | none => ⌜f = true ∨ x = none⌝ ∗ spill f
  | some a => Asrt.ex fun v => Asrt.ex fun v' => ⌜x = some v ∧ L v v' ∧ (f = false → v' = v)⌝ ∗ R a v' ∗ spill f

/-- The same for a function that has the exact value and may leak when it returns nothing because an allocation failed. -/
def givesN {α : Type _} (R : Addr → α → Asrt) (x : Option α) (r : Ptr) (f : Bool) : Asrt :=
  match r with
  | none => ⌜f = true ∨ x = none⌝ ∗ spill f
  | some a => Asrt.ex fun v => ⌜x = some v⌝ ∗ R a v

end Wickr
