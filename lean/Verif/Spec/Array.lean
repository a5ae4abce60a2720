import Verif.Model.Array
/-
Specification for C05: arrays as plain lists of optional values, no heap, no pointers.
-/
namespace Wickr.Arr.Spec
open Wickr.Arr

variable {V : Type}

/-- The abstract state: for each handle ever created, its list of optional items (`none` once destroyed). -/
abbrev State (V : Type) := List (Option (List (Option V)))

/-- Largest item count that can be allocated. -/
def maxCount : Nat := maxBuffer / 8

/-- The abstract meaning of each operation.  `copyable` says which items the item copy function
can copy. -/
def step (copyable : V → Bool) (s : State V) : Op V → State V × Out V
  | .new c =>
    if c.toNat ≤ maxCount then (s ++ [some (List.replicate c.toNat none)], .handle (some s.length))
    else (s, .handle none)
  | .count a => (s, .num (match (s[a]?).join with | none => 0 | some l => l.length))
  | .set a i v c =>
    match (s[a]?).join with
    | none => (s, .bool false)
    | some l =>
      if i.toNat < l.length ∧ (c = true → v.all copyable) then
        (s.set a (some (l.set i.toNat v)), .bool true)
      else (s, .bool false)
  | .fetch a i c =>
    (s, .item (match (s[a]?).join with
      | none => none
      | some l => (l[i.toNat]?).join.filter (fun v => !c || copyable v)))
  | .copy a =>
    match (s[a]?).join with
    | none => (s, .handle none)
    | some l =>
      if l.all (fun v => v.all copyable) then (s ++ [some l], .handle (some s.length))
      else (s ++ [none], .handle none)
  | .destroy a => (s.set a none, .unit)

/-- The observations of a whole history. -/
def run (copyable : V → Bool) : State V → List (Op V) → List (Out V)
  | _, [] => []
  | s, op :: ops => (step copyable s op).2 :: run copyable (step copyable s op).1 ops

end Wickr.Arr.Spec
