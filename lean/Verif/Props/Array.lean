import Verif.Lemmas.Array
/-
C05: a history of array calls behaves like lists of optional values, with no memory error.
-/
namespace Wickr.Arr

/-- C05.  For every history of array API calls, starting with no arrays, the pointer-level
implementation performs no undefined behaviour (no double free, no use of a freed item), and what
the caller observes is exactly what the abstract specification (`Spec.run`: plain lists of
optional values) produces.  `cp` is the item copy function; the only assumption about it is that
when it succeeds it returns an equal value. -/
theorem C05_array_refines_list {V : Type} (cp : V → Option V)
    (hcp : ∀ v v', cp v = some v' → v' = v) (ops : List (Op V)) :
    ∃ w', run cp World.init ops = .ok (w', Spec.run (fun v => (cp v).isSome) [] ops) := by
  obtain ⟨w', h, _⟩ := run_spec cp hcp ops init_inv init_rel
  exact ⟨w', h⟩

/-- A concrete history: an item set in one array and copied survives destruction of the original,
out-of-range and uncopyable writes fail.  (The copy function refuses 7.) -/
example :
    Spec.run (fun v : Nat => (if v = 7 then none else some v).isSome) []
      [.new 2, .set 0 0 (some 3) true, .set 0 2 (some 3) true, .set 0 1 (some 7) true, .copy 0,
       .destroy 0, .fetch 1 0 true, .fetch 0 0 false, .count 1]
    = [.handle (some 0), .bool true, .bool false, .bool false, .handle (some 1), .unit,
       .item (some 3), .item none, .num 2] := by decide

example : ∀ v v' : Nat, (if v = 7 then none else some v) = some v' → v' = v := by
  intro v v' h; split at h
  · cases h
  · exact (Option.some.inj h).symm

end Wickr.Arr
