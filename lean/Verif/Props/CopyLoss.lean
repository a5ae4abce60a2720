import Verif.Props.MemoryFail
import Verif.Lemmas.View
/-
C81: copies of arrays and of exchange sets may silently lose parts of their items.
-/
namespace Wickr
open Asrt Spec

/-- The blocks of an array of one item. -/
theorem arr_one {V : Type} {R : Addr → V → Asrt} {h : Heap} {a : Addr} {v : V} (ha : Has (isArr R) h a [some v]) :
    ∃ s b p, Reads (keep h) (field (some a) 0) (some s) ∧ Reads (keep h) (field (some s) 0) (some b) ∧
      Reads (keep h) (field (some b) 0) (some p) ∧ Has R h p v := by
  obtain ⟨ps, ha⟩ := view_ex ha
  obtain ⟨h1, h2⟩ := view_star ha
  obtain ⟨st, h1'⟩ := view_ex h1
  obtain ⟨c1, h3⟩ := view_star h1'
  cases st with
  | none => exact absurd (view_pure h3).1 (by simp)
  | some s =>
    obtain ⟨b, h3'⟩ := view_ex h3
    obtain ⟨h4, h5⟩ := view_star h3'
    obtain ⟨c2, c3⟩ := view_star h5
    cases ps with
    | nil => exact absurd (view_pure h4).2.2 (by simp)
    | cons p ps =>
      have h6 := view_opt (view_star h2).1
      cases p with
      | none => exact h6.elim
      | some p => exact ⟨s, b, p, field_view (view_cell c1) rfl, field_view (view_cell c2) rfl, field_view (view_cell c3) rfl, h6⟩

/-- Reading the last pointer of a path: it is not NULL. -/
theorem probe_end {P : Asrt} {p : Ptr} {i : Nat} {a : Addr} (h : Reads P (field p i) (some a)) : Reads P (probe [i] p) false := by
  intro c f
  simp only [probe]
  sread (h)
  exact Triple.ret fun y hy => Asrt.pure_star.2 ⟨⟨rfl, rfl⟩, hy⟩

theorem probe_step {P : Asrt} {p q : Ptr} {i : Nat} {r : List Nat} (h : Reads P (field p i) q) (hr : Reads P (probe r q) false) :
    Reads P (probe (i :: r) p) false := by
  intro c f
  rw [show probe (i :: r) p = (do let q ← field p i; probe r q) from rfl]
  sread (h)
  exact hr c f

theorem has_self {V : Type} {R : Addr → V → Asrt} {h : Heap} {a : Addr} {v : V} (hx : R a v h) : Has R h a v :=
  ⟨h, fun _ => none, fun _ => Or.inr rfl, by funext x; cases h x <;> rfl, hx, trivial⟩

theorem ex_probe {h : Heap} {p : Addr} (hx : Has isEx h p exEx) : Reads (keep h) (probe [1, 1] (some p)) false := by
  sview hx isEx
  have hr := ‹Has isCRes h _ _›
  sview hr isCRes
  rename_i w ct t _ hw _ hct _
  cases ct with
  | none => exact hct.elim
  | some ct => exact probe_step (field_view (by assumption) rfl) (probe_end (field_view hw rfl))

theorem node_probe {h : Heap} {p : Addr} (hx : Has isNode h p exNode) : Reads (keep h) (probe [1, 0, 2] (some p)) false := by
  sview hx isNode
  have hc := ‹Has isChain h _ _›
  sview hc isChain
  rename_i hr _ _
  sview hr isId
  rename_i sg _ hs _ _ hg
  cases sg with
  | none => exact hg.elim
  | some sg => exact probe_step (field_view (by assumption) rfl) (probe_step (field_view (by assumption) rfl) (probe_end (field_view hs rfl)))

/-- An array of exchanges: the cipher text of an exchange is missing. -/
theorem C81_exs_loses : ¬ CopyFaithful (isArr isEx) (fun _ => True) id hExsCopy := by
  refine not_faithful (probe := probe [0, 0, 0, 1, 1]) [18] trivial (mkExs_spec _ _ trivial) ?_ (by decide +kernel)
  refine fun b => Reads.owned fun x hx => ?_
  obtain ⟨s, t, p, r1, r2, r3, hp⟩ := arr_one (has_self (R := isArr isEx) hx)
  exact probe_step r1 (probe_step r2 (probe_step r3 (ex_probe hp)))

/-- An exchange set. -/
theorem C81_set_loses : ¬ CopyFaithful isSet (fun _ => True) id hSetCopy := by
  refine not_faithful (probe := probe [1, 0, 0, 0, 1, 1]) [29] trivial (mkSet_spec _ _ trivial) ?_ (by decide +kernel)
  refine fun b => Reads.owned fun x hx => ?_
  have hx := has_self (R := isSet) hx
  sview hx isSet
  obtain ⟨s, t, p, r1, r2, r3, hp⟩ := arr_one (‹Has (isArr isEx) x _ _›)
  exact probe_step (field_view (by assumption) rfl) (probe_step r1 (probe_step r2 (probe_step r3 (ex_probe hp))))

/-- An array of nodes: the signature of an identity is missing. -/
theorem C81_nodes_loses : ¬ CopyFaithful (isArr isNode) (fun _ => True) id hNodesCopy := by
  refine not_faithful (probe := probe [0, 0, 0, 1, 0, 2]) [50] trivial (mkNodes_spec _ _ trivial) ?_ (by decide +kernel)
  refine fun b => Reads.owned fun x hx => ?_
  obtain ⟨s, t, p, r1, r2, r3, hp⟩ := arr_one (has_self (R := isArr isNode) hx)
  exact probe_step r1 (probe_step r2 (probe_step r3 (node_probe hp)))

end Wickr
