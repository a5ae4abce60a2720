import Verif.Spec.Adopt
import Verif.Lemmas.Update
/-
From triples to statements about runs that take over an object.
-/
namespace Wickr
open Asrt Spec

variable {U V : Type} {c : Rules} {args : Heap → Prop} {R₀ : Addr → U → Asrt} {a : Addr} {u : U} {R : Addr → V → Asrt} {x : Option V}
  {m : H Ptr}

/-- A function that takes over an object and looks at others, as it is proved. -/
def AdoptFromSpec (c : Rules) (args : Heap → Prop) (R₀ : Addr → U → Asrt) (a : Addr) (u : U) (R : Addr → V → Asrt) (x : Option V)
    (m : H Ptr) : Prop :=
  ∀ f h, args h → Triple c f (R₀ a u ∗ keep h) m (fun r f' => keep h ∗ orSpills (R₀ a u) R x r f')

theorem AdoptFromSpec.run {A : Alloc} {s : St} {h : Heap} (hk : AdoptFromSpec c args R₀ a u R x m) (ha : args h)
    (hs : (R₀ a u ∗ keep h) s.heap) : Good c s.oom s emp (fun r f' => keep h ∗ orSpills (R₀ a u) R x r f') (m A s) :=
  hk s.oom h ha A s emp rfl (by rwa [Asrt.star_emp])

theorem AdoptsFrom.of (hk : AdoptFromSpec c args R₀ a u R x m) : AdoptsFrom args R₀ a u R x m := by
  intro A s h hf ha hs
  have := hk.run (A := A) ha hs
  revert this
  cases m A s with
  | ub => exact id
  | crash s' => exact fun h => h.2.1
  | ret r s' =>
    rintro ⟨hq, -, -⟩
    rw [Asrt.star_emp, Asrt.star_comm] at hq
    cases r with
    | none =>
      dsimp only [orSpills] at hq ⊢
      rw [Asrt.star_assoc] at hq
      obtain ⟨h1, hq⟩ := Asrt.pure_star.1 hq
      rw [Asrt.star_assoc, Asrt.star_comm (spill _)] at hq
      refine ⟨h1, ?_, fun e => ?_⟩
      · refine Asrt.le_star (Asrt.le_refl _) (Asrt.le_star (Asrt.le_refl _) ?_) _ hq
        cases s'.oom
        · exact fun _ _ => trivial
        · exact Asrt.le_refl _
      · rw [e, show spill false = emp from rfl, Asrt.star_emp] at hq
        exact hq
    | some b =>
      dsimp only [orSpills] at hq ⊢
      rw [Asrt.ex_star] at hq
      obtain ⟨v, hq⟩ := hq
      rw [Asrt.star_assoc] at hq
      exact ⟨v, Asrt.pure_star.1 hq⟩

theorem AdoptsFromDiscreetly.of {pubs : List Bytes} (hk : AdoptFromSpec c args R₀ a u R x m) (hp : ∀ b, c.pub b → b ∈ pubs)
    (hl : ¬ c.lax := by exact not_false) : AdoptsFromDiscreetly args R₀ a u pubs m := by
  intro A s h hf ha hs
  have := hk.run (A := A) ha hs
  revert this
  cases m A s with
  | ub => exact id
  | crash s' => exact fun h b hb => (h.2.2 b hb).imp_right fun h => (Rules.May.strict hl h).imp_right (hp b)
  | ret r s' => exact fun h b hb => (h.2.2 b hb).imp_right fun h => (Rules.May.strict hl h).imp_right (hp b)

theorem AdoptsFromDiscreetlyWithMemory.of {pubs : List Bytes} (hk : AdoptFromSpec c args R₀ a u R x m) (hp : ∀ b, c.pub b → b ∈ pubs) :
    AdoptsFromDiscreetlyWithMemory args R₀ a u pubs m := by
  intro A s h hf ha hs r s' e ho
  have := hk.run (A := A) ha hs
  rw [e] at this ⊢
  intro b hb
  refine (this.2.2 b hb).imp_right fun h => h.imp_right fun h => h.elim (hp b) fun h => ?_
  rw [ho] at h
  exact absurd h.1 (by decide)

end Wickr
