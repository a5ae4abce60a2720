import Verif.Spec.Update
import Verif.Lemmas.Compute
/-
From triples to statements about runs, for functions that change an object.
-/
namespace Wickr
open Asrt Spec

variable {U V : Type} {c : Rules} {args : Heap → Prop} {R₀ : Addr → U → Asrt} {a : Addr} {u u' : U} {may : U → Prop}
  {R : Addr → V → Asrt} {x : Option V} {m : H Ptr}

/-- Such a function as it is proved. -/
def UpdateSpec (c : Rules) (args : Heap → Prop) (R₀ : Addr → U → Asrt) (a : Addr) (u : U) (may : U → Prop) (u' : U)
    (R : Addr → V → Asrt) (x : Option V) (m : H Ptr) : Prop :=
  ∀ f h, args h → Triple c f (R₀ a u ∗ keep h) m (fun r f' => keep h ∗ Asrt.ex fun w =>
    ⌜may w ∧ (f' = false ∨ r ≠ none → w = u')⌝ ∗ R₀ a w ∗ gives R x r f')

theorem Updates.of (hk : UpdateSpec c args R₀ a u may u' R x m) : Updates args R₀ a u may u' R x m := by
  intro A s h hf ha hs
  have := hk s.oom h ha A s emp rfl (by rwa [Asrt.star_emp])
  revert this
  cases m A s with
  | ub => exact id
  | crash s' => exact fun h => h.2.1
  | ret r s' =>
    rintro ⟨hq, -, -⟩
    dsimp only at hq ⊢
    rw [Asrt.star_emp, Asrt.star_comm, Asrt.ex_star] at hq
    obtain ⟨w, hq⟩ := hq
    rw [Asrt.star_assoc] at hq
    obtain ⟨⟨h1, h2⟩, hq⟩ := Asrt.pure_star.1 hq
    refine ⟨w, h1, h2, ?_⟩
    cases r with
    | none =>
      dsimp only [gives] at hq ⊢
      rw [Asrt.star_comm (R₀ a w), Asrt.star_assoc] at hq
      exact Asrt.pure_star.1 hq
    | some b =>
      dsimp only [gives] at hq ⊢
      rw [Asrt.star_comm (R₀ a w), Asrt.star_assoc, Asrt.ex_star] at hq
      obtain ⟨v, hq⟩ := hq
      rw [Asrt.star_assoc] at hq
      exact ⟨v, Asrt.pure_star.1 hq⟩

theorem UpdatesDiscreetly.of {pubs : List Bytes} (hk : UpdateSpec c args R₀ a u may u' R x m) (hp : ∀ b, c.pub b → b ∈ pubs)
    (hl : ¬ c.lax := by exact not_false) : UpdatesDiscreetly args R₀ a u pubs m := by
  intro A s h hf ha hs
  have := hk s.oom h ha A s emp rfl (by rwa [Asrt.star_emp])
  revert this
  cases m A s with
  | ub => exact id
  | crash s' => exact fun h b hb => (h.2.2 b hb).imp_right fun h => (Rules.May.strict hl h).imp_right (hp b)
  | ret r s' => exact fun h b hb => (h.2.2 b hb).imp_right fun h => (Rules.May.strict hl h).imp_right (hp b)

theorem UpdatesSturdily.of (hk : UpdateSpec c args R₀ a u may u' R x m) (hc : ¬ c.crash) : UpdatesSturdily args R₀ a u m := by
  intro A s h hf ha hs s' e
  have := hk s.oom h ha A s emp rfl (by rwa [Asrt.star_emp])
  rw [e] at this
  exact hc this.1

/-- A function that takes over an object, as it is proved. -/
def AdoptSpec (c : Rules) (R₀ : Addr → U → Asrt) (a : Addr) (u : U) (R : Addr → V → Asrt) (x : Option V) (m : H Ptr) : Prop :=
  ∀ f, Triple c f (R₀ a u) m (fun r f' => orSpills (R₀ a u) R x r f')

theorem Adopts.of (hk : AdoptSpec c R₀ a u R x m) : Adopts R₀ a u R x m := by
  intro A s h hf hs
  have := hk s.oom A s (keep h) rfl hs
  revert this
  cases m A s with
  | ub => exact id
  | crash s' => exact fun h => h.2.1
  | ret r s' =>
    rintro ⟨hq, -, -⟩
    cases r with
    | none =>
      dsimp only [orSpills] at hq ⊢
      rw [Asrt.star_assoc] at hq
      obtain ⟨h1, hq⟩ := Asrt.pure_star.1 hq
      rw [Asrt.star_assoc, Asrt.star_comm (spill _)] at hq
      refine ⟨h1, ?_, fun e => ?_⟩
      · refine Asrt.le_star (Asrt.le_refl _) (Asrt.le_star (Asrt.le_refl _) ?_) _ hq
        cases s'.oom
        · exact fun _ _ => trivial
        · exact Asrt.le_refl _
      · rw [e, show spill false = emp from rfl, Asrt.star_emp] at hq
        exact hq
    | some b =>
      dsimp only [orSpills] at hq ⊢
      rw [Asrt.ex_star] at hq
      obtain ⟨v, hq⟩ := hq
      rw [Asrt.star_assoc] at hq
      exact ⟨v, Asrt.pure_star.1 hq⟩

theorem AdoptsDiscreetly.of {pubs : List Bytes} (hk : AdoptSpec c R₀ a u R x m) (hp : ∀ b, c.pub b → b ∈ pubs)
    (hl : ¬ c.lax := by exact not_false) : AdoptsDiscreetly R₀ a u pubs m := by
  intro A s hf hs
  have := hk s.oom A s _ rfl hs
  revert this
  cases m A s with
  | ub => exact id
  | crash s' => exact fun h b hb => (h.2.2 b hb).imp_right fun h => (Rules.May.strict hl h).imp_right (hp b)
  | ret r s' => exact fun h b hb => (h.2.2 b hb).imp_right fun h => (Rules.May.strict hl h).imp_right (hp b)

end Wickr
