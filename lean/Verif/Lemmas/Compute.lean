import Verif.Spec.Compute
import Verif.Lemmas.Memory
/-
From triples to statements about runs, for functions that make an object out of objects they look at.
-/
namespace Wickr
open Asrt Spec

variable {V : Type}

/-- Such a function as it is proved. -/
def ViewSpec (c : Rules) (args : Heap → Prop) (Post : Ptr → Bool → Asrt) (m : H Ptr) : Prop :=
  ∀ f h, args h → Triple c f (keep h) m (fun r f' => keep h ∗ Post r f')

theorem ViewSpec.run {c : Rules} {args : Heap → Prop} {Post : Ptr → Bool → Asrt} {m : H Ptr} (hk : ViewSpec c args Post m)
    {A : Alloc} {s : St} (hx : args s.heap) : Good c s.oom s (keep s.heap) Post (m A s) := by
  have := hk s.oom s.heap hx A s emp rfl (by rw [Asrt.star_emp]; rfl)
  revert this
  cases m A s with
  | ub => exact id
  | crash s' => exact id
  | ret r s' =>
    rintro ⟨hq, h3⟩
    refine ⟨?_, h3⟩
    dsimp only at hq
    rwa [Asrt.star_emp, Asrt.star_comm] at hq

variable {c : Rules} {args : Heap → Prop} {R : Addr → V → Asrt} {x : Option V} {m : H Ptr} {L : V → V → Prop}

theorem gives_le {r : Ptr} {f : Bool} : Asrt.le (gives R x r f) (givesL R Eq x r f) := by
  cases r with
  | none => exact Asrt.le_refl _
  | some a =>
    rintro z ⟨v, hz⟩
    obtain ⟨h1, h2⟩ := Asrt.pure_star.1 hz
    exact ⟨v, v, Asrt.pure_star.2 ⟨⟨h1, rfl, fun _ => rfl⟩, h2⟩⟩

theorem givesL_le {r : Ptr} {f : Bool} : Asrt.le (givesL R L x r f) (givesA R L x r f) := by
  cases r with
  | none =>
    rintro z ⟨h1, rfl⟩
    refine Asrt.pure_star.2 ⟨h1, spill_of_emp _ rfl⟩
  | some a =>
    rintro z ⟨v, v', hz⟩
    refine ⟨v, v', Asrt.le_star (Asrt.le_refl _) (Asrt.le_star (Asrt.le_refl (R a v')) (spill_of_emp (f := f))) z ?_⟩
    rw [Asrt.star_emp]
    exact hz

theorem givesN_le {r : Ptr} {f : Bool} : Asrt.le (givesN R x r f) (givesA R Eq x r f) := by
  cases r with
  | none => exact Asrt.le_refl _
  | some a =>
    rintro z ⟨v, hz⟩
    obtain ⟨h1, h2⟩ := Asrt.pure_star.1 hz
    refine ⟨v, v, Asrt.pure_star.2 ⟨⟨h1, rfl, fun _ => rfl⟩, ?_⟩⟩
    refine Asrt.le_star (Asrt.le_refl (R a v)) (spill_of_emp (f := f)) z ?_
    rwa [Asrt.star_emp]

theorem ViewSpec.mono {Post Post' : Ptr → Bool → Asrt} (hk : ViewSpec c args Post m) (h : ∀ r f, Asrt.le (Post r f) (Post' r f)) :
    ViewSpec c args Post' m := fun f h' hr =>
  Triple.conseq (hk f h' hr) (fun _ h => h) fun r f' z _ hz => Asrt.le_star (Asrt.le_refl _) (h r f') z hz

theorem ComputesUpTo.of (hk : ViewSpec c args (givesA R L x) m) : ComputesUpTo L args R x m := by
  intro A s hf hx
  have := hk.run (A := A) hx
  revert this
  cases m A s with
  | ub => exact id
  | crash s' => exact fun h => h.2.1
  | ret r s' =>
    rintro ⟨hq, -, -⟩
    refine ⟨keep_sub hq, ?_⟩
    cases r with
    | none =>
      unfold givesA at hq
      rw [Asrt.star_assoc] at hq
      obtain ⟨h1, h2⟩ := Asrt.pure_star.1 hq
      refine ⟨h1, fun h => ?_⟩
      rw [h] at h2
      exact emp_keep h2
    | some b =>
      unfold givesA at hq
      rw [Asrt.ex_star] at hq
      obtain ⟨v, hq⟩ := hq
      rw [Asrt.ex_star] at hq
      obtain ⟨v', hq⟩ := hq
      rw [Asrt.star_assoc] at hq
      obtain ⟨⟨h1, h2, h3⟩, hq⟩ := Asrt.pure_star.1 hq
      refine ⟨v, h1, ⟨v', h2, ?_⟩, fun h => ?_⟩
      · rw [Asrt.star_assoc] at hq
        exact Asrt.le_star (Asrt.le_refl _) (Asrt.le_any _) _ hq
      · rw [h] at hq h3
        rw [h3 rfl] at hq
        unfold spill at hq
        rwa [Asrt.star_emp] at hq

theorem Computes.of (hk : ViewSpec c args (gives R x) m) : Computes args R x m :=
  ComputesUpTo.of ((hk.mono fun _ _ => gives_le).mono fun _ _ => givesL_le)

theorem Computes.ofN (hk : ViewSpec c args (givesN R x) m) : Computes args R x m := ComputesUpTo.of (hk.mono fun _ _ => givesN_le)

theorem Tidy.ofL (hk : ViewSpec c args (givesL R L x) m) : Tidy args R m := by
  intro A s hf hx
  have := hk.run (A := A) hx
  revert this
  cases m A s with
  | ub => exact fun _ => trivial
  | crash s' => exact fun _ => trivial
  | ret r s' =>
    rintro ⟨hq, -, -⟩
    cases r with
    | none =>
      unfold givesL at hq
      exact (Asrt.pure_star.1 hq).2
    | some b =>
      unfold givesL at hq
      rw [Asrt.ex_star] at hq
      obtain ⟨v, hq⟩ := hq
      rw [Asrt.ex_star] at hq
      obtain ⟨v', hq⟩ := hq
      rw [Asrt.star_assoc] at hq
      exact ⟨v', (Asrt.pure_star.1 hq).2⟩

theorem Tidy.of (hk : ViewSpec c args (gives R x) m) : Tidy args R m := Tidy.ofL (hk.mono fun _ _ => gives_le)

theorem Sturdy.of {Post : Ptr → Bool → Asrt} (hk : ViewSpec c args Post m) (hc : ¬ c.crash) : Sturdy args m := by
  intro A s hf hx s' e
  have := hk.run (A := A) hx
  rw [e] at this
  exact hc this.1

theorem Discreet.of {Post : Ptr → Bool → Asrt} {pubs : List Bytes} (hk : ViewSpec c args Post m) (hp : ∀ b, c.pub b → b ∈ pubs)
    (hl : ¬ c.lax := by exact not_false) : Discreet args pubs m := by
  intro A s hf hx
  have := hk.run (A := A) hx
  revert this
  cases m A s with
  | ub => exact id
  | crash s' => exact fun h b hb => (h.2.2 b hb).imp_right fun h => (Rules.May.strict hl h).imp_right (hp b)
  | ret r s' => exact fun h b hb => (h.2.2 b hb).imp_right fun h => (Rules.May.strict hl h).imp_right (hp b)

theorem DiscreetWithMemory.of {Post : Ptr → Bool → Asrt} {pubs : List Bytes} (hk : ViewSpec c args Post m)
    (hp : ∀ b, c.pub b → b ∈ pubs) : DiscreetWithMemory args pubs m := by
  intro A s hf hx r s' e ho
  have := hk.run (A := A) hx
  rw [e] at this ⊢
  intro b hb
  rcases this.2.2 b hb with h | h | h | h
  · exact Or.inl h
  · exact Or.inr (Or.inl h)
  · exact Or.inr (Or.inr (hp b h))
  · rw [ho] at h
    exact nomatch h.1

end Wickr
