import Verif.Spec.Among
import Verif.Lemmas.Compute
/-
From triples to statements about runs, where allocations that fail may change the value of the result; steps of proofs.
-/
namespace Wickr
open Asrt Spec

variable {V : Type} {c : Rules} {args : Heap → Prop} {R : Addr → V → Asrt} {x : Option V} {m : H Ptr} {S : V → Prop}

theorem among_le {r : Ptr} {f : Bool} : Asrt.le (among R S x r f) (amongA R S x r f) := by
  cases r with
  | none =>
    rintro z ⟨h1, rfl⟩
    exact Asrt.pure_star.2 ⟨h1, spill_of_emp _ rfl⟩
  | some a =>
    rintro z ⟨v, hz⟩
    refine ⟨v, Asrt.le_star (Asrt.le_refl _) (Asrt.le_star (Asrt.le_refl (R a v)) (spill_of_emp (f := f))) z ?_⟩
    rw [Asrt.star_emp]
    exact hz

theorem gives_among (hS : ∀ v, x = some v → S v) {r : Ptr} {f : Bool} : Asrt.le (gives R x r f) (among R S x r f) := by
  cases r with
  | none => exact Asrt.le_refl _
  | some a =>
    rintro z ⟨v, hz⟩
    obtain ⟨h1, h2⟩ := Asrt.pure_star.1 hz
    exact ⟨v, Asrt.pure_star.2 ⟨⟨hS v h1, fun _ => h1⟩, h2⟩⟩

theorem ComputesAmong.of (hk : ViewSpec c args (amongA R S x) m) : ComputesAmong S args R x m := by
  intro A s hf hx
  have := hk.run (A := A) hx
  revert this
  cases m A s with
  | ub => exact id
  | crash s' => exact fun h => h.2.1
  | ret r s' =>
    rintro ⟨hq, -, -⟩
    refine ⟨keep_sub hq, ?_⟩
    cases r with
    | none =>
      unfold amongA at hq
      rw [Asrt.star_assoc] at hq
      obtain ⟨h1, h2⟩ := Asrt.pure_star.1 hq
      refine ⟨h1, fun h => ?_⟩
      rw [h] at h2
      exact emp_keep h2
    | some b =>
      unfold amongA at hq
      rw [Asrt.ex_star] at hq
      obtain ⟨v, hq⟩ := hq
      rw [Asrt.star_assoc] at hq
      obtain ⟨⟨h1, h2⟩, hq⟩ := Asrt.pure_star.1 hq
      refine ⟨v, h1, ?_, fun h => ⟨h2 h, ?_⟩⟩
      · rw [Asrt.star_assoc] at hq
        exact Asrt.le_star (Asrt.le_refl _) (Asrt.le_any _) _ hq
      · rw [h] at hq
        unfold spill at hq
        rwa [Asrt.star_emp] at hq

theorem Tidy.ofAm (hk : ViewSpec c args (among R S x) m) : Tidy args R m := by
  intro A s hf hx
  have := hk.run (A := A) hx
  revert this
  cases m A s with
  | ub => exact fun _ => trivial
  | crash s' => exact fun _ => trivial
  | ret r s' =>
    rintro ⟨hq, -, -⟩
    cases r with
    | none =>
      unfold among at hq
      exact (Asrt.pure_star.1 hq).2
    | some b =>
      unfold among at hq
      rw [Asrt.ex_star] at hq
      obtain ⟨v, hq⟩ := hq
      rw [Asrt.star_assoc] at hq
      exact ⟨v, (Asrt.pure_star.1 hq).2⟩

/-! ### Steps -/

theorem oom_back {f g : Bool} (h : f = true → g = true) (hg : g = false) : f = false := by
  cases f with
  | false => rfl
  | true => rw [h rfl] at hg; exact nomatch hg

theorem Asrt.spill_mono {f g : Bool} (h : f = true → g = true) : Asrt.le (spill f) (spill g) := by
  cases f with
  | true => rw [h rfl]; exact Asrt.le_refl _
  | false => exact Asrt.emp_le_spill g

variable {β : Type _} {f : Bool} {A P P' F : Asrt}

theorem Triple.onNullAm {bad : H β} {k : Ptr → H β} {Q : β → Bool → Asrt}
    (hm : Triple c f P m (fun r f' => P' ∗ among R S x r f')) (hA : A = P ∗ F)
    (hbad : ∀ f', (f = true → f' = true) → (f' = true ∨ x = none) → Triple c f' (P' ∗ F) bad Q)
    (hk : ∀ q f' v, (f = true → f' = true) → S v → (f' = false → x = some v) → Triple c f' (P' ∗ R q v ∗ F) (k (some q)) Q) :
    Triple c f A (Wickr.onNull m bad k) Q := by
  unfold Wickr.onNull
  refine Triple.seq hm hA fun r f' h => ?_
  rw [Asrt.star_assoc]
  cases r with
  | none => exact Triple.pureAt (by rw [Asrt.star_comm P', Asrt.star_assoc, Asrt.star_comm F]; rfl) fun h' => hbad f' h h'
  | some q =>
    dsimp only [among]
    sintro
    rename_i v h'
    refine Triple.conseq (hk q f' v h h'.1 h'.2) (by sentail) (fun _ _ _ _ h => h)

theorem Triple.onNullAmA {bad : H β} {k : Ptr → H β} {Q : β → Bool → Asrt}
    (hm : Triple c f P m (fun r f' => P' ∗ amongA R S x r f')) (hA : A = P ∗ F)
    (hbad : ∀ f', (f = true → f' = true) → (f' = true ∨ x = none) → Triple c f' (P' ∗ F ∗ spill f') bad Q)
    (hk : ∀ q f' v, (f = true → f' = true) → S v → (f' = false → x = some v) →
      Triple c f' (P' ∗ R q v ∗ F ∗ spill f') (k (some q)) Q) :
    Triple c f A (Wickr.onNull m bad k) Q := by
  unfold Wickr.onNull
  refine Triple.seq hm hA fun r f' h => ?_
  rw [Asrt.star_assoc]
  cases r with
  | none =>
    dsimp only [amongA]
    sintro
    rename_i h'
    exact Triple.conseq (hbad f' h h') (by sentail) (fun _ _ _ _ h => h)
  | some q =>
    dsimp only [amongA]
    sintro
    rename_i v h'
    exact Triple.conseq (hk q f' v h h'.1 h'.2) (by sentail) (fun _ _ _ _ h => h)

theorem Triple.noneAm (hA : ∀ y, A y → P y) (h : f = true ∨ x = none) :
    Triple c f A (Pure.pure none) (fun r f' => P ∗ among R S x r f') := by
  refine Triple.ret fun y hy => ?_
  rw [Asrt.star_comm]
  exact Asrt.pure_star.2 ⟨h, hA y hy⟩

theorem Triple.someAm {q : Addr} {v : V} (hS : S v) (h : f = false → x = some v) (hA : ∀ y, A y → (P ∗ R q v) y) :
    Triple c f A (Pure.pure (some q)) (fun r f' => P ∗ among R S x r f') := by
  refine Triple.ret fun y hy => ?_
  exact Asrt.star_mono_r (fun z hz => ⟨v, Asrt.pure_star.2 ⟨⟨hS, h⟩, hz⟩⟩) (hA y hy)

theorem Triple.noneAmA (hA : ∀ y, A y → (P ∗ F) y) (hF : Asrt.le F (spill f)) (h : f = true ∨ x = none) :
    Triple c f A (Pure.pure none) (fun r f' => P ∗ amongA R S x r f') := by
  refine Triple.ret fun y hy => ?_
  exact Asrt.star_mono_r (fun z hz => Asrt.pure_star.2 ⟨h, hF z hz⟩) (hA y hy)

theorem Triple.someAmA {q : Addr} {v : V} (hS : S v) (h : f = false → x = some v) (hA : ∀ y, A y → (P ∗ R q v ∗ F) y)
    (hF : Asrt.le F (spill f)) : Triple c f A (Pure.pure (some q)) (fun r f' => P ∗ amongA R S x r f') := by
  refine Triple.ret fun y hy => ?_
  refine Asrt.star_mono_r (fun z hz => ⟨v, Asrt.pure_star.2 ⟨⟨hS, h⟩, ?_⟩⟩) (hA y hy)
  exact Asrt.le_star (Asrt.le_refl _) hF z hz

end Wickr
