import Verif.Spec.Owned
import Verif.Lemmas.View
import Verif.Lemmas.SepNode
/-
From triples to statements about runs of functions that change objects.
-/
namespace Wickr
open Asrt Spec

theorem Transforms.of {α V : Type} {c : Rules} {args : Heap → Prop} {P : Asrt} {Q : α → Bool → V → Prop} {R : α → Bool → V → Asrt}
    {m : H α} (hm : ∀ h, args h → Triple c false (keep h ∗ P) m (fun r f' => keep h ∗ Asrt.ex fun v => ⌜Q r f' v⌝ ∗ R r f' v)) :
    Transforms args P Q R m := by
  intro A s h ho ha hs
  have hs' : ((keep h ∗ P) ∗ emp) s.heap := by rw [Asrt.star_emp, Asrt.star_comm]; exact hs
  have := hm h ha A s emp ho hs'
  revert this
  cases m A s with
  | ub => exact id
  | crash s' => exact fun h => h.2.1
  | ret r s' =>
    rintro ⟨hq, -, -⟩
    rw [Asrt.star_emp, Asrt.star_comm, Asrt.ex_star] at hq
    obtain ⟨v, hq⟩ := hq
    rw [Asrt.star_assoc] at hq
    obtain ⟨h1, h2⟩ := Asrt.pure_star.1 hq
    exact ⟨v, h1, h2⟩

theorem Transforms.of0 {α V : Type} {c : Rules} {P : Asrt} {Q : α → Bool → V → Prop} {R : α → Bool → V → Asrt}
    {m : H α} (hm : Triple c false P m (fun r f' => Asrt.ex fun v => ⌜Q r f' v⌝ ∗ R r f' v)) :
    Transforms (fun _ => True) P Q R m :=
  Transforms.of (c := c) fun h _ => Triple.conseq (hm.frame (keep h)) (fun x hx => by rw [Asrt.star_comm]; exact hx)
    fun r f' x _ hx => by rw [Asrt.star_comm]; exact hx

theorem Transforms.mono {α V : Type} {args : Heap → Prop} {P : Asrt} {Q Q' : α → Bool → V → Prop} {R : α → Bool → V → Asrt}
    {m : H α} (hm : Transforms args P Q R m) (hq : ∀ r f v, Q r f v → Q' r f v) : Transforms args P Q' R m := by
  intro A s h ho ha hs
  have := hm A s h ho ha hs
  revert this
  cases m A s with
  | ub => exact id
  | crash s' => exact id
  | ret r s' => rintro ⟨v, h1, h2⟩; exact ⟨v, hq _ _ _ h1, h2⟩

end Wickr
