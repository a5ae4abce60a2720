import Verif.Lemmas.Refute
/-
Two objects in memory.
-/
namespace Wickr
open Asrt Spec

/-- Memory after two programs have run without failures. -/
def built2 (m n : H Ptr) : Option (Addr × Addr × St) :=
  match built m with
  | none => none
  | some (a, s) =>
    match n (bump []) s with
    | .ret (some b) s' => if s'.oom then none else some (a, b, s')
    | _ => none

section
variable {V W : Type} {R : Addr → V → Asrt} {R' : Addr → W → Asrt} {v : V} {w : W} {mk mk' : H Ptr}

theorem built2_has {a b : Addr} {s : St} (hm : Triple free4all false emp mk (fun r _ => made R v r))
    (hn : Triple free4all false emp mk' (fun r _ => made R' w r)) (hb : built2 mk mk' = some (a, b, s)) :
    s.oom = false ∧ ∃ h, Has R h a v ∧ (R' b w ∗ keep h) s.heap := by
  unfold built2 at hb
  cases e : built mk with
  | none => rw [e] at hb; exact nomatch hb
  | some p =>
    obtain ⟨a', s1⟩ := p
    rw [e] at hb
    obtain ⟨h1, h2⟩ := built_has hm e
    have := hn (bump []) s1 (keep s1.heap) h1 (by rw [Asrt.emp_star]; rfl)
    revert this
    dsimp only at hb
    cases hr : mk' (bump []) s1 with
    | ub => rw [hr] at hb; exact nomatch hb
    | crash s' => rw [hr] at hb; exact nomatch hb
    | ret r s' =>
      rw [hr] at hb
      rintro ⟨hq, -, -⟩
      cases r with
      | none => exact nomatch hb
      | some c =>
        dsimp only at hb
        split at hb
        · exact nomatch hb
        · rename_i ho
          cases hb
          exact ⟨by simpa using ho, s1.heap, h2, hq⟩

theorem exists_beside (hm : Triple free4all false emp mk (fun r _ => made R v r))
    (hn : Triple free4all false emp mk' (fun r _ => made R' w r)) (hb : (built2 mk mk').isSome = true) :
    ∃ (s : St) (h : Heap) (a b : Addr), s.oom = false ∧ Has R h a v ∧ (R' b w ∗ keep h) s.heap := by
  obtain ⟨⟨a, b, s⟩, he⟩ := Option.isSome_iff_exists.1 hb
  obtain ⟨h1, h, h2, h3⟩ := built2_has hm hn he
  exact ⟨s, h, a, b, h1, h2, h3⟩

/-- A run from memory built by `mk` and `mk'` in which the allocations numbered in `fail` fail. -/
theorem run2_of {α : Type} {m : Addr → Addr → H α} (P : St → Out α → Bool) (fail : List Nat)
    (hm : Triple free4all false emp mk (fun r _ => made R v r)) (hn : Triple free4all false emp mk' (fun r _ => made R' w r))
    (hb : (match built2 mk mk' with
      | some (a, b, s) => P s (m a b (bump fail) s)
      | none => false) = true) :
    ∃ (s : St) (a b : Addr), s.oom = false ∧ Has R s.heap a v ∧ Has R' s.heap b w ∧ P s (m a b (bump fail) s) = true := by
  revert hb
  cases e : built2 mk mk' with
  | none => exact fun h => nomatch h
  | some p =>
    obtain ⟨a, b, s⟩ := p
    intro hb
    obtain ⟨h1, h, h2, h3⟩ := built2_has hm hn e
    refine ⟨s, a, b, h1, ?_, Asrt.le_star (Asrt.le_refl _) (Asrt.le_any _) _ h3, hb⟩
    obtain ⟨x, y, hd, e', hx, hy⟩ := h3
    cases hy
    refine Has.sub h2 fun z c hz => ?_
    rw [e']
    rcases hd z with h | h
    · simp [h, hz]
    · rw [hz] at h; exact nomatch h

theorem not_tidy2 {X : Type} {S : Addr → X → Asrt} {m : Addr → Addr → H Ptr} {args : Addr → Addr → Heap → Prop} (fail : List Nat)
    (x : Addr) (hm : Triple free4all false emp mk (fun r _ => made R v r)) (hn : Triple free4all false emp mk' (fun r _ => made R' w r))
    (ha : ∀ h a b, Has R h a v → Has R' h b w → args a b h)
    (hb : (match built2 mk mk' with
      | some (a, b, s) => (fun s o => Out.left x s o) s (m a b (bump fail) s)
      | none => false) = true) : ¬ ∀ a b, Tidy (args a b) S (m a b) := by
  intro h
  obtain ⟨s, a, b, h1, h2, h2', h3⟩ := run2_of (fun s o => Out.left x s o) fail hm hn hb
  have := h a b (bump fail) s h1 (ha _ _ _ h2 h2')
  revert this h3
  cases m a b (bump fail) s with
  | ub => exact fun h => nomatch h
  | crash s' => exact fun h => nomatch h
  | ret r s' =>
    cases r with
    | some b => exact fun h => nomatch h
    | none =>
      intro h h'
      dsimp only at h h'
      simp [Out.left, h'] at h
end

end Wickr
