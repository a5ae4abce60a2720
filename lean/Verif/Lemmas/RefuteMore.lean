import Verif.Lemmas.WitnessPair
/-
Refuting statements about runs by a run: results that differ, and runs from two objects.
-/
namespace Wickr
open Asrt Spec

section
variable {V W X : Type} {R : Addr → V → Asrt} {R' : Addr → W → Asrt} {S : Addr → X → Asrt} {v : V} {w : W} {y : X} {mk mk' : H Ptr}

theorem lacks_not {probe : Ptr → H Bool} {b : Addr} {s : St} (hp : ∀ b, Reads (S b y) (probe (some b)) false) (h : Has S s.heap b y) :
    ¬ Out.lacks probe (bump []) (.ret (some b) s) = true := by
  have := hp b free4all s.oom (bump []) s Asrt.any rfl h
  revert this
  unfold Out.lacks
  dsimp only
  cases probe (some b) (bump []) s with
  | ub => exact fun _ h => nomatch h
  | crash _ => exact fun _ h => nomatch h
  | ret x s'' =>
    cases x with
    | false => exact fun _ h => nomatch h
    | true =>
      rintro ⟨hq, -, -⟩ -
      rw [Asrt.star_assoc] at hq
      exact absurd (Asrt.pure_star.1 hq).1.1 (by simp)

/-- There is a result that `probe` tells from the value. -/
theorem not_exact {m : Ptr → H Ptr} {probe : Ptr → H Bool} {args : Addr → Heap → Prop} (fail : List Nat)
    (hm : Triple free4all false emp mk (fun r _ => made R v r)) (ha : ∀ h a, Has R h a v → args a h)
    (hp : ∀ b, Reads (S b y) (probe (some b)) false)
    (hb : (match built mk with
      | some (a, s) => (fun _ o => Out.lacks probe (bump []) o) s (m (some a) (bump fail) s)
      | none => false) = true) : ¬ ∀ a, Computes (args a) S (some y) (m (some a)) := by
  intro h
  obtain ⟨s, a, h1, h2, h3⟩ := run_of (fun _ o => Out.lacks probe (bump []) o) fail hm ha hb
  have := h a (bump fail) s h1 h2
  revert this h3
  cases m (some a) (bump fail) s with
  | ub => exact fun h => nomatch h
  | crash s' => exact fun h => nomatch h
  | ret r s' =>
    cases r with
    | none => exact fun h => nomatch h
    | some b =>
      rintro h3 ⟨-, v, hv, ⟨v', rfl, hh⟩, -⟩
      cases hv
      exact lacks_not hp hh h3

theorem not_sturdy2 {m : Addr → Addr → H Ptr} {args : Addr → Addr → Heap → Prop} (fail : List Nat)
    (hm : Triple free4all false emp mk (fun r _ => made R v r)) (hn : Triple free4all false emp mk' (fun r _ => made R' w r))
    (ha : ∀ h a b, Has R h a v → Has R' h b w → args a b h)
    (hb : (match built2 mk mk' with
      | some (a, b, s) => (fun _ o => o.isCrash) s (m a b (bump fail) s)
      | none => false) = true) : ¬ ∀ a b, Sturdy (args a b) (m a b) := by
  intro h
  obtain ⟨s, a, b, h1, h2, h2', h3⟩ := run2_of (fun _ o => o.isCrash) fail hm hn hb
  have := h a b (bump fail) s h1 (ha _ _ _ h2 h2')
  revert this h3
  cases m a b (bump fail) s with
  | ub => exact fun h => nomatch h
  | crash s' => exact fun _ h => h s' rfl
  | ret r s' => exact fun h => nomatch h

theorem not_discreetWithMemory2 {m : Addr → Addr → H Ptr} {args : Addr → Addr → Heap → Prop} {pubs : List Bytes}
    (hm : Triple free4all false emp mk (fun r _ => made R v r)) (hn : Triple free4all false emp mk' (fun r _ => made R' w r))
    (ha : ∀ h a b, Has R h a v → Has R' h b w → args a b h)
    (hb : (match built2 mk mk' with
      | some (a, b, s) => (fun s o => Out.spilledRich pubs s o) s (m a b (bump []) s)
      | none => false) = true) : ¬ ∀ a b, DiscreetWithMemory (args a b) pubs (m a b) := by
  intro h
  obtain ⟨s, a, b, h1, h2, h2', h3⟩ := run2_of (fun s o => Out.spilledRich pubs s o) [] hm hn hb
  have := h a b (bump []) s h1 (ha _ _ _ h2 h2')
  revert this h3
  cases m a b (bump []) s with
  | ub => exact fun h => nomatch h
  | crash s' => exact fun h => nomatch h
  | ret r s' =>
    intro h h'
    simp only [Out.spilledRich, Bool.and_eq_true, Bool.not_eq_true'] at h
    have hall := h' r s' rfl h.1
    obtain ⟨b, hb, hx⟩ := List.any_eq_true.1 (h.2 : (s'.log.any _) = true)
    rcases hall b hb with h | h | h
    · simp [h] at hx
    · unfold Wiped at h
      simp at hx
      obtain ⟨⟨-, x, hm, hn⟩, -⟩ := hx
      exact hn (h x hm)
    · simp [h] at hx
end

end Wickr
