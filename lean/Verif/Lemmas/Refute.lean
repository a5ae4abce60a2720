import Verif.Lemmas.Witness
import Verif.Lemmas.ViewSpecs
/-
Refuting statements about runs by a run.
-/
namespace Wickr
open Asrt Spec

section
variable {V W : Type} {R : Addr → V → Asrt} {v : V} {mk : H Ptr} {args : Addr → Heap → Prop}

/-- A run from memory built by `mk` in which the allocations numbered in `fail` fail. -/
theorem run_of {α : Type} {m : Ptr → H α} (P : St → Out α → Bool) (fail : List Nat)
    (hm : Triple free4all false emp mk (fun r _ => made R v r)) (ha : ∀ h a, Has R h a v → args a h)
    (hb : (match built mk with
      | some (a, s) => P s (m (some a) (bump fail) s)
      | none => false) = true) :
    ∃ (s : St) (a : Addr), s.oom = false ∧ args a s.heap ∧ P s (m (some a) (bump fail) s) = true := by
  revert hb
  cases e : built mk with
  | none => exact fun h => nomatch h
  | some p =>
    intro hb
    obtain ⟨h1, h2⟩ := built_has hm (e : built mk = some (p.1, p.2))
    exact ⟨p.2, p.1, h1, ha _ _ h2, hb⟩

theorem not_sturdy {α : Type} {m : Ptr → H α} (fail : List Nat) (hm : Triple free4all false emp mk (fun r _ => made R v r))
    (ha : ∀ h a, Has R h a v → args a h)
    (hb : (match built mk with
      | some (a, s) => (fun _ o => o.isCrash) s (m (some a) (bump fail) s)
      | none => false) = true) : ¬ ∀ a, Sturdy (args a) (m (some a)) := by
  intro h
  obtain ⟨s, a, h1, h2, h3⟩ := run_of (fun _ o => o.isCrash) fail hm ha hb
  have := h a (bump fail) s h1 h2
  revert this h3
  cases m (some a) (bump fail) s with
  | ub => exact fun h => nomatch h
  | ret r s' => exact fun h => nomatch h
  | crash s' => exact fun _ h => h s' rfl

theorem not_tidy {m : Ptr → H Ptr} {R' : Addr → W → Asrt} (fail : List Nat) (x : Addr)
    (hm : Triple free4all false emp mk (fun r _ => made R v r)) (ha : ∀ h a, Has R h a v → args a h)
    (hb : (match built mk with
      | some (a, s) => (fun s o => Out.left x s o) s (m (some a) (bump fail) s)
      | none => false) = true) : ¬ ∀ a, Tidy (args a) R' (m (some a)) := by
  intro h
  obtain ⟨s, a, h1, h2, h3⟩ := run_of (fun s o => Out.left x s o) fail hm ha hb
  have := h a (bump fail) s h1 h2
  revert this h3
  cases m (some a) (bump fail) s with
  | ub => exact fun h => nomatch h
  | crash s' => exact fun h => nomatch h
  | ret r s' =>
    cases r with
    | some b => exact fun h => nomatch h
    | none =>
      intro h h'
      dsimp only at h h'
      simp [Out.left, h'] at h

theorem not_discreet {m : Ptr → H Ptr} {pubs : List Bytes} (fail : List Nat)
    (hm : Triple free4all false emp mk (fun r _ => made R v r)) (ha : ∀ h a, Has R h a v → args a h)
    (hb : (match built mk with
      | some (a, s) => (fun s o => Out.spilled pubs s o) s (m (some a) (bump fail) s)
      | none => false) = true) : ¬ ∀ a, Discreet (args a) pubs (m (some a)) := by
  intro h
  obtain ⟨s, a, h1, h2, h3⟩ := run_of (fun s o => Out.spilled pubs s o) fail hm ha hb
  have := h a (bump fail) s h1 h2
  have key : ∀ s' : St, (s'.log.any fun b => !(decide (b ∈ s.log)) && !(b.all (· == 0)) && !(decide (b ∈ pubs))) = true →
      (∀ b ∈ s'.log, b ∈ s.log ∨ Wiped b ∨ b ∈ pubs) → False := by
    intro s' ha hall
    obtain ⟨b, hb, hx⟩ := List.any_eq_true.1 ha
    rcases hall b hb with h | h | h
    · simp [h] at hx
    · unfold Wiped at h
      simp at hx
      obtain ⟨⟨-, x, hm, hn⟩, -⟩ := hx
      exact hn (h x hm)
    · simp [h] at hx
  revert this h3
  cases m (some a) (bump fail) s with
  | ub => exact fun h => nomatch h
  | crash s' => exact fun h h' => key s' h h'
  | ret r s' => exact fun h h' => key s' h h'
/-- Nothing new may be left in memory when there is no result and every allocation succeeded, nor may NULL be dereferenced. -/
def Out.bad (x : Addr) (s : St) : Out Ptr → Bool
  | .ret none s' => decide (s'.heap x ≠ s.heap x) && !s'.oom
  | .crash s' => !s'.oom
  | _ => false

theorem not_computes {m : Ptr → H Ptr} {R' : Addr → W → Asrt} {y : Option W} (x : Addr)
    (hm : Triple free4all false emp mk (fun r _ => made R v r)) (ha : ∀ h a, Has R h a v → args a h)
    (hb : (match built mk with
      | some (a, s) => (fun s o => Out.bad x s o) s (m (some a) (bump []) s)
      | none => false) = true) : ¬ ∀ a, Computes (args a) R' y (m (some a)) := by
  intro h
  obtain ⟨s, a, h1, h2, h3⟩ := run_of (fun s o => Out.bad x s o) [] hm ha hb
  have := h a (bump []) s h1 h2
  revert this h3
  cases m (some a) (bump []) s with
  | ub => exact fun h => nomatch h
  | crash s' => intro h h'; simp [Out.bad] at h; simp [h] at h'
  | ret r s' =>
    cases r with
    | some b => exact fun h => nomatch h
    | none =>
      intro h h'
      simp [Out.bad] at h
      exact h.1 (congrFun (h'.2.2 h.2) x)

/-- A block with a secret is released although every allocation succeeded. -/
def Out.spilledRich (pubs : List Bytes) (s : St) : Out Ptr → Bool
  | .ret r s' => !s'.oom && Out.spilled pubs s (.ret r s')
  | _ => false

theorem not_discreetWithMemory {m : Ptr → H Ptr} {pubs : List Bytes}
    (hm : Triple free4all false emp mk (fun r _ => made R v r)) (ha : ∀ h a, Has R h a v → args a h)
    (hb : (match built mk with
      | some (a, s) => (fun s o => Out.spilledRich pubs s o) s (m (some a) (bump []) s)
      | none => false) = true) : ¬ ∀ a, DiscreetWithMemory (args a) pubs (m (some a)) := by
  intro h
  obtain ⟨s, a, h1, h2, h3⟩ := run_of (fun s o => Out.spilledRich pubs s o) [] hm ha hb
  have := h a (bump []) s h1 h2
  revert this h3
  cases m (some a) (bump []) s with
  | ub => exact fun h => nomatch h
  | crash s' => exact fun h => nomatch h
  | ret r s' =>
    intro h h'
    simp only [Out.spilledRich, Bool.and_eq_true, Bool.not_eq_true'] at h
    have hall := h' r s' rfl h.1
    obtain ⟨b, hb, hx⟩ := List.any_eq_true.1 (h.2 : (s'.log.any _) = true)
    rcases hall b hb with h | h | h
    · simp [h] at hx
    · unfold Wiped at h
      simp at hx
      obtain ⟨⟨-, x, hm, hn⟩, -⟩ := hx
      exact hn (h x hm)
    · simp [h] at hx
end

end Wickr
