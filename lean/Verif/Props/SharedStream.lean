import Verif.Model.HeapStream
import Verif.Props.Stream
import Verif.Lemmas.Witness
/-
C53 and C79 in memory: a stream context with several owners.
-/
set_option linter.unusedVariables false
namespace Wickr
open Asrt Spec

/-- Calls one after the other on one context: the number of `ref_up` calls that returned true, and the pointer. -/
def hRefRun : List RefOp → Nat → Ptr → H (Nat × Ptr)
  | [], n, p => pure (n, p)
  | .up :: ops, n, p => do
    let b ← hSCtxRefUp p
    hRefRun ops (if b then n + 1 else n) p
  | .destroy :: ops, n, p => do
    let p ← hSCtxDestroy p
    hRefRun ops n p

theorem hSCtxRefUp_spec (c : Rules) (f : Bool) (a : Addr) (v : StreamCtx) :
    Triple c f (isSCtx a v) (hSCtxRefUp (some a))
      (fun r _ => ⌜r = (streamRefUp v).2⌝ ∗ isSCtx a (streamRefUp v).1) := by
  unfold hSCtxRefUp streamRefUp
  obtain ⟨k, i, s, d, n⟩ := v
  sopen isSCtx
  sgo
  all_goals simp_all
  all_goals sgo

theorem hSCtxDestroy_all (c : Rules) (hc : ∀ b, c.pub b) (f : Bool) (a : Addr) (v : StreamCtx) :
    Triple c f (isSCtx a v) (hSCtxDestroy (some a))
      (fun r _ => match streamDestroy v with
        | none => ⌜r = none⌝ ∗ emp
        | some v' => ⌜r = some a⌝ ∗ isSCtx a v') := by
  by_cases hr : v.ref = 0 ∨ v.ref = 1
  · have e : streamDestroy v = none := by
      unfold streamDestroy
      rcases hr with h | h <;> simp [h]
    rw [e]
    refine Triple.conseq (hSCtxDestroy_spec hr (fun b _ => hc b) f) (fun _ h => h) ?_
    intro r _ h _ hq
    rw [star_emp]; exact hq
  · have h0 : v.ref ≠ 0 := fun h => hr (.inl h)
    have h1 : v.ref - 1 ≠ 0 := by
      intro h
      refine hr (.inr ?_)
      rw [← UInt64.sub_add_cancel v.ref 1, h]; rfl
    have e : streamDestroy v = some { v with ref := v.ref - 1 } := by
      unfold streamDestroy
      simp [h0, h1]
    have hlt : 1 < v.ref := by
      rw [UInt64.lt_iff_toNat_lt]
      have h0' : v.ref.toNat ≠ 0 := fun h => h0 (UInt64.toNat_inj.1 h)
      have h1' : v.ref.toNat ≠ 1 := fun h => hr (.inr (UInt64.toNat_inj.1 h))
      show 1 < v.ref.toNat
      omega
    rw [e]
    exact hSCtxDestroy_ref c f a v hlt

theorem bind_run {α β : Type} {m : H α} {k : α → H β} {A : Alloc} {s s' : St} {x : α} (h : m A s = .ret x s') :
    (m >>= k) A s = k x A s' := by
  show (match m A s with | .ret a s => k a A s | .crash s => .crash s | .ub => .ub) = _
  rw [h]

/-- C53, C79: in memory, for every sequence of `ref_up` and `destroy` calls that does not touch the context after its
release: as long as an owner is left nothing is released and the context is there, unchanged but for the counter; when the
last owner gives it up every block of it is released and nothing else. -/
theorem C53_in_memory (A : Alloc) (rest : Heap) (a : Addr) (ops : List RefOp) : ∀ (s : St) (v : StreamCtx)
    (n n' : Nat) (st : Option StreamCtx), (isSCtx a v ∗ keep rest) s.heap → refRun (n, some v) ops = .ok (n', st) →
    ∃ s', hRefRun ops n (some a) A s = .ret (n', st.map fun _ => a) s' ∧
      match st with
      | none => s'.heap = rest
      | some v' => (isSCtx a v' ∗ keep rest) s'.heap := by
  induction ops with
  | nil =>
    intro s v n n' st hx h
    simp only [refRun, Res.ok.injEq, Prod.mk.injEq] at h
    obtain ⟨rfl, rfl⟩ := h
    exact ⟨s, rfl, hx⟩
  | cons op ops ih =>
    intro s v n n' st hx h
    cases op with
    | up =>
      have := hSCtxRefUp_spec ⟨fun _ => True, False, False⟩ s.oom a v A s (keep rest) rfl hx
      revert this
      simp only [refRun] at h
      cases hm : hSCtxRefUp (some a) A s with
      | ub => exact fun h => h.elim
      | crash s' => exact fun h => h.1.elim
      | ret r s' =>
        rintro ⟨hq, -, -⟩
        rw [Asrt.star_assoc] at hq
        obtain ⟨hn, hr⟩ := Asrt.pure_star.1 hq
        subst hn
        obtain ⟨s'', e, g⟩ := ih s' _ _ _ _ hr h
        refine ⟨s'', ?_, g⟩
        rw [← e]
        exact bind_run hm
    | destroy =>
      have := hSCtxDestroy_all ⟨fun _ => True, False, False⟩ (fun _ => trivial) s.oom a v A s (keep rest) rfl hx
      revert this
      simp only [refRun] at h
      cases hm : hSCtxDestroy (some a) A s with
      | ub => exact fun h => h.elim
      | crash s' => exact fun h => h.1.elim
      | ret r s' =>
        rintro ⟨hq, -, -⟩
        cases hd : streamDestroy v with
        | none =>
          rw [hd] at hq h
          rw [Asrt.star_assoc] at hq
          obtain ⟨hn, hr⟩ := Asrt.pure_star.1 hq
          subst hn
          cases ops with
          | nil =>
            simp only [refRun, Res.ok.injEq, Prod.mk.injEq] at h
            obtain ⟨rfl, rfl⟩ := h
            refine ⟨s', bind_run hm, ?_⟩
            rwa [emp_star] at hr
          | cons op ops => simp [refRun] at h
        | some v' =>
          rw [hd] at hq h
          rw [Asrt.star_assoc] at hq
          obtain ⟨hn, hr⟩ := Asrt.pure_star.1 hq
          subst hn
          obtain ⟨s'', e, g⟩ := ih s' _ _ _ _ hr h
          refine ⟨s'', ?_, g⟩
          rw [← e]
          exact bind_run hm

example : ∃ (s : St) (a : Addr), s.oom = false ∧ Has isSCtx s.heap a exSCtx :=
  exists_has (mkSCtx_spec _ _ trivial) (by decide +kernel)
example : refRun (0, some exSCtx) [.up, .up, .destroy, .destroy] = .ok (2, some exSCtx) ∧
    refRun (0, some exSCtx) [.up, .destroy, .destroy] = .ok (1, none) := by decide +kernel

end Wickr
