import Verif.Props.TransportErr
import Verif.Props.TransportE2E
/-
C34: what one buffer that the peer has not sent does to a channel.
-/
namespace Wickr
open Spec

/-- Nothing happens any more, whatever is called. -/
def Spec.Dead (E : Engine) (c : TCtx) : Prop :=
  c.status = .error ∧ ∀ post, ∃ c', tRun E c post = .ok (c', []) ∧ c'.status = .error

/-- C34, no tolerance.  Every buffer that arrives at an ACTIVE context is either delivered or ends the channel for ever: the context reports ERROR, and no
later call sends, delivers, asks or reports anything. -/
theorem C34_delivered_or_dead (E : Engine) (self : Chain) (R : Option Chain) (evo : UInt32) (c0 c : TCtx) (pre : List TOp) (evs : List TEv)
    (h0 : tCreate self R evo = some c0) (h : tRun E c0 pre = .ok (c, evs)) (ha : c.status = .active) (b : Option Bytes) (e : TEnv) :
    ∃ c1 e1, tRecv E c b e = .ok (c1, e1) ∧ ((c1.status = .active ∧ ∃ d, e1 = [.rx d]) ∨ (e1 = [.state .error] ∧ Dead E c1)) := by
  obtain ⟨t, r, -, hr, -, -, -, -, -, hp⟩ := (C33_active_has_both_streams E self R evo c0 c pre evs h0 h).1 ha
  have dead : ∀ (c' : TCtx) (x : TErr), c'.status = .active → c'.pending = none →
      (tError c' x).2 = [.state .error] ∧ Dead E (tError c' x).1 := by
    intro c' x hs hpn
    have h1 : (tError c' x).1.status = .error ∧ (tError c' x).1.pending = none := by simp [tError, tUpdate, hs, hpn]
    refine ⟨by simp [tError, tUpdate, hs], h1.1, fun post => ?_⟩
    exact C31_error_final_partial E _ post h1.1 (.inl fun g hg => by rw [h1.2] at hg; cases hg)
  cases b with
  | none => exact ⟨_, _, rfl, .inr (dead c _ ha hp)⟩
  | some b =>
    have hne : ¬ c.status = .error := by rw [ha]; decide
    simp only [tRecv, if_neg hne]
    cases hk : pktFromBuffer b with
    | none => exact ⟨_, _, rfl, .inr (dead c _ ha hp)⟩
    | some p =>
      have hcan : tCanHandshake c = false := by simp [tCanHandshake, hp, ha]
      simp only [hcan, Bool.false_and, Bool.false_eq_true, if_false, hr]
      cases (tDecode E r p e.junk).2 with
      | none => exact ⟨_, _, rfl, .inr (dead _ _ ha hp)⟩
      | some d => exact ⟨_, _, rfl, .inl ⟨ha, d, rfl⟩⟩

/-- C34: so anybody who can hand one buffer to an ACTIVE context ends the channel, without knowing anything about it: whatever is not a packet does.
The same holds in every other state in which no identity decision is outstanding. -/
theorem C34_garbage_is_fatal (E : Engine) (c : TCtx) (hn : c.status ≠ .error) (hp : NoDecisionPending c) (b : Bytes) (hb : pktFromBuffer b = none)
    (e : TEnv) : ∃ c1, tRecv E c (some b) e = .ok (c1, [.state .error]) ∧ Dead E c1 := by
  refine ⟨(tError c .invalidRxData).1, ?_, ?_⟩
  · simp only [tRecv, if_neg hn, hb]
    simp [tError, tUpdate, hn]
  · have h1 : (tError c .invalidRxData).1.status = .error ∧ (tError c .invalidRxData).1.pending = c.pending := by
      simp [tError, tUpdate, hn]
    refine ⟨h1.1, fun post => C31_error_final_partial E _ post h1.1 (.inl ?_)⟩
    intro g hg
    rw [h1.2] at hg
    exact hp g hg

/-- The empty buffer is such a buffer, and so is every buffer of an unknown kind. -/
example : pktFromBuffer [] = none ∧ pktFromBuffer [0xF0, 1, 2, 3] = none := by decide +kernel

/-- Evaluated: a responder that has accepted the peer is ACTIVE; the empty buffer ends this, and a second one changes nothing. -/
example : (match tRun toyEngine toyResp [.recv (some toySeedWire) (toyEnv [true])] with
    | .ok (c, _) => decide (c.status = .active) && (match tRun toyEngine c [.recv (some []) (toyEnv []), .recv (some []) (toyEnv []), .send (some [1])] with
      | .ok (c', evs) => decide (c'.status = .error) && decide (evs = [.state .error])
      | _ => false)
    | _ => false) = true := by decide +kernel

end Wickr
