import Verif.Spec.TransportMem
import Verif.Spec.HandshakeCalls
/-
What single calls to a transport context in memory do, with any allocator.
-/
namespace Wickr.Spec

/-- Nothing but the send stream, status and error have changed, and a send stream is there if there was one. -/
def OnlySent (c w : TCtx) : Prop :=
  w.rx = c.rx ∧ w.self = c.self ∧ w.remote = c.remote ∧ w.evo = c.evo ∧ w.pending = c.pending ∧
    (c.tx = none → w.tx = none) ∧ ∀ s, c.tx = some s → ∃ s', w.tx = some s' ∧ s'.ref = s.ref

/-- What `wickr_transport_ctx_process_tx_buffer` does. -/
def TSendOutcome (E : Engine) (c : TCtx) (b : Option Bytes) (f : Bool) (w : TCtx) (es : List TEv) : Prop :=
  (f = false → tSend E c b = .ok (w, es)) ∧ OnlySent c w ∧ (w.status = c.status ∨ w.status = .error) ∧
    (∀ e ∈ es, e = .state .error ∨ c.status = .active ∧ ∃ d, e = .tx d) ∧
    ∀ d, TEv.tx d ∈ es → ∃ s m, c.tx = some s ∧ b = some m ∧ ((tEncode E s m).2.bind pktSerialize) = some d ∧ w.tx = some (tEncode E s m).1

/-- What may be missing from a copy of a context: what may be missing from copies of the identities.  The identity the peer is held to is
there; error and handshake are not copied. -/
def TCtxLoss (c w : TCtx) : Prop :=
  w.rx = c.rx.map (fun s => { s with ref := 1 }) ∧ w.tx = c.tx.map (fun s => { s with ref := 1 }) ∧ chainLoss c.self w.self ∧
    (∃ r r', c.remote = some r ∧ w.remote = some r' ∧ chainLoss r r') ∧ w.status = c.status ∧ w.evo = c.evo ∧ w.pending = none ∧ w.err = .noError

/-- The streams of the context belong to it alone. -/
def SoleRefs (c : TCtx) : Prop := (∀ s, c.rx = some s → s.ref = 1) ∧ ∀ s, c.tx = some s → s.ref = 1

/-! ### What calls leave behind although there is memory -/

/-- The keys a handshake ends with cannot be used for a stream, or there are none. -/
def KeysRefused (E : Engine) (h : Handshake) (seed : Bytes) : Prop :=
  ∀ w ks, hsFinalize E h = (w, some ks) → (streamKeyCopy ks.localKey).bind (streamCtxCreate · .encode seed) = none

/-- A handshake that is accepted and whose keys cannot be used. -/
def FinLeaks (E : Engine) (c : TCtx) (seed : Bytes) : Prop := ∃ hs, c.pending = some hs ∧ hs.status = .pendingFinalization ∧ KeysRefused E hs seed

/-- What a decision may leave behind: a peer was accepted, and the keys cannot be used. -/
def AnswerLeaks (E : Engine) (c : TCtx) (valid : Bool) (seed : Bytes) : Prop :=
  ∃ hs, c.pending = some hs ∧ (hsVerify hs valid).1.status = .pendingFinalization ∧ KeysRefused E (hsVerify hs valid).1 seed

/-- One of several decisions. -/
def AnswersLeak (E : Engine) (c : TCtx) (e : TEnv) : List Bool → Prop
  | [] => False
  | b :: bs => AnswerLeaks E c b e.seed ∨ ∃ w es, tAnswer E c b e = .ok (w, es) ∧ AnswersLeak E w e bs

/-- What `wickr_transport_ctx_start` may leave behind: a handshake that was under way, and what starting a handshake leaves behind. -/
def TStartLeaks (E : Engine) (c : TCtx) (r : HsRand) : Prop :=
  c.status = .fresh ∧ (c.pending ≠ none ∨ ∃ hs, tCreateHandshake c = some hs ∧ StartLeaks E hs r)

/-- What a packet for the handshake `v` may leave behind: what processing it leaves behind, what the decisions made on the spot leave
behind, and what is left behind if the peer is accepted at once and the keys cannot be used. -/
def ProcessLeaks (E : Engine) (c : TCtx) (v : Handshake) (p : Packet) (e : TEnv) : Prop :=
  ProcLeaks E v p e.hs ∨ ∃ w o, hsProcess E v (some p) e.hs = .ok (w, o) ∧
    (o.ask ≠ none ∧ AnswersLeak E { c with pending := some w } e e.answers ∨
      ∃ x es, tAsk E { c with pending := some w } o.ask e = .ok (x, es) ∧
        (FinLeaks E x e.seed ∨ o.send ≠ none ∧ ∃ y es, tFinalizeIfReady E x e = .ok (y, es) ∧ tPendingStatus y = .failed))

/-- What `wickr_transport_ctx_process_rx_buffer` may leave behind: what processing a handshake leaves behind. -/
def RecvLeaks (E : Engine) (c : TCtx) (d : Option Bytes) (e : TEnv) : Prop :=
  ∃ p v, d.bind pktFromBuffer = some p ∧ tCanHandshake c = true ∧ isHandshakePkt p = true ∧
    (c.pending = some v ∨ c.pending = none ∧ tCreateHandshake c = some v) ∧ ProcessLeaks E c v p e

/-- What a call may leave behind. -/
def OpLeaks (E : Engine) (c : TCtx) : TOp → Prop
  | .start r => TStartLeaks E c r
  | .send _ => False
  | .recv d e => RecvLeaks E c d e
  | .answer v e => AnswerLeaks E c v e.seed
  | .copy => False

/-- One of the calls of a history leaves something behind. -/
def LeaksIn (E : Engine) (c0 : TCtx) (ops : List TOp) : Prop :=
  ∃ i op c es, ops[i]? = some op ∧ tRun E c0 (ops.take i) = .ok (c, es) ∧ OpLeaks E c op

end Wickr.Spec
