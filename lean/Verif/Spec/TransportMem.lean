import Verif.Spec.ReprTransportCtx
import Verif.Spec.HandshakeMem
/-
Histories of calls to a transport context in memory, and what has to be true of them.
-/
namespace Wickr.Spec
open Asrt

/-- One API call, with the buffers it is given. -/
inductive TCall where
  | start (r : HsRand)
  | send (b : Ptr)
  | recv (b : Ptr) (e : HTEnv)
  | answer (valid : Bool) (e : HTEnv)
  | copy

/-- The call.  After a copy the application releases the original and goes on with the copy. -/
def TCall.run (E : Engine) (p : Ptr) : TCall → H (Ptr × List TSeen)
  | .start r => do
    let x ← hTStart E p r
    pure (p, x)
  | .send b => do
    let x ← hTSend E p b
    pure (p, x)
  | .recv b e => do
    let x ← hTRecv E p b e
    pure (p, x)
  | .answer v e => do
    let x ← hTAnswer E p v e
    pure (p, x)
  | .copy => do
    let q ← hTCopy p
    match q with
    | none => pure (p, [])
    | some q => do
      let _ ← hTDestroy p
      pure (some q, [])

/-- A history of calls; what the callbacks were given during each of them. -/
def tSession (E : Engine) (p : Ptr) : List TCall → H (Ptr × List (List TSeen))
  | [] => pure (p, [])
  | c :: cs => do
    let x ← c.run E p
    let y ← tSession E x.1 cs
    pure (y.1, x.2 :: y.2)

/-- A context is made, and then there are calls.  Without a context there are none. -/
def tHistory (E : Engine) (l r : Ptr) (evo : UInt32) (cs : List TCall) : H (Ptr × List (List TSeen)) := do
  let p ← hTCreate l r evo
  match p with
  | none => pure (none, [])
  | some _ => tSession E p cs

/-- The arguments of the calls in memory. -/
def CallIn (h : Heap) : TCall → TOp → Prop
  | .start r, .start r' => r = r'
  | .send b, .send b' => HasOpt isBuf h b b'
  | .recv b e, .recv b' e' => HasOpt isBuf h b b' ∧ EnvIn h e e'
  | .answer v e, .answer v' e' => v = v' ∧ EnvIn h e e'
  | .copy, .copy => True
  | _, _ => False

def CallsIn (h : Heap) : List TCall → List TOp → Prop
  | [], [] => True
  | c :: cs, o :: os => CallIn h c o ∧ CallsIn h cs os
  | _, _ => False

def isTLog : List (List TSeen) → List (List TEv) → Asrt
  | [], [] => emp
  | s :: ss, e :: es => isTEvents s e ∗ isTLog ss es
  | _, _ => ⌜False⌝

/-- The random values of a call are buffers of the length asked for. -/
def TOpOk : TOp → Prop
  | .start r => HsRandOk r
  | .recv _ e => HsRandOk e.hs ∧ ValidBuf e.seed
  | .answer _ e => ValidBuf e.seed
  | _ => True

/-- Seeds come only before this side has started, responses only after (otherwise see `C58_undefined_iff_partial`). -/
def TOrderly : Bool → List TOp → Prop
  | _, [] => True
  | _, .start _ :: os => TOrderly true os
  | b, .recv (some d) _ :: os =>
    (∀ p, pktFromBuffer d = some p →
      (b = false → ∀ m, handshakeFromPacket p ≠ some (.response m)) ∧ (b = true → ∀ m, handshakeFromPacket p ≠ some (.seed m))) ∧ TOrderly b os
  | b, _ :: os => TOrderly b os

/-- A packet was received in call `j` that is authentic under `ch`. -/
def GotFrom (E : Engine) (ops : List TOp) (j : Nat) (ch : Chain) : Prop :=
  ∃ d e p, ops[j]? = some (TOp.recv (some d) e) ∧ pktFromBuffer d = some p ∧ Authentic E p ch

/-- A packet was received that is authentic under a chain, and in the same call the application was asked about that chain (or memory had
run out). -/
def ShownAt (E : Engine) (oom : Bool) (ops : List TOp) (log : List (List TEv)) (j : Nat) : Prop :=
  ∃ ch, GotFrom E ops j ch ∧ (oom = true ∨ ∃ es c, log[j]? = some es ∧ TEv.ask c ∈ es ∧ SameChain ch c)

/-- The application said yes, in the same call or later. -/
def YesAfter (ops : List TOp) (j : Nat) : Prop :=
  (∃ b e, ops[j]? = some (TOp.recv b e) ∧ true ∈ e.answers) ∨ ∃ k e, j < k ∧ ops[k]? = some (TOp.answer true e)

/-- Who vouches for the peer of a context: if it was made with a remote identity, a packet was received that is authentic under it.  If it
was made without one, a packet was received that is authentic under a chain the application was asked about, and it said yes.  A context
made with a remote identity may lose it, but only if memory runs out. -/
def TVouched (E : Engine) (remote : Option Chain) (oom : Bool) (ops : List TOp) (log : List (List TEv)) : Prop :=
  (∃ R j, remote = some R ∧ GotFrom E ops j R) ∨ (remote = none ∨ oom = true) ∧ ∃ j, ShownAt E oom ops log j ∧ YesAfter ops j

/-- What is true of a history of calls on a context made for `remote`, if it ended with the context `w`. -/
structure SafeTransport (E : Engine) (c0 : TCtx) (remote : Option Chain) (oom : Bool) (ops : List TOp) (log : List (List TEv))
    (w : TCtx) : Prop where
  /-- Every call left something in the log, if only that no callback was invoked. -/
  all : log.length = ops.length
  /-- The context is said to be active only after somebody vouched for the peer. -/
  active : ∀ (j : Nat) es, log[j]? = some es → TEv.state .active ∈ es → TVouched E remote oom (ops.take (j + 1)) (log.take (j + 1))
  /-- Data comes only from a peer somebody vouches for. -/
  rx : ∀ (j : Nat) es d, log[j]? = some es → TEv.rx d ∈ es → TVouched E remote oom (ops.take (j + 1)) (log.take (j + 1))
  /-- Apart from the first packet of the side that starts nothing is sent to a peer nobody vouches for. -/
  tx : ∀ (j : Nat) es d, log[j]? = some es → TEv.tx d ∈ es →
    (∃ r, ops[j]? = some (TOp.start r)) ∨ TVouched E remote oom (ops.take (j + 1)) (log.take (j + 1))
  /-- If there is a remote identity nobody is asked, as long as memory lasts. -/
  quiet : remote ≠ none → oom = false → ∀ es ∈ log, ∀ c, TEv.ask c ∉ es
  /-- A context with streams has a peer somebody vouches for, and so has one that is active; an active one has both streams. -/
  keyed : w.rx.isSome = true ∨ w.tx.isSome = true → TVouched E remote oom ops log
  live : w.status = .active → w.rx.isSome = true ∧ w.tx.isSome = true
  /-- The context is held to the identity it was made with. -/
  held : w.remote.isSome = remote.isSome
  /-- As long as memory lasts all of this is what the history computes. -/
  exact : oom = false → tRun E c0 ops = .ok (w, log.flatten)

end Wickr.Spec
