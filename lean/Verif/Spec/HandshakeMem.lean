import Verif.Spec.ReprHandshake
import Verif.Spec.Handshake
import Verif.Spec.Verify
/-
Histories of calls to a handshake in memory, and what has to be true of them.
-/
namespace Wickr.Spec
open Asrt

/-- One API call, with the packet it is given. -/
inductive HsCall where
  | start (r : HsRand)
  | process (p : Ptr) (r : HsRand)
  | verify (valid : Bool)
  | finalize
  | copy

/-- What a call hands to the application: a packet to send, a chain given to the identity callback, the stream keys. -/
inductive HsSeen where
  | sent (a : Addr)
  | asked (a : Addr)
  | keys (a : Addr)

/-- The call.  After a copy the application releases the original and goes on with the copy. -/
def HsCall.run (E : Engine) (p : Ptr) : HsCall → H (Ptr × List HsSeen)
  | .start r => do
    let q ← hHsStart E p r
    pure (p, (q.map .sent).toList)
  | .process b r => do
    let x ← hHsProcess E p b r
    pure (p, (x.1.map .sent).toList ++ (x.2.map .asked).toList)
  | .verify valid => do
    let q ← hHsVerify p valid
    pure (p, (q.map .sent).toList)
  | .finalize => do
    let k ← hHsFinalize E p
    pure (p, (k.map .keys).toList)
  | .copy => do
    let q ← hHsCopy p
    match q with
    | none => pure (p, [])
    | some q => do
      let _ ← hHsDestroy p
      pure (some q, [])

/-- A history of calls; what each of them hands out. -/
def hsSession (E : Engine) (p : Ptr) : List HsCall → H (Ptr × List (List HsSeen))
  | [] => pure (p, [])
  | c :: cs => do
    let x ← c.run E p
    let y ← hsSession E x.1 cs
    pure (y.1, x.2 :: y.2)

/-- A handshake is made, and then there are calls.  Without a handshake there are none. -/
def hsHistory (E : Engine) (l r : Ptr) (evo : UInt32) (cs : List HsCall) : H (Ptr × List (List HsSeen)) := do
  let p ← hHsCreate l r evo
  match p with
  | none => pure (none, [])
  | some _ => hsSession E p cs

/-- The arguments of a call in memory. -/
def isCall : HsCall → HsOp → Asrt
  | .start r, .start r' => ⌜r = r'⌝
  | .process b r, .process p r' => ⌜r = r'⌝ ∗ optRep isTPkt b p
  | .verify b, .verify b' => ⌜b = b'⌝
  | .finalize, .finalize => emp
  | .copy, .copy => emp
  | _, _ => ⌜False⌝

def isCalls : List HsCall → List HsOp → Asrt
  | [], [] => emp
  | c :: cs, o :: os => isCall c o ∗ isCalls cs os
  | _, _ => ⌜False⌝

/-- What was handed out, in memory. -/
def isEvent : HsSeen → HsEv → Asrt
  | .sent a, .sent p => isTPkt a p
  | .asked a, .asked c => isChain a c
  | .keys a, .keys k => isHsKeys a k
  | _, _ => ⌜False⌝

def isEvents : List HsSeen → List HsEv → Asrt
  | [], [] => emp
  | s :: ss, e :: es => isEvent s e ∗ isEvents ss es
  | _, _ => ⌜False⌝

def isLog : List (List HsSeen) → List (List HsEv) → Asrt
  | [], [] => emp
  | s :: ss, e :: es => isEvents s e ∗ isLog ss es
  | _, _ => ⌜False⌝

/-- The random values of a call are buffers of the length asked for. -/
def HsRandOk (r : HsRand) : Prop :=
  (∃ d, r.eph.pri = some d ∧ ValidBuf d) ∧ ValidBuf r.eph.pub ∧ r.secret.length = defaultCipher.keyLen

def HsOpOk : HsOp → Prop
  | .start r => HsRandOk r
  | .process _ r => HsRandOk r
  | _ => True

/-- Seeds come only before this side has started, responses only after (otherwise see `C58_undefined_iff_partial`). -/
def Orderly : Bool → List HsOp → Prop
  | _, [] => True
  | _, .start _ :: os => Orderly true os
  | b, .process (some p) _ :: os =>
    (b = false → ∀ m, handshakeFromPacket p ≠ some (.response m)) ∧ (b = true → ∀ m, handshakeFromPacket p ≠ some (.seed m)) ∧ Orderly b os
  | b, _ :: os => Orderly b os

/-- Who vouches for the keys of a history: if there is a remote identity, a packet was processed that is authentic under it.  If
there is none, a packet was processed that is authentic under a chain, the application was asked about that chain in the same call (or
memory had run out), and later it said yes. -/
def PeerVouched (E : Engine) (remote : Option Chain) (oom : Bool) (ops : List HsOp) (log : List (List HsEv)) : Prop :=
  (∃ (R : Chain) (j : Nat) (p : Packet) (r : HsRand), remote = some R ∧ ops[j]? = some (HsOp.process (some p) r) ∧ Authentic E p R) ∨
  (remote = none ∧ ∃ (j k : Nat) (p : Packet) (r : HsRand) (ch : Chain), j < k ∧ ops[j]? = some (HsOp.process (some p) r) ∧ ops[k]? = some (HsOp.verify true) ∧ Authentic E p ch ∧
    (oom = true ∨ ∃ es c, log[j]? = some es ∧ HsEv.asked c ∈ es ∧ SameChain ch c))

def keysIn (log : List (List HsEv)) : Nat := (log.flatten.filter fun e => match e with | .keys _ => true | _ => false).length

/-- What is true of a history of calls on a handshake made for `self` and `remote`, if it ended with the handshake `w`. -/
structure SafeHistory (E : Engine) (v0 : Handshake) (remote : Option Chain) (oom : Bool) (ops : List HsOp) (log : List (List HsEv))
    (w : Handshake) : Prop where
  /-- Every call left something in the log, if only that nothing was handed out. -/
  all : log.length = ops.length
  /-- Keys come out only after somebody vouched for the peer. -/
  keys : ∀ (j : Nat) es ks, log[j]? = some es → HsEv.keys ks ∈ es → PeerVouched E remote oom (ops.take j) (log.take j)
  /-- They come out once. -/
  once : keysIn log ≤ 1
  /-- Apart from the first packet of the side that starts nothing is sent to a peer nobody vouches for. -/
  sent : ∀ (j : Nat) es p, log[j]? = some es → HsEv.sent p ∈ es → (∃ r, ops[j]? = some (HsOp.start r)) ∨ PeerVouched E remote oom (ops.take (j + 1)) (log.take (j + 1))
  /-- If there is a remote identity nobody is asked. -/
  quiet : remote ≠ none → ∀ es ∈ log, ∀ c, HsEv.asked c ∉ es
  /-- A handshake that is ready for its keys, or has given them, has a peer somebody vouches for. -/
  ready : w.status = .pendingFinalization ∨ w.status = .complete → PeerVouched E remote oom ops log
  /-- As long as memory lasts all of this is what the history computes. -/
  exact : oom = false → hsRun E v0 ops = .ok (w, log.flatten)

end Wickr.Spec
