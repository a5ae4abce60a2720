import Verif.Model.Handshake
import Verif.Spec.Identity
import Verif.Spec.Engine
/-
What it means for a packet to be authentic, and the histories of API calls the handshake theorems
range over.
-/
namespace Wickr.Spec

/-- The packet announces a P-521 signature, carries one, and it verifies under `k` over everything
that precedes it in the packet's bytes (as received, or its serialization if it was not received). -/
def PacketSigned (E : Engine) (p : Packet) (k : EcKey) : Prop :=
  p.hdr.mac = 2 ∧ ∃ net pre mac s, (p.network = some net ∨ (p.network = none ∧ pktSerialize p = some net)) ∧
    p.mac = some mac ∧ pre.length + mac.length = net.length ∧ pre ≠ [] ∧ pre <+: net ∧
    ecdsaFromBuffer mac = some s ∧ E.verify s k pre = true

/-- The packet is signed by the node of a chain whose root vouches for that node. -/
def Authentic (E : Engine) (p : Packet) (c : Chain) : Prop :=
  ChainGenuine E c ∧ PacketSigned E p c.node.key

/-- Same type, identifier and key; copying may lose a signature but never invents one. -/
def SameIdentity (i j : Identity) : Prop :=
  j.type = i.type ∧ j.identifier = i.identifier ∧ j.key = i.key ∧ (j.sig = i.sig ∨ j.sig = none)

def SameChain (c d : Chain) : Prop := SameIdentity c.root d.root ∧ SameIdentity c.node d.node

/-- A positive validation of the chain, cached or not, is right.  `C42_chain_cache_transparent` proves
this of every chain that went through the API only; a chain without cache meets it trivially. -/
def CacheTruthful (E : Engine) (c : Chain) : Prop := (chainValidate E c).2 = true → ChainGenuine E c

/-- Digests and imported keys are buffers the allocator can hand out, as everything a C engine
returns.  (No law about what they contain.) -/
structure SaneOutputs (E : Engine) : Prop where
  digest : ∀ b s d h, E.digest b s d = some h → ValidBuf h
  pub : ∀ b p k, E.ecImport b p = some k → ValidBuf k.pub
  pri : ∀ b p k x, E.ecImport b p = some k → k.pri = some x → ValidBuf x

/-- An identity chain one can run a handshake with: both identities survive export, the node has its
private key and the root vouches for it. -/
structure Party (E : Engine) (c : Chain) : Prop where
  root : WfIdentity E c.root
  node : WfIdentity E c.node
  key : E.KeyPair c.node.key
  type : c.node.type = .node
  genuine : ChainGenuine E c

/-- What the other side may have been configured with: nothing, or a chain with the same public data
that it considers valid. -/
def Expects (E : Engine) (remote : Option Chain) (c : Chain) : Prop :=
  ∀ d, remote = some d → publicHalf d.root = publicHalf c.root ∧ publicHalf d.node = publicHalf c.node ∧
    (chainValidate E d).2 = true

/-- A packet sent over a faithful network. -/
def wire (p : Packet) : Option Packet := (pktSerialize p).bind pktFromBuffer

/-- The application accepts every identity it is asked about. -/
def accept (x : Handshake × HsOut) : Handshake × Option Packet :=
  match x.2.ask with
  | some _ => hsVerify x.1 true
  | none => (x.1, x.2.send)

/-- An honest run between the initiator `a` and the responder `b`: the keys either side gets. -/
def honestRun (E : Engine) (a b : Handshake) (ra ra' rb : HsRand) : Res (HsKeys × HsKeys) :=
  let s := hsStart E a ra
  (Res.ofOption (s.2.bind wire)).bind fun p0 => (hsProcess E b (some p0) rb).bind fun x =>
    let y := accept x
    (Res.ofOption (y.2.bind wire)).bind fun p1 => (hsProcess E s.1 (some p1) ra').bind fun z =>
      (Res.ofOption (hsFinalize E (accept z).1).2).bind fun ka =>
        (Res.ofOption (hsFinalize E y.1).2).bind fun kb => .ok (ka, kb)

/-- One API call.  `copy` continues with the copy when there is one. -/
inductive HsOp where
  | start (r : HsRand)
  | process (p : Option Packet) (r : HsRand)
  | verify (valid : Bool)
  | finalize
  | copy

/-- What the caller sees: a packet to send, a question to the identity callback, the stream keys. -/
inductive HsEv where
  | sent (p : Packet)
  | asked (c : Chain)
  | keys (ks : HsKeys)
deriving DecidableEq

def HsOp.step (E : Engine) (h : Handshake) : HsOp → Res (Handshake × List HsEv)
  | .start r => let x := hsStart E h r; .ok (x.1, (x.2.map HsEv.sent).toList)
  | .process p r => (hsProcess E h p r).bind fun x =>
      .ok (x.1, (x.2.send.map HsEv.sent).toList ++ (x.2.ask.map HsEv.asked).toList)
  | .verify b => let x := hsVerify h b; .ok (x.1, (x.2.map HsEv.sent).toList)
  | .finalize => let x := hsFinalize E h; .ok (x.1, (x.2.map HsEv.keys).toList)
  | .copy => .ok ((hsCopy h).getD h, [])

/-- A history from left to right: final state and all that was seen. -/
def hsRun (E : Engine) (h : Handshake) : List HsOp → Res (Handshake × List HsEv)
  | [] => .ok (h, [])
  | op :: ops => (op.step E h).bind fun x => (hsRun E x.1 ops).bind fun y => .ok (y.1, x.2 ++ y.2)

end Wickr.Spec
