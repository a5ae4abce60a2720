import Verif.Spec.Repr
import Verif.Spec.ReleasesMsg
import Verif.Model.HeapTransport
/-
What transport packets look like in memory, and what signing and verifying them does to them whatever the allocator does.
-/
namespace Wickr
open Asrt

/-- A transport packet. -/
def isTPkt (a : Addr) (v : Packet) : Asrt := Asrt.ex fun (q : Addr) => Asrt.ex fun (m : Ptr) => Asrt.ex fun (n : Ptr) =>
  (a ↦ .obj (.tpkt v.hdr) [some q, m, n]) ∗ isBuf q v.body ∗ optRep isBuf m v.mac ∗ optRep isBuf n v.network

/-- All of a packet travels over the network. -/
def Packet.publics (v : Packet) : List Bytes := v.body :: v.mac.toList ++ v.network.toList

/-- A copy of a packet is made without the bytes it was received as. -/
def Packet.plain (v : Packet) : Packet := { v with network := none }

/-- The packet that is signed: it announces the signature it is going to have. -/
def Packet.announced (v : Packet) : Packet := { v with hdr := { v.hdr with mac := macP521 } }

/-- What `wickr_transport_packet_sign` does to a packet that has no signature, and returns: success means that the packet has
the signature of the node over its bytes, written with its padding or, if memory ran out, without; otherwise it has no signature,
or one but no bytes to send. -/
def SignOutcome (E : Engine) (p : Packet) (ch : Chain) (nonce : Bytes) (ok f : Bool) (p' : Packet) : Prop :=
  (ok = true → ∃ d s w sb net, pktSerialize p.announced = some d ∧ identitySign E ch.node d nonce = some s ∧
    ecdsaSerialize s = some w ∧ (sb = w ∨ f = true ∧ ecdsaBare s = some sb) ∧ pktSerialize { p.announced with mac := some sb } = some net ∧
    p' = { p.announced with mac := some sb, network := some net }) ∧
  (ok = false → p' = p ∨ ∃ sb, p' = { p.announced with mac := some sb }) ∧
  (f = false → (p', ok) = pktSign E p ch nonce)

/-- What `wickr_transport_packet_verify` does to packet and chain, and returns: success means that the chain is valid, by its
cache or by its signature, and the signature of the packet is that of the node over the bytes before it. -/
def CheckOutcome (E : Engine) (p : Packet) (ch : Chain) (ok f : Bool) (p' : Packet) (ch' : Chain) : Prop :=
  (p' = p ∨ p.network = none ∧ ∃ net, pktSerialize p = some net ∧ p' = { p with network := some net }) ∧
  (ch' = ch ∨ ∃ cok, ChainAfter E ch cok ch') ∧
  (ok = true → ChainAfter E ch true ch' ∧ p.hdr.mac = macP521 ∧ ∃ mac net s, p.mac = some mac ∧
    (p.network = some net ∨ p.network = none ∧ pktSerialize p = some net) ∧ mac.length < net.length ∧
    ecdsaFromBuffer mac = some s ∧ E.verify s ch.node.key (net.take (net.length - mac.length)) = true) ∧
  (f = false → (p', ch', ok) = pktVerify E p ch)
where
  ChainAfter (E : Engine) (ch : Chain) (ok : Bool) (ch' : Chain) : Prop :=
    (chainHasValidCache E ch = true ∧ ch' = ch ∧ ok = decide (ch.status = .valid)) ∨
    (ok = E.verifyOpt ch.node.sig ch.root.key ch.node.key.pub ∧
      ∃ x, ch' = { ch with status := if ok then .valid else .invalid, cache := x } ∧
        (x = none ∨ x = chainStatusCache E { ch with status := if ok then .valid else .invalid }))

end Wickr
