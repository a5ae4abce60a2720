import Verif.Model.Identity
import Verif.Model.TransportPacket
/-
Model of the signing and verification of transport packets (transport_packet.c:278-364).
-/
namespace Wickr

/-- transport_packet.c:278-324 `wickr_transport_packet_sign`: the packet afterwards and the result.
(P-521 is the only curve, so the switch has one case.) -/
def pktSign (E : Engine) (p : Packet) (c : Chain) (nonce : Bytes) : Packet × Bool :=
  match pktSerialize { p with hdr := { p.hdr with mac := macP521 } } with
  | none => (p, false)
  | some dataToSign =>
    match (identitySign E c.node dataToSign nonce).bind ecdsaSerialize with
    | none => (p, false)
    | some sb =>
      let p := { p with mac := some sb, hdr := { p.hdr with mac := macP521 } }
      let net := pktSerialize p
      ({ p with network := net }, net.isSome)

/-- transport_packet.c:326-364 `wickr_transport_packet_verify`: the packet and the chain afterwards
(the network buffer is filled in, the chain's validation is cached) and the result. -/
def pktVerify (E : Engine) (p : Packet) (c : Chain) : Packet × Chain × Bool :=
  match p.mac with
  | none => (p, c, false)
  | some mac =>
    if p.hdr.mac ≠ macP521 then (p, c, false)
    else match (match p.network with | some b => some b | none => pktSerialize p) with
      | none => (p, c, false)
      | some net =>
        let p := { p with network := some net }
        let (c, ok) := chainValidate E c
        if !ok then (p, c, false)
        else if net.length ≤ mac.length then (p, c, false)
        else match ecdsaFromBuffer mac with
          | none => (p, c, false)
          | some s => (p, c, E.verify s c.node.key (net.take (net.length - mac.length)))

end Wickr
