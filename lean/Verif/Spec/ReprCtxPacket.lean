import Verif.Spec.ReleasesKx
import Verif.Model.Ctx
/-
Packets read by a context, and what reading them releases.
-/
namespace Wickr

/-- A packet read by a context. -/
def isCtxPacket (a : Addr) (v : CtxPacket) : Asrt := Asrt.ex fun (p : Addr) => Asrt.ex fun (q : Addr) => Asrt.ex fun (r : Addr) =>
  (a ↦ .obj .plain [some p, some q, some r]) ∗ isPacket p v.packet ∗ isChain q v.sender ∗ isParse r v.parse

/-- The parts of a packet read by a context that may be released unwiped: all of them but private keys. -/
def CtxPacket.publics (v : CtxPacket) : List Bytes := v.packet.publics ++ v.sender.publics ++ v.parse.publics

/-- What reading a packet may find instead of `v` when memory is short. -/
def readShort (v v' : CtxPacket) : Prop := v'.packet = v.packet ∧ chainLoss v.sender v'.sender ∧ parseShort v.parse v'.parse

/-- What reading a packet releases: its parts, those of its header, and those of what is returned. -/
def readPubs (E : Engine) (b : Bytes) (n : Option Bytes) (s : Chain) : List Bytes :=
  packetParts b ++ s.publics ++ (msgFromBuffer b).toList.flatMap fun m => m.publics ++ parsePubs E m.content s ++
    match parseFromPacket E m n (genHeaderKey E) (some s) with
    | .ok v => v.publics
    | _ => []

end Wickr
