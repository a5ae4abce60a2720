import Verif.Spec.ReprTransport
import Verif.Spec.Among
import Verif.Model.HeapHandshake
/-
What handshakes look like in memory.
-/
namespace Wickr
open Asrt

/-- What a program leaves behind: something only if `φ`. -/
def junk (φ : Prop) : Asrt := fun h => φ ∨ h = fun _ => none

/-- A handshake. -/
def isHs (a : Addr) (v : Handshake) : Asrt :=
  Asrt.ex fun (l : Addr) => Asrt.ex fun (r : Ptr) => Asrt.ex fun (ps : Addr) => Asrt.ex fun (e : Ptr) => Asrt.ex fun (k : Ptr) => Asrt.ex fun (q : Ptr) =>
  (a ↦ .obj (.hs v.status v.isInitiator v.evo) [some l, r, some ps, e, k, q]) ∗ isChain l v.self ∗ optRep isChain r v.remote ∗
    isArr isBuf ps [v.pkt0, v.pkt1] ∗ optRep isKey e v.eph ∗ optRep isTRoot k v.rootKey ∗ optRep isTPkt q v.pendingPkt

/-- The keys a handshake ends with. -/
def isHsKeys (a : Addr) (v : HsKeys) : Asrt := Asrt.ex fun (p : Addr) => Asrt.ex fun (q : Addr) =>
  (a ↦ .obj .plain [some p, some q]) ∗ isSKey p v.localKey ∗ isSKey q v.remoteKey

/-- What a handshake holds that is not secret. -/
def Handshake.publics (v : Handshake) : List Bytes :=
  v.self.publics ++ (v.remote.map Chain.publics).getD [] ++ v.pkt0.toList ++ v.pkt1.toList ++ (v.pendingPkt.map Packet.publics).getD []

end Wickr
