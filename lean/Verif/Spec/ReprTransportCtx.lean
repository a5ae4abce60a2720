import Verif.Spec.ReprHandshake
import Verif.Spec.Memory
import Verif.Model.HeapTransportCtx
/-
What transport contexts look like in memory, and what is handed to the application.
-/
namespace Wickr
open Asrt Spec

/-- A transport context. -/
def isTCtx (a : Addr) (c : TCtx) : Asrt :=
  Asrt.ex fun (rx : Ptr) => Asrt.ex fun (tx : Ptr) => Asrt.ex fun (l : Addr) => Asrt.ex fun (r : Ptr) => Asrt.ex fun (pd : Ptr) =>
  (a ↦ .obj (.tctx c.status c.evo c.err) [rx, tx, some l, r, pd]) ∗ optRep isSCtx rx c.rx ∗ optRep isSCtx tx c.tx ∗ isChain l c.self ∗
    optRep isChain r c.remote ∗ optRep isHs pd c.pending

/-- The identities, what streams and a handshake have that is no secret. -/
def TCtx.publics (c : TCtx) : List Bytes :=
  c.self.publics ++ (c.remote.map Chain.publics).getD [] ++ (c.rx.map StreamCtx.publics).getD [] ++ (c.tx.map StreamCtx.publics).getD [] ++
    (c.pending.map Handshake.publics).getD []

/-- What the callbacks hand over. -/
def isTEvent : TSeen → TEv → Asrt
  | .state s, .state s' => ⌜s = s'⌝
  | .tx a, .tx b => isBuf a b
  | .rx a, .rx b => isBuf a b
  | .ask a, .ask c => isChain a c
  | _, _ => ⌜False⌝

def isTEvents : List TSeen → List TEv → Asrt
  | [], [] => emp
  | s :: ss, e :: es => isTEvent s e ∗ isTEvents ss es
  | _, _ => ⌜False⌝

/-- The context after a call, and what was handed over. -/
def isTOut (a : Addr) (ss : List TSeen) (z : TCtx × List TEv) : Asrt := isTCtx a z.1 ∗ isTEvents ss z.2

/-- The buffers of the application. -/
def BufsIn (h : Heap) : List Ptr → List Bytes → Prop
  | [], [] => True
  | p :: ps, b :: bs => (∃ a, p = some a ∧ Has isBuf h a b) ∧ BufsIn h ps bs
  | _, _ => False

/-- What a call draws from outside, in memory. -/
def EnvIn (h : Heap) (e : HTEnv) (e' : TEnv) : Prop :=
  e.hs = e'.hs ∧ e.seed = e'.seed ∧ e.junk = e'.junk ∧ e.answers = e'.answers ∧ BufsIn h e.onActive e'.onActive

end Wickr
