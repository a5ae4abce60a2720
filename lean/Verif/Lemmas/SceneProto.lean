import Verif.Lemmas.Scene
import Verif.Lemmas.ViewSpecsProto
/-
A memory with objects that are written and read.
-/
namespace Wickr
open Asrt Spec

structure Wr where
  ctx : Addr
  node : Addr
  id : Addr
  keys : Addr
  keysWire : Addr
  chainWire : Addr
  pass : Addr

/-- An identity whose signature is longer than the padding that is added to it. -/
def toyLongId : Identity := ⟨.node, [4, 4], { toyKey 3 with pri := none }, some ⟨.p521, .sha512, List.replicate 100 7⟩⟩
def toyKeysWire : Bytes := (storageSerialize toyStorage).toOption.getD []
def toyChainWire : Bytes := ((chainBuildProto toyChain true).bind fun m => protoPack m.pack).getD []

theorem toyKeysWire_small : Small toyKeysWire := by decide +kernel
theorem toyChainWire_small : Small toyChainWire := by decide +kernel

def isWr (w w' : Bytes) (a : Addr) (_ : Unit) : Asrt := Asrt.ex fun (p1 : Addr) => Asrt.ex fun (p2 : Addr) => Asrt.ex fun (p3 : Addr) =>
  Asrt.ex fun (p4 : Addr) => Asrt.ex fun (p5 : Addr) => Asrt.ex fun (p6 : Addr) => Asrt.ex fun (p7 : Addr) =>
  (a ↦ .obj .plain [some p1, some p2, some p3, some p4, some p5, some p6, some p7]) ∗ isCtx p1 (toyCtx 4) ∗ isNode p2 toyPeerNode ∗
    isId p3 toyLongId ∗ isStorage p4 toyStorage ∗ isBuf p5 w ∗ isBuf p6 w' ∗ isBuf p7 [1, 2, 3]

local macro "dead!" : term => `((do store none (Cell.raw 0); Pure.pure none : H Ptr))

def litLong : H Ptr := litId toyLongId

theorem litLong_spec (c : Rules) (f : Bool) (hc : c.crash) : Triple c f emp litLong (fun r _ => made isId toyLongId r) :=
  litId_spec c f hc _ ⟨by decide, by decide +kernel, fun _ h => (nomatch h), fun _ h => by cases h; decide⟩

def mkWr (w w' : Bytes) : H Ptr := do
  let a ← litSenderCtx
  let b ← litPeerNode
  let c ← litLong
  let d ← litStorage
  let e ← litBuf w
  let f ← litBuf w'
  let g ← litBuf [1, 2, 3]
  onNull (alloc (.obj .plain [a, b, c, d, e, f, g])) dead! fun p => pure p

theorem mkWr_spec (c : Rules) (f : Bool) (hc : c.crash) (w w' : Bytes) (hw : Small w) (hw' : Small w') :
    Triple c f emp (mkWr w w') (fun r _ => made (isWr w w') () r) := by
  unfold mkWr
  unfold Small at hw hw'
  sgo

def Heap.wr (h : Heap) (a : Addr) : Option Wr :=
  match h a with
  | some (.obj .plain [some p1, some p2, some p3, some p4, some p5, some p6, some p7]) => some ⟨p1, p2, p3, p4, p5, p6, p7⟩
  | _ => none

structure Wr.In (x : Wr) (h : Heap) : Prop where
  ctx : Has isCtx h x.ctx (toyCtx 4)
  node : Has isNode h x.node toyPeerNode
  id : Has isId h x.id toyLongId
  keys : Has isStorage h x.keys toyStorage
  keysWire : Has isBuf h x.keysWire toyKeysWire
  chainWire : Has isBuf h x.chainWire toyChainWire
  pass : Has isBuf h x.pass [1, 2, 3]

def wrScene : Scene Wr where
  prog := mkWr toyKeysWire toyChainWire
  find := Heap.wr
  In := Wr.In
  ok a s x hb hx := by
    obtain ⟨h1, h2⟩ := built_has (mkWr_spec _ _ trivial toyKeysWire toyChainWire toyKeysWire_small toyChainWire_small) hb
    refine ⟨h1, ?_⟩
    clear hb
    revert h2
    suffices h : ∀ w w', Has (isWr w w') s.heap a () → Has isCtx s.heap x.ctx (toyCtx 4) ∧ Has isNode s.heap x.node toyPeerNode ∧
        Has isId s.heap x.id toyLongId ∧ Has isStorage s.heap x.keys toyStorage ∧ Has isBuf s.heap x.keysWire w ∧
        Has isBuf s.heap x.chainWire w' ∧ Has isBuf s.heap x.pass [1, 2, 3] by
      intro h2
      obtain ⟨g1, g2, g3, g4, g5, g6, g7⟩ := h _ _ h2
      exact ⟨g1, g2, g3, g4, g5, g6, g7⟩
    intro w w' h2
    sview h2 isWr
    rename_i h0 g1 g2 g3 g4 g5 g6 g7
    simp only [Heap.wr, h0, Option.some.injEq] at hx
    subst hx
    exact ⟨g1, g2, g3, g4, g5, g6, g7⟩

end Wickr
