import Verif.Lemmas.WitnessMsg
/-
Refuting statements about runs of functions whose arguments are several objects: a scene is a memory with objects in it.
-/
namespace Wickr
open Asrt Spec

/-- A program that builds objects, and where they are. -/
structure Scene (X : Type) where
  prog : H Ptr
  find : Heap → Addr → Option X
  In : X → Heap → Prop
  ok : ∀ a s x, built prog = some (a, s) → find s.heap a = some x → s.oom = false ∧ In x s.heap

namespace Scene
variable {X W α : Type} (S : Scene X) {args : X → Heap → Prop} {m : X → H Ptr}

def tests (P : X → St → Bool) : Bool :=
  match built S.prog with
  | some (a, s) =>
    match S.find s.heap a with
    | some x => P x s
    | none => false
  | none => false

theorem run {P : X → St → Bool} (hb : S.tests P = true) : ∃ (x : X) (s : St), s.oom = false ∧ S.In x s.heap ∧ P x s = true := by
  unfold tests at hb
  cases e : built S.prog with
  | none => rw [e] at hb; exact nomatch hb
  | some p =>
    rw [e] at hb
    dsimp only at hb
    cases e' : S.find p.2.heap p.1 with
    | none => rw [e'] at hb; exact nomatch hb
    | some x =>
      rw [e'] at hb
      obtain ⟨h1, h2⟩ := S.ok p.1 p.2 x e e'
      exact ⟨x, p.2, h1, h2, hb⟩

theorem not_sturdy {m : X → H α} (fail : List Nat) (ha : ∀ h x, S.In x h → args x h)
    (hb : S.tests (fun x s => (m x (bump fail) s).isCrash) = true) : ¬ ∀ x, Sturdy (args x) (m x) := by
  intro h
  obtain ⟨x, s, h1, h2, h3⟩ := S.run hb
  have := h x (bump fail) s h1 (ha _ _ h2)
  revert this h3
  cases m x (bump fail) s with
  | ub => exact fun h => nomatch h
  | ret r s' => exact fun h => nomatch h
  | crash s' => exact fun _ h => h s' rfl

theorem not_tidy {R : Addr → W → Asrt} (fail : List Nat) (z : Addr) (ha : ∀ h x, S.In x h → args x h)
    (hb : S.tests (fun x s => Out.left z s (m x (bump fail) s)) = true) : ¬ ∀ x, Tidy (args x) R (m x) := by
  intro h
  obtain ⟨x, s, h1, h2, h3⟩ := S.run hb
  have := h x (bump fail) s h1 (ha _ _ h2)
  revert this h3
  cases m x (bump fail) s with
  | ub => exact fun h => nomatch h
  | crash s' => exact fun h => nomatch h
  | ret r s' =>
    cases r with
    | some b => exact fun h => nomatch h
    | none =>
      intro h h'
      dsimp only at h h'
      simp [Out.left, h'] at h

theorem spilled_not {pubs : List Bytes} {s : St} {o : Out Ptr} (h : Out.spilled pubs s o = true) : ¬ ReleasesOnly pubs s o := by
  have key : ∀ s' : St, (s'.log.any fun b => !(decide (b ∈ s.log)) && !(b.all (· == 0)) && !(decide (b ∈ pubs))) = true →
      (∀ b ∈ s'.log, b ∈ s.log ∨ Wiped b ∨ b ∈ pubs) → False := by
    intro s' ha hall
    obtain ⟨b, hb, hx⟩ := List.any_eq_true.1 ha
    rcases hall b hb with h | h | h
    · simp [h] at hx
    · unfold Wiped at h
      simp at hx
      obtain ⟨⟨-, x, hm, hn⟩, -⟩ := hx
      exact hn (h x hm)
    · simp [h] at hx
  cases o with
  | ub => exact nomatch h
  | crash s' => exact fun h' => key s' h h'
  | ret r s' => exact fun h' => key s' h h'

theorem not_discreet {pubs : List Bytes} (fail : List Nat) (ha : ∀ h x, S.In x h → args x h)
    (hb : S.tests (fun x s => Out.spilled pubs s (m x (bump fail) s)) = true) : ¬ ∀ x, Discreet (args x) pubs (m x) := by
  intro h
  obtain ⟨x, s, h1, h2, h3⟩ := S.run hb
  exact spilled_not h3 (h x (bump fail) s h1 (ha _ _ h2))

theorem not_discreetWithMemory {pubs : List Bytes} (ha : ∀ h x, S.In x h → args x h)
    (hb : S.tests (fun x s => Out.spilledRich pubs s (m x (bump []) s)) = true) : ¬ ∀ x, DiscreetWithMemory (args x) pubs (m x) := by
  intro h
  obtain ⟨x, s, h1, h2, h3⟩ := S.run hb
  have := h x (bump []) s h1 (ha _ _ h2)
  revert this h3
  cases m x (bump []) s with
  | ub => exact fun h => nomatch h
  | crash s' => exact fun h => nomatch h
  | ret r s' =>
    intro h h'
    simp only [Out.spilledRich, Bool.and_eq_true, Bool.not_eq_true'] at h
    exact spilled_not h.2 (h' r s' rfl h.1)

/-- There is a result that `probe` tells from the value. -/
theorem not_exact {R : Addr → W → Asrt} {v : W} {probe : Ptr → H Bool} (fail : List Nat) (ha : ∀ h x, S.In x h → args x h)
    (hp : ∀ b, Reads (R b v) (probe (some b)) false)
    (hb : S.tests (fun x s => (m x (bump fail) s).lacks probe (bump [])) = true) : ¬ ∀ x, Computes (args x) R (some v) (m x) := by
  intro h
  obtain ⟨x, s, h1, h2, h3⟩ := S.run hb
  have := h x (bump fail) s h1 (ha _ _ h2)
  revert this h3
  cases m x (bump fail) s with
  | ub => exact fun h => nomatch h
  | crash s' => exact fun h => nomatch h
  | ret r s' =>
    cases r with
    | none => exact fun h => nomatch h
    | some b =>
      rintro h ⟨-, w, hw, ⟨w', e, hh⟩, -⟩
      cases hw
      cases e
      exact lacks_not hp hh h
end Scene

/-! ### Exchanging keys -/

structure Kx where
  self : Addr
  node : Addr
  own : Addr
  exKey : Addr
  pk : Addr
  psk : Addr
  data : Addr
  ex : Addr

def isKx (a : Addr) (_ : Unit) : Asrt := Asrt.ex fun (p1 : Addr) => Asrt.ex fun (p2 : Addr) => Asrt.ex fun (p3 : Addr) =>
  Asrt.ex fun (p4 : Addr) => Asrt.ex fun (p5 : Addr) => Asrt.ex fun (p6 : Addr) => Asrt.ex fun (p7 : Addr) => Asrt.ex fun (p8 : Addr) =>
  (a ↦ .obj .plain [some p1, some p2, some p3, some p4, some p5, some p6, some p7, some p8]) ∗ isChain p1 toyChain ∗ isNode p2 toyPeerNode ∗
    isNode p3 toyOwn ∗ isKey p4 (exToyKey 41 41) ∗ isCKey p5 toyPk ∗ isBuf p6 [1, 2, 3] ∗ isBuf p7 [6, 6] ∗ isEx p8 toyEx

local macro "dead!" : term => `((do store none (Cell.raw 0); Pure.pure none : H Ptr))

def mkKx : H Ptr := do
  let a ← litSelf
  let b ← litPeerNode
  let c ← litOwn
  let d ← mkToyKey 41 41
  let e ← litPk
  let f ← litBuf [1, 2, 3]
  let g ← litBuf [6, 6]
  let h ← litEx
  onNull (alloc (.obj .plain [a, b, c, d, e, f, g, h])) dead! fun p => pure p

theorem mkKx_spec (c : Rules) (f : Bool) (hc : c.crash) : Triple c f emp mkKx (fun r _ => made isKx () r) := by
  unfold mkKx
  sgo

def Heap.kx (h : Heap) (a : Addr) : Option Kx :=
  match h a with
  | some (.obj .plain [some p1, some p2, some p3, some p4, some p5, some p6, some p7, some p8]) => some ⟨p1, p2, p3, p4, p5, p6, p7, p8⟩
  | _ => none

structure Kx.In (x : Kx) (h : Heap) : Prop where
  self : Has isChain h x.self toyChain
  node : Has isNode h x.node toyPeerNode
  own : Has isNode h x.own toyOwn
  exKey : Has isKey h x.exKey (toyKey 41)
  pk : Has isCKey h x.pk toyPk
  psk : Has isBuf h x.psk [1, 2, 3]
  data : Has isBuf h x.data [6, 6]
  ex : Has isEx h x.ex toyEx

def kxScene : Scene Kx where
  prog := mkKx
  find := Heap.kx
  In := Kx.In
  ok a s x hb hx := by
    obtain ⟨h1, h2⟩ := built_has (mkKx_spec _ _ trivial) hb
    refine ⟨h1, ?_⟩
    sview h2 isKx
    rename_i h0 g1 g2 g3 g4 g5 g6 g7 g8
    simp only [Heap.kx, h0, Option.some.injEq] at hx
    subst hx
    exact ⟨g1, g2, g3, g4, g5, g6, g7, g8⟩

/-! ### Reading packets -/

structure Rd where
  wire : Addr
  sender : Addr
  reader : Addr
  msg : Addr
  pkt : Addr
  key : Addr
  id : Addr
  parse : Addr
  dev : Addr
  peer : Addr

theorem toyWire_small : Small toyWire := by decide +kernel

def isRd (w : Bytes) (m : Msg) (a : Addr) (_ : Unit) : Asrt := Asrt.ex fun (p1 : Addr) => Asrt.ex fun (p2 : Addr) => Asrt.ex fun (p3 : Addr) =>
  Asrt.ex fun (p4 : Addr) => Asrt.ex fun (p5 : Addr) => Asrt.ex fun (p6 : Addr) => Asrt.ex fun (p7 : Addr) => Asrt.ex fun (p8 : Addr) =>
  Asrt.ex fun (p9 : Addr) => Asrt.ex fun (p10 : Addr) =>
  (a ↦ .obj .plain [some p1, some p2, some p3, some p4, some p5, some p6, some p7, some p8, some p9, some p10]) ∗
    isBuf p1 w ∗ isChain p2 toySender ∗ isCtx p3 toyReader ∗ isPacket p4 m ∗ isCtxPacket p5 ⟨m, toySender, toyParse⟩ ∗
    isKey p6 (exToyKey 31 31) ∗ isBuf p7 [4, 4] ∗ isParse p8 toyParse ∗ isBuf p9 [8, 8] ∗ isChain p10 toyPeer

def mkRd (w : Bytes) (l l' : H Ptr) : H Ptr := do
  let a ← litBuf w
  let b ← litSender
  let c ← litReader
  let d ← l
  let e ← l'
  let f ← mkToyKey 31 31
  let g ← litBuf [4, 4]
  let h ← litParse
  let i ← litBuf [8, 8]
  let j ← litPeer
  onNull (alloc (.obj .plain [a, b, c, d, e, f, g, h, i, j])) dead! fun p => pure p

theorem mkRd_spec (c : Rules) (f : Bool) (hc : c.crash) (w : Bytes) (hw : Small w) (m : Msg) (l l' : H Ptr)
    (hl : ∀ f, Triple c f emp l (fun r _ => made isPacket m r))
    (hl' : ∀ f, Triple c f emp l' (fun r _ => made isCtxPacket ⟨m, toySender, toyParse⟩ r)) :
    Triple c f emp (mkRd w l l') (fun r _ => made (isRd w m) () r) := by
  unfold mkRd
  unfold Small at hw
  sgo
  smade hl _
  intro p f1 h1
  smade hl' _
  intro p f1 h1
  sgo

def Heap.rd (h : Heap) (a : Addr) : Option Rd :=
  match h a with
  | some (.obj .plain [some p1, some p2, some p3, some p4, some p5, some p6, some p7, some p8, some p9, some p10]) =>
    some ⟨p1, p2, p3, p4, p5, p6, p7, p8, p9, p10⟩
  | _ => none

structure Rd.In (x : Rd) (h : Heap) : Prop where
  wire : Has isBuf h x.wire toyWire
  sender : Has isChain h x.sender toySender
  reader : Has isCtx h x.reader toyReader
  msg : Has isPacket h x.msg toyMsg
  pkt : Has isCtxPacket h x.pkt ⟨toyMsg, toySender, toyParse⟩
  key : Has isKey h x.key (toyKey 31)
  id : Has isBuf h x.id [4, 4]
  parse : Has isParse h x.parse toyParse
  dev : Has isBuf h x.dev [8, 8]
  peer : Has isChain h x.peer toyPeer

set_option maxRecDepth 20000 in
def rdScene : Scene Rd where
  prog := mkRd toyWire litMsg litCtxPacket
  find := Heap.rd
  In := Rd.In
  ok a s x hb hx := by
    obtain ⟨h1, h2⟩ := built_has (mkRd_spec _ _ trivial toyWire toyWire_small toyMsg litMsg litCtxPacket (fun f => litMsg_spec _ f trivial)
      (fun f => litCtxPacket_spec _ f trivial)) hb
    refine ⟨h1, ?_⟩
    clear hb
    revert h2
    suffices h : ∀ w m, Has (isRd w m) s.heap a () → Has isBuf s.heap x.wire w ∧ Has isChain s.heap x.sender toySender ∧
        Has isCtx s.heap x.reader toyReader ∧ Has isPacket s.heap x.msg m ∧ Has isCtxPacket s.heap x.pkt ⟨m, toySender, toyParse⟩ ∧
        Has isKey s.heap x.key (toyKey 31) ∧ Has isBuf s.heap x.id [4, 4] ∧ Has isParse s.heap x.parse toyParse ∧
        Has isBuf s.heap x.dev [8, 8] ∧ Has isChain s.heap x.peer toyPeer by
      intro h2
      obtain ⟨g1, g2, g3, g4, g5, g6, g7, g8, g9, g10⟩ := h _ _ h2
      exact ⟨g1, g2, g3, g4, g5, g6, g7, g8, g9, g10⟩
    intro w m h2
    sview h2 isRd
    rename_i h0 g1 g2 g3 g4 g5 g6 g7 g8 g9 g10
    simp only [Heap.rd, h0, Option.some.injEq] at hx
    subst hx
    exact ⟨g1, g2, g3, g4, g5, g6, g7, g8, g9, g10⟩

end Wickr
