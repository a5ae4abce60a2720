import Verif.Spec.HandshakeCalls
import Verif.Spec.ReprHandshake
import Verif.Lemmas.SepTransport
import Verif.Lemmas.SepProtoRead
import Verif.Lemmas.SepProto
/-
Messages of handshakes.
-/
namespace Wickr
open Asrt Spec

/-- Rules that allow everything but undefined behaviour. -/
abbrev laxest : Rules := { pub := fun _ => True, crash := True, lax := True }

/-! ### What is left behind -/

theorem junk_emp {φ : Prop} : Asrt.le emp (junk φ) := fun _ h => Or.inr h
theorem le_junk {φ : Prop} {G : Asrt} (h : φ) : Asrt.le G (junk φ) := fun _ _ => Or.inl h
theorem junk_mono {φ ψ : Prop} (h : φ → ψ) : Asrt.le (junk φ) (junk ψ) := fun _ hx => hx.imp_left h
theorem spill_junk {φ : Prop} {f : Bool} (h : f = true → φ) : Asrt.le (spill f) (junk φ) := by
  cases f with
  | false => exact junk_emp
  | true => exact le_junk (h rfl)
theorem junk_star {φ : Prop} {G G' : Asrt} (h : Asrt.le G (junk φ)) (h' : Asrt.le G' (junk φ)) : Asrt.le (G ∗ G') (junk φ) := by
  rintro x ⟨x1, x2, hd, e, h1, h2⟩
  rcases h _ h1 with hp | rfl
  · exact Or.inl hp
  · rcases h' _ h2 with hp | rfl
    · exact Or.inl hp
    · exact Or.inr (by subst e; funext a; rfl)

theorem junk_spill {f : Bool} : Asrt.le (junk (f = true)) (spill f) := by
  intro x hx
  cases f with
  | true => trivial
  | false => rcases hx with h | h
             · cases h
             · exact h

theorem Triple.toss {c : Rules} {f : Bool} {A G F : Asrt} {m : H α} {R : α → Bool → Asrt} {φ : Prop} (hA : A = G ∗ F)
    (hG : Asrt.le G (junk φ)) (hk : Triple c f (junk φ ∗ F) m R) : Triple c f A m R := by
  rw [hA]
  exact Triple.conseq hk (fun _ h => Asrt.star_mono (hG) h) (fun _ _ _ _ h => h)

theorem Triple.doneJ {c : Rules} {f : Bool} {V : Type _} {α : Type} {A G : Asrt} {a : α} {φ : α → Bool → V → Prop} {ψ : α → Bool → V → Prop} {P : α → V → Asrt}
    (w : V) (hA : A = P a w ∗ G) (hG : Asrt.le G (junk (ψ a f w))) (hφ : φ a f w) :
    Triple c f A (Pure.pure a : H α) (fun r f' => Asrt.ex fun x => ⌜φ r f' x⌝ ∗ P r x ∗ junk (ψ r f' x)) := by
  refine Triple.ret fun x hx => ⟨w, ?_⟩
  dsimp only
  rw [Asrt.pure_star]
  rw [hA] at hx
  exact ⟨hφ, Asrt.star_mono_r hG hx⟩

theorem Triple.noneGv {c : Rules} {f : Bool} {V : Type} {A P : Asrt} {R : Addr → V → Asrt} {x : Option V} (hA : ∀ y, A y → P y)
    (h : f = true ∨ x = none) : Triple c f A (Pure.pure none) (fun r f' => P ∗ gives R x r f') := by
  refine Triple.ret fun y hy => ?_
  rw [Asrt.star_comm]
  exact Asrt.pure_star.2 ⟨h, hA y hy⟩

theorem Triple.someGv {c : Rules} {f : Bool} {V : Type} {A P : Asrt} {R : Addr → V → Asrt} {x : Option V} {q : Addr} {v : V} (h : x = some v)
    (hA : ∀ y, A y → (P ∗ R q v) y) : Triple c f A (Pure.pure (some q)) (fun r f' => P ∗ gives R x r f') := by
  refine Triple.ret fun y hy => ?_
  exact Asrt.star_mono_r (fun z hz => ⟨v, Asrt.pure_star.2 ⟨h, hz⟩⟩) (hA y hy)

/-! ### Root keys -/

/-- A root key made for packing. -/
def isRootProto (x : Addr) (k : RootKey) : Asrt := ex fun (q : Addr) => (x ↦ .obj .plain [some q]) ∗ isRaw q k.secret

theorem troot_view {h : Heap} {a : Addr} {k : RootKey} (ha : Has isTRoot h a k) :
    ∃ q, Reads (keep h) (field (some a) 0) (some q) ∧ Has isBuf h q k.secret ∧
      Reads (keep h) (scal (some a)) (.root k.cipher k.ppeSend k.ppeRecv) := by
  sview ha isTRoot
  exact ⟨_, field_view (by assumption) rfl, by assumption, scal_view (by assumption)⟩

theorem hRootToProto_view (c : Rules) (f : Bool) (h : Heap) (a : Addr) (k : RootKey) (ha : Has isTRoot h a k) :
    Triple c f (keep h) (hRootToProto (some a)) (fun r f' => keep h ∗ fresh isRootProto k r f') := by
  unfold hRootToProto
  obtain ⟨q, r1, hq, -⟩ := troot_view ha
  dsimp only
  refine Triple.onNull' (alloc_spec c f _) ?_ ?_
  · intro f1 _ hf
    refine Triple.ret fun y hy => ?_
    rw [Asrt.star_comm]
    exact Asrt.pure_star.2 ⟨hf, hy⟩
  · intro x f1 _
    sread r1
    refine Triple.onNull (hToProto_view c f1 h q k.secret hq) (F := x ↦ .obj .plain [none]) (by frame) ?_ ?_
    · intro f2 _ hf
      sgo
    · intro y f2 _
      sstep store_spec c f2 x _ _
      intro _ f3 _
      refine Triple.ret fun y hy => ?_
      revert hy; revert y
      dsimp only [fresh]
      unfold isRootProto isRaw
      sentail

theorem hRootProtoRead_view {h : Heap} {a x : Addr} {k : RootKey} (ha : Has isTRoot h a k) :
    Reads (isRootProto x k ∗ keep h) (hRootProtoRead (some a) (some x)) (rootKeyToProto k) := by
  intro c f
  obtain ⟨q, -, hq, r2⟩ := troot_view ha
  unfold hRootProtoRead isRootProto isRaw
  sintro
  sread field_reads x _ _ 0 _ rfl
  sread loadBytes_reads _ _
  sread r2
  dsimp only
  refine Triple.ret fun y hy => ?_
  exact Asrt.pure_star.2 ⟨⟨rfl, rfl⟩, by revert hy; revert y; sentail⟩

theorem hRootProtoFree_spec (f : Bool) (x : Addr) (k : RootKey) :
    Triple laxest f (isRootProto x k) (hRootProtoFree (some x)) (fun _ _ => emp) := by
  unfold hRootProtoFree isRootProto isRaw
  sintro
  sread field_reads x _ _ 0 _ rfl
  sstep free_bytes laxest f _ _ (Or.inr trivial)
  intro _ f1 _
  sgo

/-- A structure around another one. -/
def isWrap (x w : Addr) : Asrt := w ↦ .obj .plain [some x]

theorem hWrap_spec (P : Asrt) (c : Rules) (f : Bool) (x : Addr) :
    Triple c f P (hWrap (some x)) (fun r f' => orKeep P (fun w (_ : Unit) => isWrap x w ∗ P) () r f') := by
  unfold hWrap
  dsimp only
  refine Triple.onNull' (alloc_spec c f _) ?_ ?_
  · intro f1 _ hf
    exact Triple.ret fun y hy => Asrt.pure_star.2 ⟨hf, hy⟩
  · intro w f1 _
    sstep store_spec c f1 w _ _
    intro _ f2 _
    refine Triple.ret fun y hy => ?_
    revert hy; revert y
    dsimp only [orKeep]
    unfold isWrap
    sentail

theorem wrap_field (x w : Addr) : Reads (isWrap x w) (field (some w) 0) (some x) := field_reads w _ _ 0 _ rfl

theorem hUnwrap_spec {P : Asrt} {inner : Ptr → H Unit} {c : Rules} (f : Bool) (x w : Addr)
    (hi : ∀ f, Triple c f P (inner (some x)) (fun _ _ => emp)) :
    Triple c f (isWrap x w ∗ P) (hUnwrap inner (some w)) (fun _ _ => emp) := by
  unfold hUnwrap
  dsimp only
  sread wrap_field x w
  sstep hi f
  intro _ f1 _
  unfold isWrap
  sgo

theorem hRespData_view (f : Bool) (h : Heap) (a : Addr) (k : RootKey) (ha : Has isTRoot h a k) :
    Triple laxest f (keep h) (hRespData (some a))
      (fun r f' => keep h ∗ gives isBuf (protoPack (PResponseData.pack ⟨some (rootKeyToProto k)⟩)) r f') := by
  unfold hRespData
  refine Triple.onNull (hRootToProto_view laxest f h a k ha) (F := emp) (by frame) ?_ ?_
  · intro f1 _ hf
    exact Triple.noneGv (by sentail) (Or.inl hf)
  · intro x f1 _
    refine Triple.onNullK (hWrap_spec (isRootProto x k) laxest f1 x) (F := keep h) (by frame) ?_ ?_
    · intro f2 _ hf
      sstep hRootProtoFree_spec f2 x k
      intro _ f3 hf3
      exact Triple.noneGv (by sentail) (Or.inl (hf3 hf))
    · intro w f2 _
      sread wrap_field x w
      sread hRootProtoRead_view (x := x) ha
      sstep hPack_spec laxest f2 _
      intro r f3 _
      have hu := fun f => hUnwrap_spec f x w (fun f => hRootProtoFree_spec f x k)
      cases r with
      | none =>
        dsimp only [gives]
        sintro
        rename_i hf
        sstep hu f3
        intro _ f4 hf4
        exact Triple.noneGv (by sentail) (hf.imp_left hf4)
      | some r =>
        dsimp only [gives]
        sintro
        rename_i b hb
        sstep hu f3
        intro _ f4 hf4
        exact Triple.someGv hb (by sentail)

theorem hTRootCreate_refuses (c : Rules) (f : Bool) (p : Addr) (ci : Cipher) (m n : UInt32) (b : Bytes) (hb : b.length ≠ ci.keyLen) :
    Triple c f (isBuf p b) (hTRootCreate (some p) ci m n) (fun r _ => ⌜r = none⌝ ∗ isBuf p b) := by
  unfold hTRootCreate
  dsimp only
  sread hBufLen_reads p b
  rw [if_pos hb]
  exact Triple.ret fun y hy => Asrt.pure_star.2 ⟨rfl, hy⟩

theorem hRootFromProto_view (f : Bool) (h : Heap) (x : Addr) (bs : List Bytes) (m : PTransportRootKey) (hx : Has isProto h x bs)
    (h0 : bs[0]? = some (optBytes m.secret)) :
    Triple laxest f (keep h) (hRootFromProto (some x) m) (fun r f' => keep h ∗ gives isTRoot (rootKeyFromProto m) r f') := by
  have n0 := Nth.of h0
  obtain ⟨s, ci, a, b⟩ := m
  unfold hRootFromProto rootKeyFromProto
  cases s with
  | none => exact Triple.noneGv (by sentail) (Or.inr rfl)
  | some s =>
  cases ci with
  | none => exact Triple.noneGv (by sentail) (Or.inr rfl)
  | some ci =>
  cases a with
  | none => exact Triple.noneGv (by sentail) (Or.inr rfl)
  | some a =>
  cases b with
  | none => exact Triple.noneGv (by sentail) (Or.inr rfl)
  | some b =>
  dsimp only [optBytes] at n0 ⊢
  sread hPart_view hx
  refine Triple.onNullG (P' := emp) (hFromProto_spec laxest f s) (F := keep h) (by frame) ?_ ?_
  · intro f1 _ hf
    exact Triple.noneGv (by sentail) (hf.imp_right fun h => by rw [h]; rfl)
  · intro q f1 v _ hv
    rw [hv]
    cases hc : Cipher.find ci.toUInt8 with
    | none =>
      dsimp only [Option.bind]
      sgo
    | some c =>
      simp only [Option.bind_some]
      by_cases hl : v.length = c.keyLen
      · simp only [rootKeyCreate, hl, ne_eq, not_true_eq_false, if_false]
        refine Triple.onNullK (hTRootCreate_spec laxest f1 q c a b v hl) (F := keep h) (by frame) ?_ ?_
        · intro f2 _ hf
          sstep hBufDestroyZero_spec f2
          intro _ f3 hf3
          sintro
          exact Triple.noneGv (by sentail) (Or.inl (hf3 hf))
        · intro r f2 _
          exact Triple.someGv rfl (by sentail)
      · unfold onNull
        sstep hTRootCreate_refuses laxest f1 q c a b v hl
        intro r f2 _
        sintro
        rename_i hr
        subst hr
        sstep hBufDestroyZero_spec f2
        intro _ f3 _
        sintro
        exact Triple.noneGv (by sentail) (Or.inr (by simp [rootKeyCreate, hl]))

/-! ### Seeds -/

/-- A seed made for packing. -/
def isSeed (x : Addr) (m : PChain) (eph : Bytes) : Asrt := ex fun (p : Addr) => ex fun (q : Addr) =>
  (x ↦ .obj .plain [some p, some q]) ∗ isChainProto p m ∗ isRaw q eph

theorem laxSig (v : Chain) : chainSigPub laxest v := ⟨fun _ _ _ _ => trivial, fun _ _ _ _ => trivial⟩

theorem hSeedFree_spec (f : Bool) (x : Addr) (v : Chain) (m : PChain) (eph : Bytes) (hw : chainWrites v false m) :
    Triple laxest f (isSeed x m eph) (hSeedFree (some x)) (fun _ _ => emp) := by
  unfold hSeedFree isSeed
  sintro
  rename_i p q
  sread field_reads x _ _ 0 _ rfl
  sstep hChainProtoFree_spec (laxSig v) f p m hw
  intro _ f1 _
  sread field_reads x _ _ 1 _ rfl
  unfold isRaw
  sstep free_bytes laxest f1 _ _ (Or.inr trivial)
  intro _ f2 _
  sgo

theorem hSeedRead_view {h : Heap} {a x : Addr} {v : Chain} {m : PChain} {eph : Bytes} {needs : Bool} (ha : Has isChain h a v)
    (hw : chainWrites v false m) :
    Reads (isSeed x m eph ∗ keep h) (hSeedRead (some a) (some x) needs) (.seed ⟨some m, some eph, some needs⟩) := by
  intro c f
  unfold hSeedRead isSeed isRaw
  sintro
  rename_i p q
  sread field_reads x _ _ 0 _ rfl
  sread hChainProtoRead_view (x := p) ha hw
  sread field_reads x _ _ 1 _ rfl
  sread loadBytes_reads _ _
  refine Triple.ret fun y hy => ?_
  exact Asrt.pure_star.2 ⟨⟨rfl, rfl⟩, by revert hy; revert y; sentail⟩

/-- What making a seed gives. -/
def seeded (v : Chain) (eph : Bytes) (r : Ptr) (f : Bool) : Asrt :=
  match r with
  | none => ⌜f = true ∨ chainBuildProto v false = none⌝ ∗ Asrt.any
  | some x => Asrt.ex fun m => ⌜chainWrites v false m ∧ (f = false → chainBuildProto v false = some m)⌝ ∗ isSeed x m eph

theorem any_of {P : Asrt} : Asrt.le P Asrt.any := fun _ _ => trivial

theorem hSeedCreate_view (f : Bool) (h : Heap) (a q : Addr) (v : Chain) (eph : Bytes) (ha : Has isChain h a v) (hq : Has isBuf h q eph) :
    Triple laxest f (keep h) (hSeedCreate (some a) (some q)) (fun r f' => keep h ∗ seeded v eph r f') := by
  have hfail : ∀ {f : Bool} {A G : Asrt}, (f = true ∨ chainBuildProto v false = none) → A = keep h ∗ G →
      Triple laxest f A (Pure.pure none) (fun r f' => keep h ∗ seeded v eph r f') := by
    intro f A G hf hA
    refine Triple.ret fun y hy => ?_
    rw [hA] at hy
    exact Asrt.star_mono_r (fun z _ => Asrt.pure_star.2 ⟨hf, trivial⟩) hy
  unfold hSeedCreate
  dsimp only
  refine Triple.onNull' (alloc_spec laxest f _) ?_ ?_
  · intro f1 _ hf
    exact hfail (Or.inl hf) (by frame)
  · intro x f1 _
    sstep hChainToProto_view laxest f1 h a v false ha (laxSig v)
    intro c f2 _
    refine Triple.onNull (hToProto_view laxest f2 h q eph hq) (by frame) ?_ ?_
    · intro f3 _ hf
      sstep free_obj laxest f3 _ _ _
      intro _ f4 hf4
      exact hfail (Or.inl (hf4 hf)) (by frame)
    · intro y f3 hf3
      cases c with
      | none =>
        dsimp only [among]
        sintro
        rename_i hf
        sstep free_obj laxest f3 _ _ _
        intro _ f4 hf4
        exact hfail (hf.imp_left fun h => hf4 (hf3 h)) (by frame)
      | some c =>
        dsimp only [among]
        sintro
        rename_i m hm
        sstep store_spec laxest f3 x _ _
        intro _ f4 hf4
        refine Triple.ret fun y hy => ?_
        dsimp only [seeded]
        refine Asrt.star_mono_r (P := keep h) (F := isSeed x m eph)
          (fun z hz => ⟨m, Asrt.pure_star.2 ⟨⟨hm.1, fun h => hm.2 (oom_back hf3 (oom_back hf4 h))⟩, hz⟩⟩) ?_
        revert hy; revert y
        unfold isSeed isRaw
        sentail

/-! ### Responses -/

/-- A response made for packing. -/
def isResp (x : Addr) (eph enc : Bytes) (m : Option PChain) : Asrt := ex fun (p : Ptr) => ex fun (q : Addr) => ex fun (d : Addr) =>
  (x ↦ .obj .plain [p, some q, some d]) ∗ optRep isChainProto p m ∗ isRaw q eph ∗ isRaw d enc

/-- The messages that a chain that may be absent may be written as. -/
def respWrites : Option Chain → Option PChain → Prop
  | none, none => True
  | some v, some m => chainWrites v false m
  | _, _ => False

theorem hResponseFree_spec (f : Bool) (x : Addr) (v : Option Chain) (m : Option PChain) (eph enc : Bytes) (hw : respWrites v m) :
    Triple laxest f (isResp x eph enc m) (hResponseFree (some x)) (fun _ _ => emp) := by
  unfold hResponseFree isResp
  sintro
  rename_i p q d
  sread field_reads x _ _ 0 _ rfl
  have hc : ∀ f, Triple laxest f (optRep isChainProto p m) (hChainProtoFree p) (fun _ _ => emp) := by
    intro f
    cases p with
    | none =>
      cases m with
      | none => exact Triple.ret fun y hy => hy
      | some m => dsimp only [optRep]; sabsurd
    | some p =>
      cases m with
      | none => dsimp only [optRep]; sabsurd
      | some m =>
        cases v with
        | none => exact hw.elim
        | some v => exact hChainProtoFree_spec (laxSig v) f p m hw
  sstep hc f
  intro _ f1 _
  sread field_reads x _ _ 1 _ rfl
  unfold isRaw
  sstep free_bytes laxest f1 q _ (Or.inr trivial)
  intro _ f2 _
  sread field_reads x _ _ 2 _ rfl
  sstep free_bytes laxest f2 d _ (Or.inr trivial)
  intro _ f3 _
  sgo

theorem hResponseRead_view {h : Heap} {a x : Addr} {v : Chain} {m : Option PChain} {eph enc : Bytes} {c : Option Chain} (ha : Has isChain h a v)
    (hc : c = none ∨ c = some v) (hw : respWrites c m) :
    Reads (isResp x eph enc m ∗ keep h) (hResponseRead (some a) (some x)) (.response ⟨some eph, some enc, m⟩) := by
  intro c' f
  unfold hResponseRead isResp isRaw
  sintro
  rename_i p q d
  sread field_reads x _ _ 0 _ rfl
  sread field_reads x _ _ 1 _ rfl
  sread loadBytes_reads q _
  sread field_reads x _ _ 2 _ rfl
  sread loadBytes_reads d _
  cases p with
  | none =>
    cases m with
    | some m => dsimp only [optRep]; sabsurd
    | none =>
      refine Triple.ret fun y hy => ?_
      exact Asrt.pure_star.2 ⟨⟨rfl, rfl⟩, by revert hy; revert y; sentail⟩
  | some p =>
    cases m with
    | none => dsimp only [optRep]; sabsurd
    | some m =>
      have hw : chainWrites v false m := by
        rcases hc with rfl | rfl
        · exact hw.elim
        · exact hw
      dsimp only [optRep]
      sread hChainProtoRead_view (x := p) ha hw
      refine Triple.ret fun y hy => ?_
      exact Asrt.pure_star.2 ⟨⟨rfl, rfl⟩, by revert hy; revert y; sentail⟩

/-- What making a response gives. -/
def responded (v : Option Chain) (eph enc : Bytes) (r : Ptr) (f : Bool) : Asrt :=
  match r with
  | none => ⌜f = true ∨ responseCreate eph enc v = none⌝ ∗ junk (f = true)
  | some x => Asrt.ex fun m => ⌜respWrites v m ∧ (f = false → responseCreate eph enc v = some ⟨some eph, some enc, m⟩)⌝ ∗ isResp x eph enc m

theorem responded_none {f : Bool} {A G : Asrt} {h : Heap} {v : Option Chain} {eph enc : Bytes}
    (hf : f = true ∨ responseCreate eph enc v = none) (hA : A = keep h ∗ G) (hG : Asrt.le G (junk (f = true))) :
    Triple laxest f A (Pure.pure none) (fun r f' => keep h ∗ responded v eph enc r f') := by
  refine Triple.ret fun y hy => ?_
  rw [hA] at hy
  exact Asrt.star_mono_r (fun z hz => Asrt.pure_star.2 ⟨hf, hG z hz⟩) hy

theorem hResponseFill_view (f : Bool) (h : Heap) (x q d : Addr) (p : Ptr) (v : Option Chain) (m : Option PChain) (eph enc : Bytes)
    (hq : Has isBuf h q eph) (hd : Has isBuf h d enc) (hw : respWrites v m)
    (he : f = false → responseCreate eph enc v = some ⟨some eph, some enc, m⟩) :
    Triple laxest f (keep h ∗ (x ↦ .obj .plain [none, none, none]) ∗ optRep isChainProto p m) (hResponseFill (some x) p (some q) (some d))
      (fun r f' => keep h ∗ responded v eph enc r f') := by
  unfold hResponseFill
  refine Triple.onNull (hToProto_view laxest f h q eph hq) (by frame) ?_ ?_
  · intro f1 _ hf
    sstep free_obj laxest f1 _ _ _
    intro _ f2 hf2
    exact responded_none (Or.inl (hf2 hf)) (by frame) (le_junk (hf2 hf))
  · intro y f1 hf1
    refine Triple.onNull (hToProto_view laxest f1 h d enc hd) (by frame) ?_ ?_
    · intro f2 _ hf
      sstep free_obj laxest f2 _ _ _
      intro _ f3 hf3
      exact responded_none (Or.inl (hf3 hf)) (by frame) (le_junk (hf3 hf))
    · intro z f2 hf2
      sstep store_spec laxest f2 x _ _
      intro _ f3 hf3
      refine Triple.ret fun y hy => ?_
      dsimp only [responded]
      refine Asrt.star_mono_r (P := keep h) (F := isResp x eph enc m)
        (fun z hz => ⟨m, Asrt.pure_star.2 ⟨⟨hw, fun h => he (oom_back hf1 (oom_back hf2 (oom_back hf3 h)))⟩, hz⟩⟩) ?_
      revert hy; revert y
      unfold isResp isRaw
      sentail

theorem hResponseCreate_view (f : Bool) (h : Heap) (q d a : Addr) (v : Chain) (eph enc : Bytes) (required : Bool)
    (hq : Has isBuf h q eph) (hd : Has isBuf h d enc) (ha : Has isChain h a v) :
    Triple laxest f (keep h) (hResponseCreate (some q) (some d) (if required then some a else none))
      (fun r f' => keep h ∗ responded (if required then some v else none) eph enc r f') := by
  unfold hResponseCreate
  dsimp only
  refine Triple.onNull' (alloc_spec laxest f _) ?_ ?_
  · intro f1 _ hf
    exact responded_none (Or.inl hf) (by frame) (le_junk hf)
  · intro x f1 hf1
    cases required with
    | false =>
      have := hResponseFill_view f1 h x q d none none none eph enc hq hd trivial (fun _ => rfl)
      refine Triple.conseq this ?_ (fun _ _ _ _ h => h)
      dsimp only [optRep]
      sentail
    | true =>
      refine Triple.onNullAm (hChainToProto_view laxest f1 h a v false ha (laxSig v)) (by frame) ?_ ?_
      · intro f2 _ hf
        sstep free_obj laxest f2 _ _ _
        intro _ f3 hf3
        exact responded_none (hf.imp hf3 fun h => by simp [responseCreate, h]) (by frame) junk_emp
      · intro c f2 m _ hw he
        have := hResponseFill_view f2 h x q d (some c) (some v) (some m) eph enc hq hd hw (fun h => by simp [responseCreate, he h])
        refine Triple.conseq this ?_ (fun _ _ _ _ h => h)
        dsimp only [optRep]
        sentail

/-! ### Packets -/

theorem hToPacket_spec (f : Bool) (K : Asrt) (read : H PHandshake) (m : PHandshake) (hr : Reads K read m) :
    Triple laxest f K (hToPacket read) (fun r f' => K ∗ gives isTPkt (handshakeToPacket m) r f') := by
  unfold hToPacket handshakeToPacket
  sread hr
  refine Triple.onNullG (P' := emp) (hPack_spec laxest f _) (F := K) (by frame) ?_ ?_
  · intro f1 _ hf
    exact Triple.noneGv (by sentail) (hf.imp_right fun h => by rw [h]; rfl)
  · intro q f1 b _ hb
    rw [hb]
    refine Triple.onNullK (hTPktCreate_spec laxest f1 _ q b) (by frame) ?_ ?_
    · intro f2 _ hf
      sstep hBufDestroy_spec (Or.inr trivial) f2
      intro _ f3 hf3
      sintro
      exact Triple.noneGv (by sentail) (Or.inl (hf3 hf))
    · intro x f2 _
      exact Triple.someGv rfl (by sentail)

/-- What reading the message of a packet gives. -/
def fromPkt (p : Packet) (r : Option (PHandshake × Ptr)) (f : Bool) : Asrt :=
  match r with
  | none => ⌜f = true ∨ handshakeFromPacket p = none⌝
  | some (m, x) => Asrt.ex fun (a : Addr) => ⌜handshakeFromPacket p = some m ∧ x = some a⌝ ∗ isProto a m.parts

theorem tpkt_body_view {h : Heap} {a : Addr} {v : Packet} (ha : Has isTPkt h a v) :
    ∃ q, Reads (keep h) (field (some a) 0) (some q) ∧ Has isBuf h q v.body := by
  obtain ⟨hd, b, m, n⟩ := v
  sview ha isTPkt
  exact ⟨_, field_view (by assumption) rfl, by assumption⟩

theorem fromPkt_none {f : Bool} {h : Heap} {p : Packet} (hf : f = true ∨ handshakeFromPacket p = none) :
    Triple laxest f (keep h) (Pure.pure none) (fun r f' => keep h ∗ fromPkt p r f') := by
  refine Triple.ret fun y hy => ?_
  rw [Asrt.star_comm]
  exact Asrt.pure_star.2 ⟨hf, hy⟩

theorem hFromPacket_view (f : Bool) (h : Heap) (a : Addr) (p : Packet) (ha : Has isTPkt h a p) :
    Triple laxest f (keep h) (hFromPacket (some a)) (fun r f' => keep h ∗ fromPkt p r f') := by
  unfold hFromPacket
  sread tpkt_hdr ha
  dsimp only
  cases hb : p.hdr.body with
  | data s => exact fromPkt_none (Or.inr (by simp [handshakeFromPacket, hb]))
  | handshake s t =>
    obtain ⟨q, r1, hq⟩ := tpkt_body_view ha
    dsimp only
    sread r1
    sread readBuf_view hq
    have e : handshakeFromPacket p = (fieldsDec p.body).bind PHandshake.unpack := by simp [handshakeFromPacket, hb]
    cases hm : (fieldsDec p.body).bind PHandshake.unpack with
    | none => exact fromPkt_none (Or.inr (by rw [e, hm]))
    | some m =>
      dsimp only
      sstep hUnpack_spec laxest f m.parts (fun _ _ => trivial)
      intro x f1 _
      cases x with
      | none =>
        dsimp only [fresh]
        sintro
        rename_i hf
        refine Triple.conseq (fromPkt_none (p := p) (Or.inl hf)) ?_ (fun _ _ _ _ h => h)
        sentail
      | some x =>
        dsimp only [fresh]
        refine Triple.ret fun y hy => ?_
        dsimp only [fromPkt]
        refine Asrt.star_mono_r (P := keep h) (F := isProto x m.parts) (fun z hz => ⟨x, Asrt.pure_star.2 ⟨⟨by rw [e, hm], rfl⟩, hz⟩⟩) ?_
        revert hy; revert y; sentail

end Wickr
