import Verif.Model.HeapProto
import Verif.Lemmas.Among
import Verif.Lemmas.SepExchange
import Verif.Lemmas.SepCtx
/-
Writing identities, chains, ephemeral keys, nodes, storage keys and contexts.
-/
namespace Wickr
open Asrt Spec

/-- A block of bytes. -/
def isRaw (a : Addr) (b : Bytes) : Asrt := a ↦ .bytes b

theorem hSigToProto_view (c : Rules) (f : Bool) (h : Heap) (a : Addr) (s : EcdsaResult) (hs : Has isSig h a s)
    (hp : ∀ b, sigWrites s b → c.pub b) :
    Triple c f (keep h) (hSigToProto (some a))
      (fun r f' => keep h ∗ among isRaw (sigWrites s) (ecdsaSerialize s) r f') := by
  unfold hSigToProto
  refine Triple.onNullGL (hSigSerialize_view c f h a s hs) (F := emp) (by frame) ?_ ?_
  · intro f1 _ hf
    exact Triple.noneAm (by sentail) hf
  · intro q f1 v v' _ e hl hx
    have hw : sigWrites s v' := ⟨v, e, hl⟩
    have hpv := hp v' hw
    have hv : f1 = false → ecdsaSerialize s = some v' := fun h => by rw [e, hx h]
    have hb : Triple c f1 (isBuf q v') (hToProto (some q)) (fun r f' => isBuf q v' ∗ fresh Asrt.cell (.bytes v') r f') :=
      Triple.owned fun z hz => hToProto_view c f1 z q v' (has_of hz)
    sstep hb
    intro r f2 hf2
    cases r with
    | none =>
      dsimp only [fresh]
      sintro
      rename_i hf
      sstep hBufDestroy_spec (Or.inr hpv) f2
      intro _ f3 hf3
      sintro
      exact Triple.noneAm (by sentail) (Or.inl (hf3 hf))
    | some r =>
      dsimp only [fresh]
      sstep hBufDestroy_spec (Or.inr hpv) f2
      intro _ f3 hf3
      sintro
      refine Triple.someAm (R := isRaw) hw (fun h => hv ?_) (by unfold isRaw; sentail)
      cases f1 <;> simp_all

/-- A structure that owns the bytes of a signature. -/
def isSigned (a : Addr) (sb : Option Bytes) : Asrt := ex fun (q : Ptr) => (a ↦ .obj .plain [q]) ∗ optRep isRaw q sb

theorem hSignedProtoFree_spec (c : Rules) (f : Bool) (a : Addr) (sb : Option Bytes) (hp : ∀ b, sb = some b → c.pub b) :
    Triple c f (isSigned a sb) (hSignedProtoFree (some a)) (fun _ _ => emp) := by
  unfold hSignedProtoFree
  sopen isSigned
  rename_i q
  sread field_reads a _ _ 0 _ rfl
  cases q with
  | none =>
    cases sb with
    | none =>
      dsimp only [optRep]
      refine Triple.pureBind ?_
      exact Triple.conseq (free_obj c f a _ _) (by sentail) (fun _ _ _ _ h => h)
    | some b =>
      dsimp only [optRep]
      sintro
      rename_i hh
      exact hh.elim
  | some q =>
    cases sb with
    | none =>
      dsimp only [optRep]
      sintro
      rename_i hh
      exact hh.elim
    | some b =>
      dsimp only [optRep, isRaw]
      sstep free_bytes c f _ _ (Or.inr (hp b rfl))
      intro _ f1 _
      sintro
      exact Triple.conseq (free_obj c f1 a _ _) (by sentail) (fun _ _ _ _ h => h)

/-- The structure of an identity. -/
def isIdProto (a : Addr) (m : PIdentity) : Asrt := isSigned a m.signature

/-- The public or the private part of a key. -/
def keyPart (isPrivate : Bool) (k : EcKey) : Option Bytes := if isPrivate then k.pri else some k.pub

theorem keyPart_view {h : Heap} {a : Addr} {k : EcKey} (isPrivate : Bool) (hk : Has isKey h a k) :
    ∃ d, Reads (keep h) (field (some a) (if isPrivate then 1 else 0)) d ∧ HasOpt isBuf h d (keyPart isPrivate k) := by
  sview hk isKey
  rename_i q p e hb ho
  cases isPrivate with
  | false => exact ⟨_, field_view e rfl, hb⟩
  | true => exact ⟨_, field_view e rfl, ho⟩

theorem isSigned_new {x : Addr} {P : Asrt} : ∀ y, ((x ↦ .obj .plain [none]) ∗ P) y → (P ∗ isSigned x none) y := by
  intro y hy
  rw [Asrt.star_comm]
  refine Asrt.le_star (fun z hz => ?_) (Asrt.le_refl P) y hy
  refine ⟨none, ?_⟩
  dsimp only [optRep]
  rwa [Asrt.star_emp]

theorem isSigned_put {x q : Addr} {b : Bytes} {P : Asrt} :
    ∀ y, ((x ↦ .obj .plain [some q]) ∗ isRaw q b ∗ P) y → (P ∗ isSigned x (some b)) y := by
  intro y hy
  rw [← Asrt.star_assoc] at hy
  rw [Asrt.star_comm]
  exact Asrt.le_star (fun z hz => ⟨some q, hz⟩) (Asrt.le_refl P) y hy

theorem hIdToProto_view (c : Rules) (f : Bool) (h : Heap) (a : Addr) (i : Identity) (isPrivate : Bool) (hv : Has isId h a i)
    (hp : ∀ s, i.sig = some s → ∀ b, sigWrites s b → c.pub b) :
    Triple c f (keep h) (hIdToProto (some a) isPrivate)
      (fun r f' => keep h ∗ among isIdProto (idWrites i isPrivate) (identityBuildProto i isPrivate) r f') := by
  unfold hIdToProto
  obtain ⟨t, i, k, sg⟩ := i
  sview hv isId
  rename_i q kq p hl e hi hk hs
  have hkp := keyPart_view isPrivate hk
  refine Triple.onNull' (alloc_spec c f _) ?_ ?_
  · intro f1 _ hf
    exact Triple.noneAm (by sentail) (Or.inl hf)
  · intro x f1 _
    sread field_view e rfl
    sread readBuf_view hi
    sread field_view e rfl
    obtain ⟨d, hd, hdo⟩ := hkp
    sread hd
    have stop : ∀ f2, f2 = true ∨ identityBuildProto ⟨t, i, k, sg⟩ isPrivate = none →
        Triple c f2 ((x ↦ .obj .plain [none]) ∗ keep h) (do hSignedProtoFree (some x); Pure.pure none)
          (fun r f' => keep h ∗ among isIdProto (idWrites ⟨t, i, k, sg⟩ isPrivate) (identityBuildProto ⟨t, i, k, sg⟩ isPrivate) r f') := by
      intro f2 hf
      refine Triple.conseq ?_ isSigned_new (fun _ _ _ _ h => h)
      sstep hSignedProtoFree_spec c f2 x none (by simp)
      intro _ f3 hf3
      exact Triple.noneAm (by sentail) (hf.imp_left hf3)
    have eb : identityBuildProto ⟨t, i, k, sg⟩ isPrivate = (keyPart isPrivate k).bind fun kb => match t with
        | .root => some ⟨some i, some kb, none, some IdType.root.protoId, some isPrivate⟩
        | .node => (sg.bind ecdsaSerialize).map fun s => ⟨some i, some kb, some s, some IdType.node.protoId, some isPrivate⟩ := by
      unfold identityBuildProto keyPart
      dsimp only
      cases (if isPrivate = true then k.pri else some k.pub) <;> rfl
    cases d with
    | none =>
      cases hkb : keyPart isPrivate k with
      | some kb => rw [hkb] at hdo; exact hdo.elim
      | none =>
        refine stop f1 (Or.inr ?_)
        rw [eb, hkb]
        rfl
    | some d =>
      cases hkb : keyPart isPrivate k with
      | none => rw [hkb] at hdo; exact hdo.elim
      | some kb =>
        rw [hkb, Option.bind_some] at eb
        sread scal_view e
        cases t with
        | root =>
          dsimp only at eb ⊢
          refine Triple.someAm (R := isIdProto) ⟨_, eb, Or.inl rfl⟩ (fun _ => eb) ?_
          exact isSigned_new
        | node =>
          dsimp only at eb ⊢
          sread field_view e rfl
          cases p with
          | none =>
            cases sg with
            | some s => exact hs.elim
            | none =>
              unfold hSigToProto hSigSerialize
              exact stop f1 (Or.inr eb)
          | some p =>
            cases sg with
            | none => exact hs.elim
            | some s =>
              refine Triple.onNullAm (hSigToProto_view c f1 h p s hs (hp s rfl)) (F := x ↦ .obj .plain [none]) (by frame) ?_ ?_
              · intro f2 _ hf
                refine Triple.conseq (stop f2 (hf.imp_right fun h => ?_)) (by sentail) (fun _ _ _ _ h => h)
                rw [eb, Option.bind_some, h]
                rfl
              · intro r f2 v _ hw hx
                sstep store_spec c f2 x _ _
                intro _ f3 hf3
                obtain ⟨b₀, hb₀, hb⟩ := hw
                rw [Option.bind_some, hb₀, Option.map_some] at eb
                refine Triple.someAm (R := isIdProto) (v := ⟨some i, some kb, some v, some IdType.node.protoId, some isPrivate⟩)
                  ⟨_, eb, ?_⟩ (fun hf => ?_) ?_
                · rcases hb with rfl | hb
                  · exact Or.inl rfl
                  · exact Or.inr ⟨s, v, rfl, rfl, hb, rfl⟩
                · have : f2 = false := by cases f2 <;> simp_all
                  have := hx this
                  rw [hb₀] at this
                  cases this
                  exact eb
                · refine fun y hy => isSigned_put (q := r) y ?_
                  revert y
                  sentail

theorem idWrites_shape {i : Identity} {isPrivate : Bool} {m : PIdentity} (hw : idWrites i isPrivate m) :
    ∃ kb, keyPart isPrivate i.key = some kb ∧ m = ⟨some i.identifier, some kb, m.signature, some i.type.protoId, some isPrivate⟩ ∧
      ∀ b, m.signature = some b → ∃ s, i.sig = some s ∧ sigWrites s b := by
  obtain ⟨m₀, hm, hw⟩ := hw
  obtain ⟨t, i, k, sg⟩ := i
  have eb : identityBuildProto ⟨t, i, k, sg⟩ isPrivate = (keyPart isPrivate k).bind fun kb => match t with
      | .root => some ⟨some i, some kb, none, some IdType.root.protoId, some isPrivate⟩
      | .node => (sg.bind ecdsaSerialize).map fun s => ⟨some i, some kb, some s, some IdType.node.protoId, some isPrivate⟩ := by
    unfold identityBuildProto keyPart
    dsimp only
    cases (if isPrivate = true then k.pri else some k.pub) <;> rfl
  rw [eb, Option.bind_eq_some_iff] at hm
  obtain ⟨kb, hkb, hm⟩ := hm
  refine ⟨kb, hkb, ?_⟩
  cases t with
  | root =>
    cases hm
    rcases hw with rfl | ⟨s, b, h, -⟩
    · exact ⟨rfl, fun b hb => (nomatch hb)⟩
    · exact nomatch h
  | node =>
    simp only [Option.map_eq_some_iff, Option.bind_eq_some_iff] at hm
    obtain ⟨b₀, ⟨s, hs, hb₀⟩, rfl⟩ := hm
    rcases hw with rfl | ⟨s', b, -, hs', hb, rfl⟩
    · refine ⟨rfl, fun b hb => ⟨s, hs, b₀, hb₀, ?_⟩⟩
      cases hb
      exact Or.inl rfl
    · refine ⟨rfl, fun b' hb' => ⟨s, hs, b₀, hb₀, ?_⟩⟩
      cases hb'
      dsimp only at hs'
      rw [hs] at hs'
      cases hs'
      exact Or.inr hb

theorem readSigned {x : Addr} {sb : Option Bytes} {V : Type} {v : V} {k : Ptr → H V} {P : Asrt}
    (hn : sb = none → Reads ((x ↦ .obj .plain [none]) ∗ P) (k none) v)
    (hs : ∀ b q, sb = some b → Reads ((x ↦ .obj .plain [some q]) ∗ isRaw q b ∗ P) (k (some q)) v) :
    Reads (isSigned x sb ∗ P) (field (some x) 0 >>= k) v := by
  intro c f
  refine Triple.exAt rfl fun q => ?_
  sread field_reads x _ _ 0 q rfl
  cases q with
  | none =>
    cases sb with
    | some b =>
      dsimp only [optRep]
      sintro
      rename_i hh
      exact hh.elim
    | none =>
      dsimp only [optRep]
      refine Triple.conseq (hn rfl c f) (by sentail) fun r f' y _ hy => ?_
      refine Asrt.star_mono_r (fun z hz => ?_) hy
      rw [Asrt.star_comm]
      exact isSigned_new z hz
  | some q =>
    cases sb with
    | none =>
      dsimp only [optRep]
      sintro
      rename_i hh
      exact hh.elim
    | some b =>
      dsimp only [optRep]
      refine Triple.conseq (hs b q rfl c f) (by sentail) fun r f' y _ hy => ?_
      refine Asrt.star_mono_r (fun z hz => ?_) hy
      rw [Asrt.star_comm]
      exact isSigned_put z hz

theorem hIdProtoRead_view {h : Heap} {a x : Addr} {i : Identity} {isPrivate : Bool} {m : PIdentity} (hv : Has isId h a i)
    (hw : idWrites i isPrivate m) : Reads (isIdProto x m ∗ keep h) (hIdProtoRead (some a) (some x) isPrivate) m := by
  obtain ⟨kb, hkb, hm, -⟩ := idWrites_shape hw
  obtain ⟨t, i, k, sg⟩ := i
  sview hv isId
  rename_i q kq p hl e hi hk hs
  obtain ⟨d, hd, hdo⟩ := keyPart_view isPrivate hk
  rw [hkb] at hdo
  intro c f
  unfold hIdProtoRead
  sread field_view e rfl
  sread readBuf_view hi
  sread field_view e rfl
  sread hd
  cases d with
  | none => exact hdo.elim
  | some d =>
    sread readBuf_view hdo
    sread scal_view e
    dsimp only
    unfold isIdProto
    refine readSigned ?_ ?_ c f
    · intro hm0
      rw [hm, hm0]
      exact fun c f => Triple.ret fun y hy => Asrt.pure_star.2 ⟨⟨rfl, rfl⟩, hy⟩
    · intro b q hmb
      rw [hm, hmb]
      intro c f
      unfold isRaw
      sread loadBytes_reads q b
      exact Triple.ret fun y hy => Asrt.pure_star.2 ⟨⟨rfl, rfl⟩, hy⟩

/-- Making a structure, packing it and releasing it. -/
theorem packProto {M : Type} {c : Rules} {f : Bool} {h : Heap} {R : Addr → M → Asrt} {W : M → Prop} {x₀ : Option M}
    {pack : M → List Field} {to : H Ptr} {rd : Ptr → H M} {fr : Ptr → H Unit}
    (hto : Triple c f (keep h) to (fun r f' => keep h ∗ among R W x₀ r f'))
    (hrd : ∀ x m, W m → Reads (R x m ∗ keep h) (rd (some x)) m)
    (hfr : ∀ f x m, W m → Triple c f (R x m) (fr (some x)) (fun _ _ => emp)) :
    Triple c f (keep h)
      (onNull to (Pure.pure none) fun x => do
        let m ← rd x
        let o ← hPack (pack m)
        fr x
        Pure.pure o)
      (fun r f' => keep h ∗ among isBuf (packsOf W pack) (x₀.bind fun m => protoPack (pack m)) r f') := by
  refine Triple.onNullAm hto (F := emp) (by frame) ?_ ?_
  · intro f1 _ hf
    exact Triple.noneAm (by sentail) (hf.imp_right fun h => by rw [h]; rfl)
  · intro x f1 m _ hw hx
    sread hrd x m hw
    sstep hPack_spec c f1 (pack m)
    intro r f2 hf2
    cases r with
    | none =>
      dsimp only [gives]
      sintro
      rename_i hp
      sstep hfr f2 x m hw
      intro _ f3 hf3
      refine Triple.noneAm (by sentail) ?_
      cases f3 with
      | true => exact Or.inl rfl
      | false =>
        right
        have : f2 = false := by cases f2 <;> simp_all
        subst this
        have : f1 = false := by cases f1 <;> simp_all
        rw [hx this, Option.bind_some]
        simpa using hp
    | some r =>
      dsimp only [gives]
      sintro
      rename_i b hp
      sstep hfr f2 x m hw
      intro _ f3 hf3
      refine Triple.someAm (v := b) ⟨m, hw, hp⟩ (fun hf => ?_) (by sentail)
      subst hf
      have : f2 = false := by cases f2 <;> simp_all
      subst this
      have : f1 = false := by cases f1 <;> simp_all
      rw [hx this, Option.bind_some, hp]

theorem packProtoA {M : Type} {c : Rules} {f : Bool} {h : Heap} {R : Addr → M → Asrt} {W : M → Prop} {x₀ : Option M}
    {pack : M → List Field} {to : H Ptr} {rd : Ptr → H M} {fr : Ptr → H Unit}
    (hto : Triple c f (keep h) to (fun r f' => keep h ∗ amongA R W x₀ r f'))
    (hrd : ∀ x m, W m → Reads (R x m ∗ keep h) (rd (some x)) m)
    (hfr : ∀ f x m, W m → Triple c f (R x m) (fr (some x)) (fun _ _ => emp)) :
    Triple c f (keep h)
      (onNull to (Pure.pure none) fun x => do
        let m ← rd x
        let o ← hPack (pack m)
        fr x
        Pure.pure o)
      (fun r f' => keep h ∗ amongA isBuf (packsOf W pack) (x₀.bind fun m => protoPack (pack m)) r f') := by
  refine Triple.onNullAmA hto (F := emp) (by frame) ?_ ?_
  · intro f1 _ hf
    exact Triple.noneAmA (F := spill f1) (by sentail) (Asrt.le_refl _) (hf.imp_right fun h => by rw [h]; rfl)
  · intro x f1 m _ hw hx
    sread hrd x m hw
    sstep hPack_spec c f1 (pack m)
    intro r f2 hf2
    cases r with
    | none =>
      dsimp only [gives]
      sintro
      rename_i hp
      sstep hfr f2 x m hw
      intro _ f3 hf3
      refine Triple.noneAmA (F := spill f1) (by sentail) (Asrt.spill_mono fun h => hf3 (hf2 h)) ?_
      cases f3 with
      | true => exact Or.inl rfl
      | false =>
        right
        have : f2 = false := by cases f2 <;> simp_all
        subst this
        have : f1 = false := by cases f1 <;> simp_all
        rw [hx this, Option.bind_some]
        simpa using hp
    | some r =>
      dsimp only [gives]
      sintro
      rename_i b hp
      sstep hfr f2 x m hw
      intro _ f3 hf3
      refine Triple.someAmA (v := b) (F := spill f1) ⟨m, hw, hp⟩ (fun hf => ?_) (by sentail) (Asrt.spill_mono fun h => hf3 (hf2 h))
      subst hf
      have : f2 = false := by cases f2 <;> simp_all
      subst this
      have : f1 = false := by cases f1 <;> simp_all
      rw [hx this, Option.bind_some, hp]

theorem hIdProtoFree_spec {c : Rules} {i : Identity} {isPrivate : Bool} (hp : ∀ s, i.sig = some s → ∀ b, sigWrites s b → c.pub b)
    (f : Bool) (x : Addr) (m : PIdentity) (hw : idWrites i isPrivate m) :
    Triple c f (isIdProto x m) (hSignedProtoFree (some x)) (fun _ _ => emp) := by
  obtain ⟨kb, -, -, hb⟩ := idWrites_shape hw
  exact hSignedProtoFree_spec c f x _ fun b h => by
    obtain ⟨s, hs, hw⟩ := hb b h
    exact hp s hs b hw

theorem hIdSerialize_view (c : Rules) (f : Bool) (h : Heap) (a : Addr) (i : Identity) (hv : Has isId h a i)
    (hp : ∀ s, i.sig = some s → ∀ b, sigWrites s b → c.pub b) :
    Triple c f (keep h) (hIdSerialize (some a))
      (fun r f' => keep h ∗ among isBuf (packsOf (idWrites i false) PIdentity.pack) (identitySerialize i) r f') :=
  packProto (hIdToProto_view c f h a i false hv hp) (fun _ _ hw => hIdProtoRead_view hv hw) (hIdProtoFree_spec hp)

/-! ### Chains -/

/-- The structure of a chain. -/
def isChainProto (a : Addr) (m : PChain) : Asrt := ex fun (r : Addr) => ex fun (n : Addr) => ex fun (rm : PIdentity) =>
  ex fun (nm : PIdentity) => ⌜m = ⟨some rm, some nm⟩⌝ ∗ (a ↦ .obj .plain [some r, some n]) ∗ isIdProto r rm ∗ isIdProto n nm

/-- What writing a chain may release. -/
def chainSigPub (c : Rules) (v : Chain) : Prop :=
  (∀ s, v.root.sig = some s → ∀ b, sigWrites s b → c.pub b) ∧ ∀ s, v.node.sig = some s → ∀ b, sigWrites s b → c.pub b

theorem hChainToProto_view (c : Rules) (f : Bool) (h : Heap) (a : Addr) (v : Chain) (isPrivate : Bool) (hv : Has isChain h a v)
    (hp : chainSigPub c v) :
    Triple c f (keep h) (hChainToProto (some a) isPrivate)
      (fun r f' => keep h ∗ among isChainProto (chainWrites v isPrivate) (chainBuildProto v isPrivate) r f') := by
  unfold hChainToProto
  sview hv isChain
  rename_i rq nq p e hr hn _
  sread field_view e rfl
  refine Triple.onNullAm (hIdToProto_view c f h rq _ isPrivate hr hp.1) (F := emp) (by frame) ?_ ?_
  · intro f1 _ hf
    exact Triple.noneAm (by sentail) (hf.imp_right fun h => by unfold chainBuildProto; rw [h]; rfl)
  · intro r f1 rm hf1 hwr hxr
    sread field_view e rfl
    refine Triple.onNullAm (hIdToProto_view c f1 h nq _ isPrivate hn hp.2) (F := isIdProto r rm) (by frame) ?_ ?_
    · intro f2 hf2 hf
      sstep hIdProtoFree_spec hp.1 f2 r rm hwr
      intro _ f3 hf3
      exact Triple.noneAm (by sentail) (hf.imp hf3 fun h => by unfold chainBuildProto; rw [h]; cases identityBuildProto v.root isPrivate <;> rfl)
    · intro n f2 nm hf2 hwn hxn
      refine Triple.onNull' (alloc_spec c f2 _) ?_ ?_
      · intro f3 _ hf
        sstep hIdProtoFree_spec hp.1 f3 r rm hwr
        intro _ f4 hf4
        sstep hIdProtoFree_spec hp.2 f4 n nm hwn
        intro _ f5 hf5
        exact Triple.noneAm (by sentail) (Or.inl (hf5 (hf4 hf)))
      · intro x f3 hf3
        sstep store_spec c f3 x _ _
        intro _ f4 hf4
        refine Triple.someAm (v := ⟨some rm, some nm⟩) ⟨rm, nm, hwr, hwn, rfl⟩ (fun hf => ?_) (fun y hy => ?_)
        · have h3 := oom_back hf4 hf
          have h2 := oom_back hf3 h3
          have h1 := oom_back hf2 h2
          unfold chainBuildProto
          rw [hxr h1, hxn h2]
          rfl
        · revert hy
          revert y
          unfold isChainProto
          sentail

theorem hChainProtoRead_view {h : Heap} {a x : Addr} {v : Chain} {isPrivate : Bool} {m : PChain} (hv : Has isChain h a v)
    (hw : chainWrites v isPrivate m) : Reads (isChainProto x m ∗ keep h) (hChainProtoRead (some a) (some x) isPrivate) m := by
  obtain ⟨rm, nm, hwr, hwn, rfl⟩ := hw
  sview hv isChain
  rename_i rq nq p e hr hn _
  intro c f
  unfold hChainProtoRead
  sopen isChainProto
  rename_i r n rm' nm' hm
  cases hm
  sread field_view e rfl
  sread field_reads x _ _ 0 _ rfl
  sread hIdProtoRead_view hr hwr
  sread field_view e rfl
  sread field_reads x _ _ 1 _ rfl
  sread hIdProtoRead_view hn hwn
  refine Triple.ret fun y hy => Asrt.pure_star.2 ⟨⟨rfl, rfl⟩, ?_⟩
  revert hy
  revert y
  sentail

theorem hChainProtoFree_spec {c : Rules} {v : Chain} {isPrivate : Bool} (hp : chainSigPub c v)
    (f : Bool) (x : Addr) (m : PChain) (hw : chainWrites v isPrivate m) :
    Triple c f (isChainProto x m) (hChainProtoFree (some x)) (fun _ _ => emp) := by
  obtain ⟨rm, nm, hwr, hwn, rfl⟩ := hw
  unfold hChainProtoFree
  sopen isChainProto
  rename_i r n rm' nm' hm
  cases hm
  sread field_reads x _ _ 1 _ rfl
  sstep hIdProtoFree_spec hp.2 f n nm hwn
  intro _ f1 _
  sread field_reads x _ _ 0 _ rfl
  sstep hIdProtoFree_spec hp.1 f1 r rm hwr
  intro _ f2 _
  exact Triple.conseq (free_obj c f2 x _ _) (by sentail) (fun _ _ _ _ h => h)

theorem hChainSerialize_view (c : Rules) (f : Bool) (h : Heap) (a : Addr) (v : Chain) (isPrivate : Bool) (hv : Has isChain h a v)
    (hp : chainSigPub c v) :
    Triple c f (keep h) (hChainSerialize (some a) isPrivate)
      (fun r f' => keep h ∗ among isBuf (packsOf (chainWrites v isPrivate) PChain.pack)
        ((chainBuildProto v isPrivate).bind fun m => protoPack m.pack) r f') :=
  packProto (hChainToProto_view c f h a v isPrivate hv hp) (fun _ _ hw => hChainProtoRead_view hv hw) (hChainProtoFree_spec hp)

/-! ### Ephemeral keys -/

/-- The structure of an ephemeral key pair. -/
def isEphProto (a : Addr) (m : PEphKey) : Asrt := isSigned a m.keySig

theorem ephWrites_shape {e : EphKey} {m : PEphKey} (hw : ephWrites e m) :
    m = ⟨some e.identifier, some e.key.pub, m.keySig⟩ ∧ ∀ b, m.keySig = some b → ∃ s, e.sig = some s ∧ sigWrites s b := by
  obtain ⟨m₀, hm, hw⟩ := hw
  obtain ⟨n, k, sg⟩ := e
  unfold ephToProto at hm
  dsimp only at hm
  cases sg with
  | none =>
    cases hm
    rcases hw with rfl | ⟨s, b, h, -⟩
    · exact ⟨rfl, fun b hb => (nomatch hb)⟩
    · exact nomatch h
  | some s =>
    simp only [Option.map_eq_some_iff] at hm
    obtain ⟨b₀, hb₀, rfl⟩ := hm
    rcases hw with rfl | ⟨s', b, hs', hb, rfl⟩
    · refine ⟨rfl, fun b hb => ⟨s, rfl, b₀, hb₀, ?_⟩⟩
      cases hb
      exact Or.inl rfl
    · refine ⟨rfl, fun b' hb' => ⟨s, rfl, b₀, hb₀, ?_⟩⟩
      cases hb'
      cases hs'
      exact Or.inr hb

theorem hEphToProto_view (c : Rules) (f : Bool) (h : Heap) (a : Addr) (v : EphKey) (hv : Has isEph h a v)
    (hp : ∀ s, v.sig = some s → ∀ b, sigWrites s b → c.pub b) :
    Triple c f (keep h) (hEphToProto (some a)) (fun r f' => keep h ∗ among isEphProto (ephWrites v) (ephToProto v) r f') := by
  unfold hEphToProto
  obtain ⟨n, ⟨cv, pub, pri⟩, sg⟩ := v
  sview hv isEph
  rename_i kq p e hk hs
  sview hk isKey
  rename_i bq pq ek hb _
  sread field_view e rfl
  refine Triple.onNull' (alloc_spec c f _) ?_ ?_
  · intro f1 _ hf
    exact Triple.noneAm (by sentail) (Or.inl hf)
  · intro x f1 _
    sread field_view ek rfl
    sread readBuf_view hb
    sread field_view e rfl
    cases p with
    | none =>
      cases sg with
      | some s => exact hs.elim
      | none => exact Triple.someAm (R := isEphProto) ⟨_, rfl, Or.inl rfl⟩ (fun _ => rfl) isSigned_new
    | some p =>
      cases sg with
      | none => exact hs.elim
      | some s =>
        refine Triple.onNullAm (hSigToProto_view c f1 h p s hs (hp s rfl)) (F := x ↦ .obj .plain [none]) (by frame) ?_ ?_
        · intro f2 _ hf
          refine Triple.conseq (P := keep h ∗ isSigned x none) ?_ (fun y hy => isSigned_new y (by rwa [Asrt.star_comm])) (fun _ _ _ _ h => h)
          sstep hSignedProtoFree_spec c f2 x none (by simp)
          intro _ f3 hf3
          exact Triple.noneAm (by sentail) (hf.imp hf3 fun h => by unfold ephToProto; dsimp only; rw [h]; rfl)
        · intro r f2 b _ hw hx
          sstep store_spec c f2 x _ _
          intro _ f3 hf3
          obtain ⟨b₀, hb₀, hb⟩ := hw
          have eb : ephToProto ⟨n, ⟨cv, pub, pri⟩, some s⟩ = some ⟨some n, some pub, some b₀⟩ := by
            unfold ephToProto
            dsimp only
            rw [hb₀]
            rfl
          refine Triple.someAm (R := isEphProto) (v := ⟨some n, some pub, some b⟩) ⟨_, eb, ?_⟩ (fun hf => ?_) ?_
          · rcases hb with rfl | hb
            · exact Or.inl rfl
            · exact Or.inr ⟨s, b, rfl, hb, rfl⟩
          · have := hx (oom_back hf3 hf)
            rw [hb₀] at this
            cases this
            exact eb
          · refine fun y hy => isSigned_put (q := r) y ?_
            revert y
            sentail

theorem hEphProtoRead_view {h : Heap} {a x : Addr} {v : EphKey} {m : PEphKey} (hv : Has isEph h a v) (hw : ephWrites v m) :
    Reads (isEphProto x m ∗ keep h) (hEphProtoRead (some a) (some x)) m := by
  obtain ⟨hm, -⟩ := ephWrites_shape hw
  obtain ⟨n, ⟨cv, pub, pri⟩, sg⟩ := v
  sview hv isEph
  rename_i kq p e hk hs
  sview hk isKey
  rename_i bq pq ek hb _
  intro c f
  unfold hEphProtoRead
  sread scal_view e
  dsimp only
  sread field_view e rfl
  sread field_view ek rfl
  sread readBuf_view hb
  unfold isEphProto
  refine readSigned ?_ ?_ c f
  · intro hm0
    rw [hm, hm0]
    exact fun c f => Triple.ret fun y hy => Asrt.pure_star.2 ⟨⟨rfl, rfl⟩, hy⟩
  · intro b q hmb
    rw [hm, hmb]
    intro c f
    unfold isRaw
    sread loadBytes_reads q b
    exact Triple.ret fun y hy => Asrt.pure_star.2 ⟨⟨rfl, rfl⟩, hy⟩

theorem hEphProtoFree_spec {c : Rules} {v : EphKey} (hp : ∀ s, v.sig = some s → ∀ b, sigWrites s b → c.pub b)
    (f : Bool) (x : Addr) (m : PEphKey) (hw : ephWrites v m) :
    Triple c f (isEphProto x m) (hSignedProtoFree (some x)) (fun _ _ => emp) := by
  obtain ⟨-, hb⟩ := ephWrites_shape hw
  exact hSignedProtoFree_spec c f x _ fun b h => by
    obtain ⟨s, hs, hw⟩ := hb b h
    exact hp s hs b hw

theorem hEphSerialize_view (c : Rules) (f : Bool) (h : Heap) (a : Addr) (v : EphKey) (hv : Has isEph h a v)
    (hp : ∀ s, v.sig = some s → ∀ b, sigWrites s b → c.pub b) :
    Triple c f (keep h) (hEphSerialize (some a))
      (fun r f' => keep h ∗ among isBuf (packsOf (ephWrites v) PEphKey.pack) (ephSerialize v) r f') :=
  packProto (hEphToProto_view c f h a v hv hp) (fun _ _ hw => hEphProtoRead_view hv hw) (hEphProtoFree_spec hp)

/-! ### Nodes -/

/-- The structure of a node. -/
def isNodeProto (a : Addr) (m : PNode) : Asrt := ex fun (q : Addr) => ex fun (e : Ptr) => ex fun (cm : PChain) =>
  ⌜m.idChain = some cm⌝ ∗ (a ↦ .obj .plain [some q, e]) ∗ isChainProto q cm ∗ optRep isEphProto e m.ephKey

/-- The message that an ephemeral key pair that may be absent may be written as. -/
def ephOptWrites (k : Option EphKey) (e : Option PEphKey) : Prop :=
  match k with
  | none => e = none
  | some k => ∃ k', ephWrites k k' ∧ e = some k'

/-- What writing a node may release. -/
def nodeSigPub (c : Rules) (v : Node) : Prop :=
  chainSigPub c v.chain ∧ ∀ k, v.eph = some k → ∀ s, k.sig = some s → ∀ b, sigWrites s b → c.pub b

theorem ephOptFree_spec {c : Rules} {k : Option EphKey} (hp : ∀ v, k = some v → ∀ s, v.sig = some s → ∀ b, sigWrites s b → c.pub b)
    (f : Bool) (e : Ptr) (eo : Option PEphKey) (hw : ephOptWrites k eo) :
    Triple c f (optRep isEphProto e eo) (hSignedProtoFree e) (fun _ _ => emp) := by
  cases e with
  | none =>
    cases eo with
    | none => exact Triple.ret fun y hy => hy
    | some m =>
      dsimp only [optRep]
      exact Triple.pureAt (φ := False) (F := emp) (by rw [Asrt.star_emp]) fun h => h.elim
  | some e =>
    cases eo with
    | none =>
      dsimp only [optRep]
      exact Triple.pureAt (φ := False) (F := emp) (by rw [Asrt.star_emp]) fun h => h.elim
    | some m =>
      cases k with
      | none => exact nomatch hw
      | some k =>
        obtain ⟨k', hw, h⟩ := hw
        cases h
        exact hEphProtoFree_spec (hp k rfl) f e m hw

theorem hNodeToProtoRest_view (c : Rules) (f : Bool) (h : Heap) (a : Addr) (v : Node) (hv : Has isNode h a v) (hp : nodeSigPub c v)
    (e : Ptr) (eo : Option PEphKey) (hw : ephOptWrites v.eph eo) :
    Triple c f (keep h ∗ optRep isEphProto e eo) (hNodeToProtoRest (some a) e)
      (fun r f' => keep h ∗ amongA isNodeProto (fun m => nodeWrites v m ∧ m.ephKey = eo)
        ((chainBuildProto v.chain false).map fun c => ⟨some v.devId, some c, eo⟩) r f') := by
  unfold hNodeToProtoRest
  obtain ⟨dev, ch, eph, st, cache⟩ := v
  sview hv isNode
  rename_i dq cq p1 p2 ec hd hc _ _
  sread field_view ec rfl
  refine Triple.onNullAm (hChainToProto_view c f h cq _ false hc hp.1) (F := optRep isEphProto e eo) (by frame) ?_ ?_
  · intro f1 _ hf
    sstep ephOptFree_spec hp.2 f1 e eo hw
    intro _ f2 hf2
    exact Triple.noneAmA (F := emp) (by sentail) (Asrt.emp_le_spill _) (hf.imp hf2 fun h => by rw [h]; rfl)
  · intro q f1 cm hf1 hwc hxc
    refine Triple.onNull' (alloc_spec c f1 _) ?_ ?_
    · intro f2 _ hf
      sstep ephOptFree_spec hp.2 f2 e eo hw
      intro _ f3 hf3
      exact Triple.noneAmA (F := isChainProto q cm) (by sentail) (Asrt.le_spill (hf3 hf)) (Or.inl (hf3 hf))
    · intro x f2 hf2
      sread field_view ec rfl
      sread readBuf_view hd
      sstep store_spec c f2 x _ _
      intro _ f3 hf3
      refine Triple.someAmA (F := emp) (v := ⟨some dev, some cm, eo⟩) ⟨⟨cm, eo, hwc, ?_, rfl⟩, rfl⟩ (fun hf => ?_) (fun y hy => ?_)
        (Asrt.emp_le_spill _)
      · unfold ephOptWrites at hw
        cases eph <;> exact hw
      · have h1 := oom_back hf2 (oom_back hf3 hf)
        rw [hxc h1]
        rfl
      · revert hy
        revert y
        unfold isNodeProto
        sentail

theorem hNodeToProto_view (c : Rules) (f : Bool) (h : Heap) (a : Addr) (v : Node) (hv : Has isNode h a v) (hp : nodeSigPub c v) :
    Triple c f (keep h) (hNodeToProto (some a)) (fun r f' => keep h ∗ amongA isNodeProto (nodeWrites v) (nodeToProto v) r f') := by
  unfold hNodeToProto
  have hrest := hNodeToProtoRest_view c
  have hv0 := hv
  obtain ⟨dev, ch, eph, st, cache⟩ := v
  sview hv isNode
  rename_i dq cq p1 p2 ec hd hc he _
  sread field_view ec rfl
  sread field_view ec rfl
  cases p1 with
  | none =>
    cases eph with
    | some k => exact he.elim
    | none =>
      refine Triple.conseq (hrest f h a _ hv0 hp none none rfl) (by dsimp only [optRep]; sentail) fun r f1 y _ hy => ?_
      refine Asrt.star_mono_r (fun z hz => ?_) hy
      cases r with
      | none => exact hz
      | some r =>
        obtain ⟨m, hz⟩ := hz
        obtain ⟨h1, hz⟩ := Asrt.pure_star.1 hz
        exact ⟨m, Asrt.pure_star.2 ⟨⟨h1.1.1, h1.2⟩, hz⟩⟩
  | some p1 =>
    cases eph with
    | none => exact he.elim
    | some k =>
      refine Triple.onNullAm (hEphToProto_view c f h p1 k he (hp.2 k rfl)) (F := emp) (by frame) ?_ ?_
      · intro f1 _ hf
        refine Triple.noneAmA (F := emp) (by sentail) (Asrt.emp_le_spill _) (hf.imp_right fun h => ?_)
        unfold nodeToProto
        dsimp only
        rw [h]
        rfl
      · intro e f1 em hf1 hwe hxe
        refine Triple.conseq (hrest f1 h a _ hv0 hp (some e) (some em) ⟨em, hwe, rfl⟩) (by dsimp only [optRep]; sentail) fun r f2 y hf2 hy => ?_
        refine Asrt.star_mono_r (fun z hz => ?_) hy
        have hx : f2 = false → nodeToProto ⟨dev, ch, some k, st, cache⟩ = ((chainBuildProto ch false).map fun c => ⟨some dev, some c, some em⟩) := by
          intro hf
          unfold nodeToProto
          dsimp only
          rw [hxe (oom_back hf2 hf)]
          rfl
        cases r with
        | none =>
          obtain ⟨h1, hz⟩ := Asrt.pure_star.1 hz
          refine Asrt.pure_star.2 ⟨?_, hz⟩
          cases f2 with
          | true => exact Or.inl rfl
          | false =>
            right
            rw [hx rfl]
            simpa using h1
        | some r =>
          obtain ⟨m, hz⟩ := hz
          obtain ⟨h1, hz⟩ := Asrt.pure_star.1 hz
          exact ⟨m, Asrt.pure_star.2 ⟨⟨h1.1.1, fun hf => by rw [hx hf]; exact h1.2 hf⟩, hz⟩⟩

theorem hNodeProtoRead_view {h : Heap} {a x : Addr} {v : Node} {m : PNode} (hv : Has isNode h a v)
    (hw : nodeWrites v m) : Reads (isNodeProto x m ∗ keep h) (hNodeProtoRead (some a) (some x)) m := by
  obtain ⟨cm, eo, hwc, hwe, rfl⟩ := hw
  obtain ⟨dev, ch, eph, st, cache⟩ := v
  sview hv isNode
  rename_i dq cq p1 p2 ec hd hc he _
  intro c f
  unfold hNodeProtoRead
  sopen isNodeProto
  rename_i q e cm' hm
  cases hm
  sread field_view ec rfl
  sread readBuf_view hd
  sread field_view ec rfl
  sread field_reads x _ _ 0 _ rfl
  sread hChainProtoRead_view hc hwc
  sread field_reads x _ _ 1 _ rfl
  cases e with
  | none =>
    cases eo with
    | some eo =>
      dsimp only [optRep]
      sintro
      rename_i hh
      exact hh.elim
    | none =>
      refine Triple.ret fun y hy => Asrt.pure_star.2 ⟨⟨rfl, rfl⟩, ?_⟩
      revert hy
      revert y
      sentail
  | some e =>
    cases eo with
    | none =>
      dsimp only [optRep]
      sintro
      rename_i hh
      exact hh.elim
    | some em =>
      cases eph with
      | none => exact nomatch hwe
      | some k =>
        obtain ⟨k', hk', hh⟩ := hwe
        cases hh
        dsimp only [optRep]
        sread field_view ec rfl
        cases p1 with
        | none => exact he.elim
        | some p1 =>
          sread hEphProtoRead_view he hk'
          refine Triple.ret fun y hy => Asrt.pure_star.2 ⟨⟨rfl, rfl⟩, ?_⟩
          have hy : (keep h ∗ (x ↦ .obj .plain [some q, some e]) ∗ isChainProto q cm ∗ isEphProto e em) y := by
            revert hy
            revert y
            sentail
          rw [Asrt.star_comm]
          exact Asrt.star_mono_r (fun z hz => ⟨q, some e, cm, Asrt.pure_star.2 ⟨rfl, hz⟩⟩) hy

theorem hNodeProtoFree_spec {c : Rules} {v : Node} (hp : nodeSigPub c v) (f : Bool) (x : Addr) (m : PNode) (hw : nodeWrites v m) :
    Triple c f (isNodeProto x m) (hNodeProtoFree (some x)) (fun _ _ => emp) := by
  obtain ⟨cm, eo, hwc, hwe, rfl⟩ := hw
  unfold hNodeProtoFree
  sopen isNodeProto
  rename_i q e cm' hm
  cases hm
  sread field_reads x _ _ 0 _ rfl
  sstep hChainProtoFree_spec hp.1 f q cm hwc
  intro _ f1 _
  sread field_reads x _ _ 1 _ rfl
  have hwe' : ephOptWrites v.eph eo := by
    unfold ephOptWrites
    cases h : v.eph <;> rw [h] at hwe <;> exact hwe
  sstep ephOptFree_spec hp.2 f1 e eo hwe'
  intro _ f2 _
  exact Triple.conseq (free_obj c f2 x _ _) (by sentail) (fun _ _ _ _ h => h)

theorem hNodeSerialize_view (c : Rules) (f : Bool) (h : Heap) (a : Addr) (v : Node) (hv : Has isNode h a v) (hp : nodeSigPub c v) :
    Triple c f (keep h) (hNodeSerialize (some a))
      (fun r f' => keep h ∗ amongA isBuf (packsOf (nodeWrites v) PNode.pack) (nodeSerialize v) r f') :=
  packProtoA (hNodeToProto_view c f h a v hv hp) (fun _ _ hw => hNodeProtoRead_view hv hw) (hNodeProtoFree_spec hp)

/-! ### Storage keys -/

/-- The structure of storage keys while it is filled. -/
def isStorageRaw (a : Addr) (lb rb : Option Bytes) : Asrt := ex fun (p : Ptr) => ex fun (q : Ptr) =>
  (a ↦ .obj .plain [p, q]) ∗ optRep isRaw p lb ∗ optRep isRaw q rb

/-- The structure of storage keys. -/
def isStorageProto (a : Addr) (m : PStorageKeys) : Asrt := isStorageRaw a m.localStorage m.remoteStorage

theorem freeRaw_spec (c : Rules) (f : Bool) (p : Ptr) (b : Option Bytes) (hp : ∀ x, b = some x → c.pub x) :
    Triple c f (optRep isRaw p b) (free p) (fun _ _ => emp) := by
  cases p with
  | none =>
    cases b with
    | none => exact Triple.ret fun y hy => hy
    | some m => exact Triple.pureAt (φ := False) (F := emp) (by rw [Asrt.star_emp]; rfl) fun h => h.elim
  | some e =>
    cases b with
    | none => exact Triple.pureAt (φ := False) (F := emp) (by rw [Asrt.star_emp]; rfl) fun h => h.elim
    | some m => exact free_bytes c f _ _ (Or.inr (hp m rfl))

theorem hStorageProtoFree_raw (c : Rules) (f : Bool) (x : Addr) (lb rb : Option Bytes) (hl : ∀ b, lb = some b → c.pub b)
    (hr : ∀ b, rb = some b → c.pub b) :
    Triple c f (isStorageRaw x lb rb) (hStorageProtoFree (some x)) (fun _ _ => emp) := by
  unfold hStorageProtoFree
  sopen isStorageRaw
  rename_i p q
  sread field_reads x _ _ 0 _ rfl
  sstep freeRaw_spec c f p lb hl
  intro _ f1 _
  sread field_reads x _ _ 1 _ rfl
  sstep freeRaw_spec c f1 q rb hr
  intro _ f2 _
  exact Triple.conseq (free_obj c f2 x _ _) (by sentail) (fun _ _ _ _ h => h)

theorem hCKeyToProto_view (c : Rules) (f : Bool) (h : Heap) (a : Addr) (k : CipherKey) (hk : Has isCKey h a k) :
    Triple c f (keep h) (hCKeyToProto (some a)) (fun r f' => keep h ∗ gives isRaw (cipherKeySerialize k) r f') := by
  unfold hCKeyToProto
  refine Triple.onNullG (hCKeySerialize_view c f h a k hk) (F := emp) (by frame) ?_ ?_
  · intro f1 _ hf
    refine Triple.ret fun y hy => keep_fact hf ?_
    revert hy
    revert y
    sentail
  · intro q f1 v _ e
    have hb : Triple c f1 (isBuf q v) (hToProto (some q)) (fun r f' => isBuf q v ∗ fresh Asrt.cell (.bytes v) r f') :=
      Triple.owned fun z hz => hToProto_view c f1 z q v (has_of hz)
    sstep hb
    intro r f2 hf2
    cases r with
    | none =>
      dsimp only [fresh]
      sintro
      rename_i hf
      sstep hBufDestroyZero_spec f2
      intro _ f3 hf3
      sintro
      refine Triple.ret fun y hy => keep_fact (Or.inl (hf3 hf)) ?_
      revert hy
      revert y
      sentail
    | some r =>
      dsimp only [fresh]
      sstep hBufDestroyZero_spec f2
      intro _ f3 hf3
      sintro
      refine Triple.ret fun y hy => give_some (v := v) e y ?_
      revert hy
      revert y
      unfold isRaw
      sentail

theorem hStorageToProto_view (c : Rules) (hc : c.crash) (f : Bool) (h : Heap) (a : Addr) (v : StorageKeys) (hv : Has isStorage h a v)
    (hp : ∀ b, cipherKeySerialize v.loc = some b ∨ cipherKeySerialize v.rem = some b → c.pub b) :
    Triple c f (keep h) (hStorageToProto (some a)) (fun r f' => keep h ∗ gives isStorageProto (storageToProto v) r f') := by
  unfold hStorageToProto
  sview hv isStorage
  rename_i lq rq e hl hr
  sstep alloc_spec c f _
  intro x f1 hf1
  cases x with
  | none =>
    dsimp only [fresh]
    sintro
    rename_i hf
    exact Triple.storeNull hc hf
  | some x =>
    dsimp only [fresh]
    sstep store_spec c f1 x _ _
    intro _ f2 hf2
    sread field_view e rfl
    refine Triple.onNullG (hCKeyToProto_view c f2 h lq _ hl) (F := x ↦ .obj .plain [none, none]) (by frame) ?_ ?_
    · intro f3 _ hf
      refine Triple.conseq (P := keep h ∗ isStorageRaw x none none) ?_ (by unfold isStorageRaw; sentail) (fun _ _ _ _ h => h)
      sstep hStorageProtoFree_raw c f3 x none none (by simp) (by simp)
      intro _ f4 hf4
      refine Triple.ret fun y hy => keep_fact (hf.imp hf4 fun h => by unfold storageToProto; rw [h]; rfl) ?_
      revert hy
      revert y
      sentail
    · intro l f3 lb hf3 el
      refine Triple.setField (a := x) (F := keep h ∗ isRaw l lb) (by frame) (by simp) fun f4 hf4 => ?_
      simp only [List.set_cons_zero]
      sread field_view e rfl
      refine Triple.onNullG (hCKeyToProto_view c f4 h rq _ hr) (F := (x ↦ .obj .plain [some l, none]) ∗ isRaw l lb) (by frame) ?_ ?_
      · intro f5 _ hf
        refine Triple.conseq (P := keep h ∗ isStorageRaw x (some lb) none) ?_ (fun y hy => ?_) (fun _ _ _ _ h => h)
        · sstep hStorageProtoFree_raw c f5 x (some lb) none (fun b hb => by cases hb; exact hp _ (Or.inl el)) (by simp)
          intro _ f6 hf6
          refine Triple.ret fun y hy => keep_fact (hf.imp hf6 fun h => by unfold storageToProto; rw [h, el]; rfl) ?_
          revert hy
          revert y
          sentail
        · have hy : (keep h ∗ (x ↦ .obj .plain [some l, none]) ∗ isRaw l lb ∗ emp) y := by
            revert hy
            revert y
            sentail
          exact Asrt.star_mono_r (fun z hz => ⟨some l, none, hz⟩) hy
      · intro r f5 rb hf5 er
        refine Triple.setField (a := x) (F := keep h ∗ isRaw r rb ∗ isRaw l lb) (by frame) (by simp) fun f6 hf6 => ?_
        simp only [List.set_cons_zero, List.set_cons_succ]
        refine Triple.ret fun y hy => ?_
        have es : storageToProto v = some ⟨1, some lb, some rb⟩ := by
          unfold storageToProto
          rw [el, er]
          rfl
        refine give_some (v := ⟨1, some lb, some rb⟩) es y ?_
        have hy : (keep h ∗ (x ↦ .obj .plain [some l, some r]) ∗ isRaw l lb ∗ isRaw r rb) y := by
          revert hy
          revert y
          sentail
        exact Asrt.star_mono_r (fun z hz => ⟨some l, some r, hz⟩) hy

theorem storageWrites_shape {v : StorageKeys} {m : PStorageKeys} (hm : storageToProto v = some m) :
    ∃ lb rb, cipherKeySerialize v.loc = some lb ∧ cipherKeySerialize v.rem = some rb ∧ m = ⟨1, some lb, some rb⟩ := by
  unfold storageToProto at hm
  simp only [Option.bind_eq_some_iff, Option.map_eq_some_iff] at hm
  obtain ⟨lb, hl, rb, hr, rfl⟩ := hm
  exact ⟨lb, rb, hl, hr, rfl⟩

theorem hStorageProtoRead_spec {x : Addr} {lb rb : Bytes} :
    Reads (isStorageProto x ⟨1, some lb, some rb⟩) (hStorageProtoRead (some x)) ⟨1, some lb, some rb⟩ := by
  intro c f
  unfold hStorageProtoRead isStorageProto
  dsimp only
  refine Triple.ex fun p => Triple.ex fun q => ?_
  sread field_reads x _ _ 0 _ rfl
  cases p with
  | none =>
    dsimp only [optRep]
    sintro
    rename_i hh
    exact hh.elim
  | some p =>
    dsimp only [optRep]
    unfold isRaw
    sread loadBytes_reads p lb
    sread field_reads x _ _ 1 _ rfl
    cases q with
    | none =>
      dsimp only [optRep]
      sintro
      rename_i hh
      exact hh.elim
    | some q =>
      dsimp only [optRep]
      sread loadBytes_reads q rb
      refine Triple.ret fun y hy => Asrt.pure_star.2 ⟨⟨rfl, rfl⟩, some p, some q, ?_⟩
      revert hy
      revert y
      dsimp only [optRep, isRaw]
      sentail

theorem hStorageProtoFree_spec {c : Rules} {v : StorageKeys}
    (hp : ∀ b, cipherKeySerialize v.loc = some b ∨ cipherKeySerialize v.rem = some b → c.pub b)
    (f : Bool) (x : Addr) (m : PStorageKeys) (hw : storageToProto v = some m) :
    Triple c f (isStorageProto x m) (hStorageProtoFree (some x)) (fun _ _ => emp) := by
  obtain ⟨lb, rb, hl, hr, rfl⟩ := storageWrites_shape hw
  exact hStorageProtoFree_raw c f x _ _ (fun b h => by cases h; exact hp _ (Or.inl hl)) (fun b h => by cases h; exact hp _ (Or.inr hr))

theorem storage_writes {h : Heap} {a : Addr} {v : StorageKeys} (hv : Has isStorage h a v) : storageToProto v ≠ none := by
  sview hv isStorage
  rename_i lq rq e hl hr
  have hk : ∀ {q : Addr} {k : CipherKey}, Has isCKey h q k → cipherKeySerialize k ≠ none := by
    intro q k hk
    sview hk isCKey
    rename_i p hlen _ hb
    unfold cipherKeySerialize
    rw [concat2_of (by simp; omega) (by rw [hlen]; cases k.cipher <;> decide)]
    simp
  unfold storageToProto
  cases h1 : cipherKeySerialize v.loc with
  | none => exact absurd h1 (hk hl)
  | some b =>
    cases h2 : cipherKeySerialize v.rem with
    | none => exact absurd h2 (hk hr)
    | some b => simp

theorem hStorageSerialize_view (c : Rules) (hc : c.crash) (f : Bool) (h : Heap) (a : Addr) (v : StorageKeys) (hv : Has isStorage h a v)
    (hp : ∀ b, cipherKeySerialize v.loc = some b ∨ cipherKeySerialize v.rem = some b → c.pub b) :
    Triple c f (keep h) (hStorageSerialize (some a)) (fun r f' => keep h ∗ gives isBuf (storageSerialize v).toOption r f') := by
  unfold hStorageSerialize
  sstep hStorageToProto_view c hc f h a v hv hp
  intro r f1 hf1
  cases r with
  | none =>
    dsimp only [gives]
    sintro
    rename_i hf
    have hf : f1 = true := hf.elim id fun h => absurd h (storage_writes hv)
    unfold hStorageProtoRead
    exact Triple.assoc (Triple.fieldNull hc hf)
  | some x =>
    dsimp only [gives]
    sintro
    rename_i m hm
    obtain ⟨lb, rb, hl, hr, rfl⟩ := storageWrites_shape hm
    have hs : (storageSerialize v).toOption = protoPack (PStorageKeys.pack ⟨1, some lb, some rb⟩) := by
      unfold storageSerialize
      rw [hm]
      dsimp only
      cases protoPack (PStorageKeys.pack ⟨1, some lb, some rb⟩) <;> rfl
    rw [hs]
    sread hStorageProtoRead_spec
    sstep hPack_spec c f1 _
    intro o f2 hf2
    sstep hStorageProtoFree_spec hp f2 x _ hm
    intro _ f3 hf3
    refine Triple.ret fun y hy => ?_
    have hy : (keep h ∗ gives isBuf (protoPack (PStorageKeys.pack ⟨1, some lb, some rb⟩)) o f2) y := by
      revert hy
      revert y
      sentail
    refine Asrt.star_mono_r (fun z hz => ?_) hy
    cases o with
    | none => exact ⟨hz.1.imp_left hf3, hz.2⟩
    | some o => exact hz

/-! ### Contexts -/

/-- The structure of a context. -/
def isCtxProto (a : Addr) (m : PCtx) : Asrt := ex fun (q : Addr) => ex fun (s : Addr) => ex fun (cm : PChain) => ex fun (sm : PStorageKeys) =>
  ⌜m = ⟨some sm, some cm⟩⌝ ∗ (a ↦ .obj .plain [some q, some s]) ∗ isChainProto q cm ∗ isStorageProto s sm

/-- What writing a context may release. -/
def ctxKeyPub (c : Rules) (v : Ctx) : Prop :=
  chainSigPub c v.chain ∧ ∀ b, cipherKeySerialize v.storage.loc = some b ∨ cipherKeySerialize v.storage.rem = some b → c.pub b

theorem hCtxToProto_view (c : Rules) (hc : c.crash) (f : Bool) (h : Heap) (a : Addr) (v : Ctx) (hv : Has isCtx h a v)
    (hp : ctxKeyPub c v) :
    Triple c f (keep h) (hCtxToProto (some a)) (fun r f' => keep h ∗ among isCtxProto (ctxWrites v) (ctxToProto v) r f') := by
  unfold hCtxToProto
  sview hv isCtx
  rename_i dq cq sq kq e _ hch hs _
  sread field_view e rfl
  refine Triple.onNullAm (hChainToProto_view c f h cq _ true hch hp.1) (F := emp) (by frame) ?_ ?_
  · intro f1 _ hf
    exact Triple.noneAm (by sentail) (hf.imp_right fun h => by unfold ctxToProto; rw [h]; rfl)
  · intro q f1 cm hf1 hwc hxc
    sread field_view e rfl
    refine Triple.onNullG (hStorageToProto_view c hc f1 h sq _ hs hp.2) (F := isChainProto q cm) (by frame) ?_ ?_
    · intro f2 _ hf
      sstep hChainProtoFree_spec hp.1 f2 q cm hwc
      intro _ f3 hf3
      exact Triple.noneAm (by sentail) (hf.imp hf3 fun h => absurd h (storage_writes hs))
    · intro s f2 sm hf2 es
      refine Triple.onNull' (alloc_spec c f2 _) ?_ ?_
      · intro f3 _ hf
        sstep hChainProtoFree_spec hp.1 f3 q cm hwc
        intro _ f4 hf4
        sstep hStorageProtoFree_spec hp.2 f4 s sm es
        intro _ f5 hf5
        exact Triple.noneAm (by sentail) (Or.inl (hf5 (hf4 hf)))
      · intro x f3 hf3
        sstep store_spec c f3 x _ _
        intro _ f4 hf4
        refine Triple.someAm (v := ⟨some sm, some cm⟩) ⟨cm, sm, hwc, es, rfl⟩ (fun hf => ?_) ?_
        · unfold ctxToProto
          rw [hxc (oom_back hf2 (oom_back hf3 (oom_back hf4 hf))), es]
          rfl
        · unfold isCtxProto
          sentail

theorem hCtxProtoRead_view {h : Heap} {a x : Addr} {v : Ctx} {m : PCtx} (hv : Has isCtx h a v)
    (hw : ctxWrites v m) : Reads (isCtxProto x m ∗ keep h) (hCtxProtoRead (some a) (some x)) m := by
  obtain ⟨cm, sm, hwc, es, rfl⟩ := hw
  obtain ⟨lb, rb, -, -, rfl⟩ := storageWrites_shape es
  sview hv isCtx
  rename_i dq cq sq kq e _ hch hs _
  intro c f
  unfold hCtxProtoRead
  sopen isCtxProto
  rename_i q s cm' sm' hm
  cases hm
  sread field_reads x _ _ 1 _ rfl
  sread hStorageProtoRead_spec
  sread field_view e rfl
  sread field_reads x _ _ 0 _ rfl
  sread hChainProtoRead_view hch hwc
  refine Triple.ret fun y hy => Asrt.pure_star.2 ⟨⟨rfl, rfl⟩, ?_⟩
  revert hy
  revert y
  sentail

theorem hCtxProtoFree_spec {c : Rules} {v : Ctx} (hp : ctxKeyPub c v) (f : Bool) (x : Addr) (m : PCtx) (hw : ctxWrites v m) :
    Triple c f (isCtxProto x m) (hCtxProtoFree (some x)) (fun _ _ => emp) := by
  obtain ⟨cm, sm, hwc, es, rfl⟩ := hw
  unfold hCtxProtoFree
  sopen isCtxProto
  rename_i q s cm' sm' hm
  cases hm
  sread field_reads x _ _ 0 _ rfl
  sstep hChainProtoFree_spec hp.1 f q cm hwc
  intro _ f1 _
  sread field_reads x _ _ 1 _ rfl
  sstep hStorageProtoFree_spec hp.2 f1 s sm es
  intro _ f2 _
  exact Triple.conseq (free_obj c f2 x _ _) (by sentail) (fun _ _ _ _ h => h)

theorem hCtxSerialize_view (c : Rules) (hc : c.crash) (f : Bool) (h : Heap) (a : Addr) (v : Ctx) (hv : Has isCtx h a v)
    (hp : ctxKeyPub c v) :
    Triple c f (keep h) (hCtxSerialize (some a))
      (fun r f' => keep h ∗ among isBuf (packsOf (ctxWrites v) PCtx.pack) (ctxSerialize v) r f') :=
  packProto (hCtxToProto_view c hc f h a v hv hp) (fun _ _ hw => hCtxProtoRead_view hv hw) (hCtxProtoFree_spec hp)

theorem sealTail {E : Engine} (hE : E.Fits) (c : Rules) (hc : c.crash) (f : Bool) (h : Heap) (q p : Addr) (b pass rnd salt iv : Bytes)
    (hpass : Has isBuf h p pass) (hs : ValidBuf salt) (hl : salt.length = scrypt17.saltSize.toNat)
    (hq : ∀ x ∈ kdfCipherPubs E scrypt17 defaultCipher b pass salt iv, c.pub x)
    (hh : ∀ h, E.kdf ⟨scrypt17, some salt, none⟩ pass = some h → c.pub h ∨ c.lax) :
    Triple c f (keep h ∗ isBuf q b)
      (do
        let r ← hKdfCipher E scrypt17 defaultCipher (some q) (some p) rnd salt iv
        let _ ← hBufDestroyZero (some q)
        Pure.pure r)
      (fun r f' => keep h ∗ givesN isBuf (kdfCipher E scrypt17 defaultCipher b pass salt iv) r f') := by
  refine Triple.lend (h := h) (P := isBuf q b) (F := emp) (by frame) fun h1 h' hx e s1 s2 => ?_
  sstep hKdfCipher_view hE c f hc h' q p scrypt17 defaultCipher b pass rnd salt iv hs hl hq hh (Has.sub (has_of hx) s2)
    (Has.sub hpass s1)
  intro r f1 hf1
  refine Triple.giveBack (F := givesN isBuf (kdfCipher E scrypt17 defaultCipher b pass salt iv) r f1) e hx (by frame) ?_
  sstep hBufDestroyZero_spec f1
  intro _ f2 hf2
  sintro
  refine Triple.ret fun y hy => ?_
  have hy : (keep h ∗ givesN isBuf (kdfCipher E scrypt17 defaultCipher b pass salt iv) r f1) y := by
    revert hy
    revert y
    sentail
  refine Asrt.star_mono_r (fun z hz => ?_) hy
  cases r with
  | none =>
    obtain ⟨h1, hz⟩ := Asrt.pure_star.1 hz
    exact Asrt.pure_star.2 ⟨h1.imp_left hf2, Asrt.spill_mono hf2 z hz⟩
  | some r => exact hz

/-- Once an allocation has failed, lax rules allow everything to be released. -/
theorem Triple.laxen {α : Type} {c : Rules} {P : Asrt} {m : H α} {Q : α → Bool → Asrt} (hl : c.lax)
    (h : Triple { c with pub := fun _ => True } true P m Q) : Triple c true P m Q := by
  intro A s F hs hP
  have := h A s F hs hP
  revert this
  cases m A s with
  | ub => exact id
  | crash s' => exact fun ⟨h1, h2, h3⟩ => ⟨h1, h2, fun b hb => (h3 b hb).imp_right fun _ => Or.inr (Or.inr ⟨h2, hl⟩)⟩
  | ret r s' => exact fun ⟨h1, h2, h3⟩ => ⟨h1, h2, fun b hb => (h3 b hb).imp_right fun _ => Or.inr (Or.inr ⟨h2 rfl, hl⟩)⟩

theorem hCtxExport_view {E : Engine} (hE : E.Fits) (c : Rules) (hc : c.crash) (f : Bool) (h : Heap) (a p : Addr) (v : Ctx)
    (pass rnd salt iv : Bytes) (hv : Has isCtx h a v) (hpass : Has isBuf h p pass) (hp : ctxKeyPub c v)
    (hs : ValidBuf salt) (hl : salt.length = scrypt17.saltSize.toNat)
    (hq : ∀ b, ctxSerialize v = some b → ∀ x ∈ kdfCipherPubs E scrypt17 defaultCipher b pass salt iv, c.pub x) (hlax : c.lax) :
    Triple c f (keep h) (hCtxExport E (some a) (some p) rnd salt iv)
      (fun r f' => keep h ∗ amongA isBuf (exportsOf E (packsOf (ctxWrites v) PCtx.pack) pass salt iv) (ctxExport E v pass salt iv) r f') := by
  unfold hCtxExport
  refine Triple.onNullAm (hCtxSerialize_view c hc f h a v hv hp) (F := emp) (by frame) ?_ ?_
  · intro f1 _ hf
    refine Triple.noneAmA (F := emp) (by sentail) (Asrt.emp_le_spill _) (hf.imp_right fun h => by unfold ctxExport; rw [h]; rfl)
  · intro q f1 b hf1 hw hx
    have hseal : Triple c f1 (keep h ∗ isBuf q b)
        (do
          let r ← hKdfCipher E scrypt17 defaultCipher (some q) (some p) rnd salt iv
          let _ ← hBufDestroyZero (some q)
          Pure.pure r)
        (fun r f' => keep h ∗ givesN isBuf (kdfCipher E scrypt17 defaultCipher b pass salt iv) r f') := by
      cases f1 with
      | true => exact Triple.laxen hlax (sealTail hE { c with pub := fun _ => True } hc true h q p b pass rnd salt iv hpass hs hl (fun _ _ => trivial) fun _ _ => Or.inl trivial)
      | false => exact sealTail hE c hc false h q p b pass rnd salt iv hpass hs hl (hq b (hx rfl)) fun _ _ => Or.inr hlax
    refine Triple.conseq hseal (by sentail) fun r f2 y hf2 hy => ?_
    refine Asrt.star_mono_r (fun z hz => ?_) hy
    have hxx : f2 = false → ctxExport E v pass salt iv = kdfCipher E scrypt17 defaultCipher b pass salt iv := fun hf => by
      unfold ctxExport
      rw [hx (oom_back hf2 hf)]
      rfl
    cases r with
    | none =>
      obtain ⟨h1, hz⟩ := Asrt.pure_star.1 hz
      refine Asrt.pure_star.2 ⟨?_, hz⟩
      cases f2 with
      | true => exact Or.inl rfl
      | false => exact Or.inr (by rw [hxx rfl]; simpa using h1)
    | some r =>
      obtain ⟨w, hz⟩ := hz
      obtain ⟨h1, hz⟩ := Asrt.pure_star.1 hz
      refine ⟨w, Asrt.pure_star.2 ⟨⟨⟨b, hw, h1⟩, fun hf => by rw [hxx hf, h1]⟩, ?_⟩⟩
      refine Asrt.le_star (Asrt.le_refl (isBuf r w)) (Asrt.emp_le_spill f2) z ?_
      rwa [Asrt.star_emp]

theorem hCtxExportStorage_view {E : Engine} (hE : E.Fits) (c : Rules) (hc : c.crash) (f : Bool) (h : Heap) (a p : Addr) (v : Ctx)
    (pass rnd salt iv : Bytes) (hv : Has isCtx h a v) (hpass : Has isBuf h p pass)
    (hp : ∀ b, cipherKeySerialize v.storage.loc = some b ∨ cipherKeySerialize v.storage.rem = some b → c.pub b)
    (hs : ValidBuf salt) (hl : salt.length = scrypt17.saltSize.toNat)
    (hq : ∀ b, (storageSerialize v.storage).toOption = some b → ∀ x ∈ kdfCipherPubs E scrypt17 defaultCipher b pass salt iv, c.pub x)
    (hh : ∀ h, E.kdf ⟨scrypt17, some salt, none⟩ pass = some h → c.pub h ∨ c.lax) :
    Triple c f (keep h) (hCtxExportStorage E (some a) (some p) rnd salt iv)
      (fun r f' => keep h ∗ givesN isBuf (ctxExportStorage E v pass salt iv).toOption r f') := by
  unfold hCtxExportStorage
  sview hv isCtx
  rename_i dq cq sq kq e _ hch hst _
  sread field_view e rfl
  have eo : (ctxExportStorage E v pass salt iv).toOption =
      (storageSerialize v.storage).toOption.bind fun b => kdfCipher E scrypt17 defaultCipher b pass salt iv := by
    unfold ctxExportStorage
    cases storageSerialize v.storage with
    | ok b =>
      show (Res.ofOption _).toOption = kdfCipher E scrypt17 defaultCipher b pass salt iv
      cases kdfCipher E scrypt17 defaultCipher b pass salt iv <;> rfl
    | null => rfl
    | ub => rfl
  rw [eo]
  refine Triple.onNullG (hStorageSerialize_view c hc f h sq _ hst hp) (F := emp) (by frame) ?_ ?_
  · intro f1 _ hf
    refine Triple.ret fun y hy => ?_
    have hy : (keep h ∗ emp) y := by
      revert hy
      revert y
      sentail
    refine Asrt.star_mono_r (fun z hz => Asrt.pure_star.2 ⟨hf.imp_right fun h => by rw [h]; rfl, Asrt.emp_le_spill f1 z hz⟩) hy
  · intro q f1 b hf1 eb
    rw [eb, Option.bind_some]
    exact Triple.conseq (sealTail hE c hc f1 h q p b pass rnd salt iv hpass hs hl (hq b eb) hh) (by sentail) (fun _ _ _ _ h => h)

end Wickr
