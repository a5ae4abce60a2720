import Verif.Lemmas.SepHsMsg
/-
Handshakes in memory: reading and changing their fields.
-/
namespace Wickr
open Asrt Spec

/-! ### Reading -/

theorem hs_scal_view {h : Heap} {a : Addr} {v : Handshake} (ha : Has isHs h a v) :
    Reads (keep h) (scal (some a)) (.hs v.status v.isInitiator v.evo) := by
  sview ha isHs
  exact scal_view (by assumption)

theorem hs_self_view {h : Heap} {a : Addr} {v : Handshake} (ha : Has isHs h a v) :
    ∃ q, Reads (keep h) (field (some a) 0) (some q) ∧ Has isChain h q v.self := by
  sview ha isHs
  exact ⟨_, field_view (by assumption) rfl, by assumption⟩

theorem hs_remote_view {h : Heap} {a : Addr} {v : Handshake} (ha : Has isHs h a v) :
    ∃ q, Reads (keep h) (field (some a) 1) q ∧ HasOpt isChain h q v.remote := by
  sview ha isHs
  exact ⟨_, field_view (by assumption) rfl, by assumption⟩

theorem hs_list_view {h : Heap} {a : Addr} {v : Handshake} (ha : Has isHs h a v) :
    ∃ q, Reads (keep h) (field (some a) 2) (some q) ∧ Has (isArr isBuf) h q [v.pkt0, v.pkt1] := by
  sview ha isHs
  exact ⟨_, field_view (by assumption) rfl, by assumption⟩

theorem hs_eph_view {h : Heap} {a : Addr} {v : Handshake} (ha : Has isHs h a v) :
    ∃ q, Reads (keep h) (field (some a) 3) q ∧ HasOpt isKey h q v.eph := by
  sview ha isHs
  exact ⟨_, field_view (by assumption) rfl, by assumption⟩

theorem hs_root_view {h : Heap} {a : Addr} {v : Handshake} (ha : Has isHs h a v) :
    ∃ q, Reads (keep h) (field (some a) 4) q ∧ HasOpt isTRoot h q v.rootKey := by
  sview ha isHs
  exact ⟨_, field_view (by assumption) rfl, by assumption⟩

theorem hs_pending_view {h : Heap} {a : Addr} {v : Handshake} (ha : Has isHs h a v) :
    ∃ q, Reads (keep h) (field (some a) 5) q ∧ HasOpt isTPkt h q v.pendingPkt := by
  sview ha isHs
  exact ⟨_, field_view (by assumption) rfl, by assumption⟩

theorem hs_scal_reads (a : Addr) (v : Handshake) : Reads (isHs a v) (scal (some a)) (.hs v.status v.isInitiator v.evo) :=
  Reads.owned fun _ hx => hs_scal_view (has_of hx)

/-! ### The state -/

theorem hs_setScal_spec (c : Rules) (f : Bool) (a : Addr) (v : Handshake) (s : HsStatus) (i : Bool) :
    Triple c f (isHs a v) (setScal (some a) (.hs s i v.evo)) (fun _ _ => isHs a { v with status := s, isInitiator := i }) := by
  unfold isHs
  sintro
  refine Triple.tail ?_
  sstep setScal_spec c f a _ _ _
  intro _ f1 _
  refine Triple.ret fun y hy => ?_
  revert hy; revert y
  sentail

theorem hHsStatus_spec (c : Rules) (f : Bool) (a : Addr) (v : Handshake) (s : HsStatus) :
    Triple c f (isHs a v) (hHsStatus (some a) s) (fun _ _ => isHs a { v with status := s }) := by
  unfold hHsStatus
  sread hs_scal_reads a v
  exact hs_setScal_spec c f a v s _

theorem hHsFail_spec (c : Rules) (f : Bool) (a : Addr) (v : Handshake) :
    Triple c f (isHs a v) (hHsFail (some a)) (fun _ _ => isHs a (hsFail v)) := by
  unfold hHsFail
  sread hs_scal_reads a v
  exact hs_setScal_spec c f a v _ _

/-! ### Fields that are still NULL -/

theorem optRep_null {V : Type} {R : Addr → V → Asrt} : optRep R none none = emp := rfl

theorem hs_setRemote_spec (c : Rules) (f : Bool) (a : Addr) (v : Handshake) (p : Ptr) (w : Option Chain) (hn : v.remote = none) :
    Triple c f (isHs a v ∗ optRep isChain p w) (setField (some a) 1 p) (fun _ _ => isHs a { v with remote := w }) := by
  unfold isHs
  rw [hn]
  sintro
  rename_i l r ps e k q
  cases r with
  | some r => dsimp only [optRep]; sabsurd
  | none =>
    refine Triple.tail ?_
    sstep setField_spec c f a (.hs v.status v.isInitiator v.evo) [some l, none, some ps, e, k, q] 1 p (by simp)
    intro _ f1 _
    refine Triple.ret fun y hy => ?_
    revert hy; revert y
    simp only [List.set_cons_succ, List.set_cons_zero, optRep_null]
    sentail

theorem hs_setEph_spec (c : Rules) (f : Bool) (a : Addr) (v : Handshake) (p : Ptr) (w : Option EcKey) (hn : v.eph = none) :
    Triple c f (isHs a v ∗ optRep isKey p w) (setField (some a) 3 p) (fun _ _ => isHs a { v with eph := w }) := by
  unfold isHs
  rw [hn]
  sintro
  rename_i l r ps e k q
  cases e with
  | some r => dsimp only [optRep]; sabsurd
  | none =>
    refine Triple.tail ?_
    sstep setField_spec c f a (.hs v.status v.isInitiator v.evo) [some l, r, some ps, none, k, q] 3 p (by simp)
    intro _ f1 _
    refine Triple.ret fun y hy => ?_
    revert hy; revert y
    simp only [List.set_cons_succ, List.set_cons_zero, optRep_null]
    sentail

theorem hs_setRoot_spec (c : Rules) (f : Bool) (a : Addr) (v : Handshake) (p : Ptr) (w : Option RootKey) (hn : v.rootKey = none) :
    Triple c f (isHs a v ∗ optRep isTRoot p w) (setField (some a) 4 p) (fun _ _ => isHs a { v with rootKey := w }) := by
  unfold isHs
  rw [hn]
  sintro
  rename_i l r ps e k q
  cases k with
  | some r => dsimp only [optRep]; sabsurd
  | none =>
    refine Triple.tail ?_
    sstep setField_spec c f a (.hs v.status v.isInitiator v.evo) [some l, r, some ps, e, none, q] 4 p (by simp)
    intro _ f1 _
    refine Triple.ret fun y hy => ?_
    revert hy; revert y
    simp only [List.set_cons_succ, List.set_cons_zero, optRep_null]
    sentail

theorem hs_setPending_spec (c : Rules) (f : Bool) (a : Addr) (v : Handshake) (p : Ptr) (w : Option Packet) (hn : v.pendingPkt = none) :
    Triple c f (isHs a v ∗ optRep isTPkt p w) (setField (some a) 5 p) (fun _ _ => isHs a { v with pendingPkt := w }) := by
  unfold isHs
  rw [hn]
  sintro
  rename_i l r ps e k q
  cases q with
  | some r => dsimp only [optRep]; sabsurd
  | none =>
    refine Triple.tail ?_
    sstep setField_spec c f a (.hs v.status v.isInitiator v.evo) [some l, r, some ps, e, k, none] 5 p (by simp)
    intro _ f1 _
    refine Triple.ret fun y hy => ?_
    revert hy; revert y
    simp only [List.set_cons_succ, List.set_cons_zero, optRep_null]
    sentail

/-! ### Recording packets -/

theorem hSlotSet_spec (f : Bool) (h : Heap) (a : Addr) (x y : Option Bytes) (second : Bool) (p : Ptr) (n : Option Bytes)
    (hp : HasOpt isBuf h p n) :
    Triple laxest f (keep h ∗ isArr isBuf a [x, y]) (hArrSet hBufCopy hBufDestroy (some a) (if second then 1 else 0) p true)
      (fun _ f' => keep h ∗ Asrt.ex fun (z : Option Bytes) => ⌜z = n ∨ f' = true ∧ z = if second then y else x⌝ ∗
        isArr isBuf a (if second then [x, z] else [z, y])) := by
  unfold hArrSet isArr
  sintro
  rename_i ps
  refine Triple.slots (by frame) fun hl _ => ?_
  match ps, hl with
  | [p0, p1], _ =>
  simp only [items, List.length, Asrt.star_emp, Nat.zero_add, Nat.reduceAdd]
  have hput : ∀ f1 q (w : Option Bytes), (w = n) → Triple laxest f1 (keep h ∗ (isSlots a 2 [p0, p1] ∗ optRep isBuf p0 x ∗ optRep isBuf p1 y) ∗ optRep isBuf q w)
      (hArrPut hBufDestroy (some a) (if second then 1 else 0) q true)
      (fun _ f' => keep h ∗ Asrt.ex fun (z : Option Bytes) => ⌜z = n ∨ f' = true ∧ z = if second then y else x⌝ ∗
        Asrt.ex fun ps => isSlots a (if second then [x, z] else [z, y]).length ps ∗ items isBuf ps (if second then [x, z] else [z, y])) := by
    intro f1 q w hw
    refine Triple.tail ?_
    cases second with
    | false =>
      simp only [Bool.false_eq_true, ↓reduceIte]
      sstep hArrPut_spec (R := isBuf) laxest f1 a 2 [p0, p1] 0 q p0 x rfl (fun _ _ _ _ => hBufDestroy_spec (Or.inr trivial))
      intro r f2 _
      refine Triple.pureAt (by frame) fun _ => ?_
      refine Triple.ret fun z hz => ?_
      refine Asrt.star_mono_r (P := keep h) (F := isSlots a 2 [q, p1] ∗ optRep isBuf q w ∗ optRep isBuf p1 y)
        (fun z hz => ⟨w, Asrt.pure_star.2 ⟨Or.inl hw, [q, p1], ?_⟩⟩) ?_
      · revert hz; revert z
        simp only [List.set]
        sentail
      · simp only [items, Asrt.star_emp]
        exact hz
    | true =>
      simp only [↓reduceIte]
      sstep hArrPut_spec (R := isBuf) laxest f1 a 2 [p0, p1] 1 q p1 y rfl (fun _ _ _ _ => hBufDestroy_spec (Or.inr trivial))
      intro r f2 _
      refine Triple.pureAt (by frame) fun _ => ?_
      refine Triple.ret fun z hz => ?_
      refine Asrt.star_mono_r (P := keep h) (F := isSlots a 2 [p0, q] ∗ optRep isBuf p0 x ∗ optRep isBuf q w)
        (fun z hz => ⟨w, Asrt.pure_star.2 ⟨Or.inl hw, [p0, q], ?_⟩⟩) ?_
      · revert hz; revert z
        simp only [List.set]
        sentail
      · simp only [items, Asrt.star_emp]
        exact hz
  sread hArrCount_spec a _ _
  have hi : ¬ 2 ≤ (if second then 1 else 0) := by cases second <;> simp
  rw [if_neg hi]
  cases p with
  | none =>
    cases n with
    | some n => exact hp.elim
    | none =>
      dsimp only
      refine Triple.conseq (hput f none none rfl) ?_ (fun _ _ _ _ h => h)
      dsimp only [optRep]
      sentail
  | some p =>
    cases n with
    | none => exact hp.elim
    | some n =>
      dsimp only
      rw [if_pos trivial]
      refine Triple.onNull (hBufCopy_view laxest f h p n hp) (by frame) ?_ ?_
      · intro f1 _ hf
        refine Triple.ret fun z hz => ?_
        refine Asrt.star_mono_r (P := keep h) (F := isSlots a 2 [p0, p1] ∗ optRep isBuf p0 x ∗ optRep isBuf p1 y)
          (fun z hz => ⟨if second then y else x, Asrt.pure_star.2 ⟨Or.inr ⟨hf, rfl⟩, [p0, p1], ?_⟩⟩) ?_
        · revert hz; revert z
          sentail
        · cases second <;> (simp only [Bool.false_eq_true, ↓reduceIte, List.length, items, Asrt.star_emp]; exact hz)
      · intro q f1 _
        refine Triple.conseq (hput f1 (some q) (some n) rfl) ?_ (fun _ _ _ _ h => h)
        dsimp only [optRep]
        sentail

/-- What recording a packet does. -/
def Recorded (v : Handshake) (second : Bool) (n : Option Bytes) (f : Bool) (w : Handshake) : Prop :=
  w = hsSetSlot v second n ∨ f = true ∧ w = v

theorem hHsRecord_spec (f : Bool) (h : Heap) (a b : Addr) (v : Handshake) (p : Packet) (second : Bool) (hb : Has isTPkt h b p) :
    Triple laxest f (keep h ∗ isHs a v) (hHsRecord (some a) (some b) (if second then 1 else 0))
      (fun _ f' => keep h ∗ Asrt.ex fun w => ⌜Recorded v second p.network f' w⌝ ∗ isHs a w) := by
  unfold hHsRecord
  obtain ⟨n, r1, hn⟩ := tpkt_net_view hb
  unfold isHs
  sintro
  rename_i l r ps e k q
  sread field_reads a _ _ 2 _ rfl
  sread r1
  sstep hSlotSet_spec f h ps v.pkt0 v.pkt1 second n p.network hn
  intro _ f1 _
  sintro
  rename_i z hz
  have hs : ∀ b : Option Bytes, p.network = b → slotSet (if second then v.pkt1 else v.pkt0) b = b := by
    intro b hb
    cases b with
    | none => rfl
    | some b =>
      rw [hb] at hn
      cases n with
      | none => exact hn.elim
      | some n => simp [slotSet, dup_of (has_valid hn)]
  refine Triple.ret fun y hy => ?_
  let w : Handshake := if second then { v with pkt1 := z } else { v with pkt0 := z }
  have hw : Recorded v second p.network f1 w := by
    rcases hz with hz | ⟨hf, hz⟩
    · left
      have := hs _ rfl
      cases second <;> simp_all [hsSetSlot, w]
    · right
      exact ⟨hf, by cases second <;> simp_all [w]⟩
  refine Asrt.star_mono_r (P := keep h) (F := isHs a w) (fun z hz => ⟨w, Asrt.pure_star.2 ⟨hw, hz⟩⟩) ?_
  revert hy; revert y
  unfold isHs
  cases second
  · simp only [w, Bool.false_eq_true, ↓reduceIte]
    sentail
  · simp only [w, ↓reduceIte]
    sentail

/-! ### The identity of the other side -/

theorem shown_lax (E : Engine) (ch : Chain) : ch.Shown E laxest := ⟨fun _ _ _ => trivial, fun _ _ => trivial, fun _ _ => trivial⟩

theorem hHsCheck_spec (hE : E.Fits) (f : Bool) (a b : Addr) (v : Handshake) (p : Packet) (ch : Chain) (hr : v.remote = some ch) :
    Triple laxest f (isHs a v ∗ isTPkt b p) (hHsCheck E (some a) (some b))
      (fun ok f' => Asrt.ex fun (x : Packet × Chain) => ⌜CheckOutcome E p ch ok f' x.1 x.2⌝ ∗ isHs a { v with remote := some x.2 } ∗ isTPkt b x.1) := by
  unfold hHsCheck isHs
  rw [hr]
  sintro
  rename_i l r ps e k q
  cases r with
  | none => dsimp only [optRep]; sabsurd
  | some r =>
    dsimp only [optRep]
    sread field_reads a _ _ 1 _ rfl
    refine Triple.tail ?_
    sstep hTPktVerify_spec hE laxest f trivial b r p ch trivial (fun _ _ _ _ => trivial) (shown_lax E ch)
    intro ok f1 _
    sintro
    rename_i x hx
    refine Triple.ret fun y hy => ⟨x, Asrt.pure_star.2 ⟨hx, ?_⟩⟩
    revert hy; revert y
    sentail

/-- What the identity of the other side and the check of the packet give. -/
def IdOutcome (E : Engine) (v : Handshake) (p : Packet) (m : Option PChain) (ok f : Bool) (w : Handshake) (p' : Packet) : Prop :=
  (∃ ch ch', v.remote = some ch ∧ w = { v with remote := some ch' } ∧ CheckOutcome E p ch ok f p' ch') ∨
  (v.remote = none ∧ ok = false ∧ w = { v with status := .pendingVerification } ∧ p' = p ∧ (f = true ∨ m.bind (chainFromProto E) = none)) ∨
  (∃ ch ch', v.remote = none ∧ m.bind (chainFromProto E) = some ch ∧ w = { v with status := .pendingVerification, remote := some ch' } ∧
    CheckOutcome E p ch ok f p' ch')

theorem chainParts_at (m : PChain) (rest : List Bytes) (i : Nat) (hi : i < 6) : (chainParts (some m) ++ rest)[0 + i]? = m.parts[i]? := by
  have : m.parts.length = 6 := by obtain ⟨r, n⟩ := m; cases r <;> cases n <;> rfl
  rw [Nat.zero_add, List.getElem?_append_left (by show i < m.parts.length; omega)]
  rfl

theorem hReadIdentity_view (hE : E.Fits) (f : Bool) (h : Heap) (x : Addr) (m : Option PChain) (rest : List Bytes)
    (hx : Has isProto h x (chainParts m ++ rest)) :
    Triple laxest f (keep h) (hReadIdentity E (some x) m) (fun r f' => keep h ∗ gives isChain (m.bind (chainFromProto E)) r f') := by
  unfold hReadIdentity
  cases m with
  | none => exact Triple.noneGv (by sentail) (Or.inr rfl)
  | some m => exact hChainFromProto_view hE laxest f trivial h x _ 0 m hx (chainParts_at m rest) (fun _ _ => trivial)

theorem hHsRemoteIdentity_view (hE : E.Fits) (f : Bool) (h : Heap) (a b x : Addr) (v : Handshake) (p : Packet) (m : Option PChain) (rest : List Bytes)
    (hx : Has isProto h x (chainParts m ++ rest)) :
    Triple laxest f (keep h ∗ isHs a v ∗ isTPkt b p) (hHsRemoteIdentity E (some a) (some b) (some x) m)
      (fun ok f' => keep h ∗ Asrt.ex fun (y : Handshake × Packet) => ⌜IdOutcome E v p m ok f' y.1 y.2⌝ ∗ isHs a y.1 ∗ isTPkt b y.2) := by
  unfold hHsRemoteIdentity
  refine Triple.lend0 (P := isHs a v) (by frame) fun h1 hh => ?_
  obtain ⟨r, r1, hr⟩ := hs_remote_view (has_of hh)
  sread r1
  refine Triple.giveBack0 hh (by frame) ?_
  have go : ∀ (f1 : Bool) (w : Handshake) (ch : Chain) (hw : w.remote = some ch)
      (hi : ∀ ok f' p' ch', CheckOutcome E p ch ok f' p' ch' → IdOutcome E v p m ok f' { w with remote := some ch' } p'),
      Triple laxest f1 (keep h ∗ isHs a w ∗ isTPkt b p) (hHsCheck E (some a) (some b))
        (fun ok f' => keep h ∗ Asrt.ex fun (y : Handshake × Packet) => ⌜IdOutcome E v p m ok f' y.1 y.2⌝ ∗ isHs a y.1 ∗ isTPkt b y.2) := by
    intro f1 w ch hw hi
    refine Triple.tail ?_
    sstep hHsCheck_spec hE f1 a b w p ch hw
    intro ok f2 _
    sintro
    rename_i y hy
    refine Triple.ret fun z hz => ?_
    refine Asrt.star_mono_r (P := keep h) (F := isHs a { w with remote := some y.2 } ∗ isTPkt b y.1)
      (fun z hz => ⟨({ w with remote := some y.2 }, y.1), Asrt.pure_star.2 ⟨hi _ _ _ _ hy, hz⟩⟩) ?_
    revert hz; revert z
    sentail
  cases r with
  | some r =>
    cases hv : v.remote with
    | none => rw [hv] at hr; exact hr.elim
    | some ch =>
      dsimp only
      refine Triple.conseq (go f v ch hv fun ok f' p' ch' hc => Or.inl ⟨ch, ch', hv, rfl, hc⟩) ?_ (fun _ _ _ _ h => h)
      sentail
  | none =>
    cases hv : v.remote with
    | some ch => rw [hv] at hr; exact hr.elim
    | none =>
      dsimp only
      sstep hReadIdentity_view hE f h x m rest hx
      intro r f1 _
      cases r with
      | none =>
        dsimp only [gives]
        sintro
        rename_i hf
        have h0 := hs_setRemote_spec laxest f1 a v none none hv
        rw [optRep_null, Asrt.star_emp] at h0
        sstep h0
        intro _ f2 hf2
        sstep hHsStatus_spec laxest f2 a _ _
        intro _ f3 hf3
        refine Triple.ret fun z hz => ?_
        refine Asrt.star_mono_r (P := keep h) (F := isHs a { v with status := .pendingVerification, remote := none } ∗ isTPkt b p)
          (fun z hz => ⟨({ v with status := .pendingVerification, remote := none }, p), Asrt.pure_star.2
            ⟨Or.inr (Or.inl ⟨hv, rfl, by simp [hv], rfl, hf.imp_left fun h => hf3 (hf2 h)⟩), hz⟩⟩) ?_
        revert hz; revert z
        sentail
      | some c =>
        dsimp only [gives]
        sintro
        rename_i ch hch
        have h0 := hs_setRemote_spec laxest f1 a v (some c) (some ch) hv
        dsimp only [optRep] at h0
        sstep h0
        intro _ f2 hf2
        sstep hHsStatus_spec laxest f2 a _ _
        intro _ f3 hf3
        dsimp only
        refine Triple.conseq (go f3 { v with status := .pendingVerification, remote := some ch } ch rfl
          fun ok f' p' ch' hc => Or.inr (Or.inr ⟨ch, ch', hv, hch, rfl, hc⟩)) ?_ (fun _ _ _ _ h => h)
        sentail

end Wickr
