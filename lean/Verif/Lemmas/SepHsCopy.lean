import Verif.Lemmas.SepHsLife
/-
Handshakes in memory: copying.
-/
namespace Wickr
open Asrt Spec

theorem CopyOf.later {α : Type} {L : α → α → Prop} {v w : Option α} {f f' : Bool} (h : CopyOf L v w f) (hf : f = true → f' = true) : CopyOf L v w f' := by
  cases h with
  | none => exact .none
  | lost h => exact .lost (hf h)
  | got h he => exact .got h fun hn => he (oom_back hf hn)

theorem CopyOf.exact {α : Type} {L : α → α → Prop} {v w : Option α} {f : Bool} (h : CopyOf L v w f) (hf : f = false) : w = v := by
  cases h with
  | none => rfl
  | lost h => rw [h] at hf; cases hf
  | got h he => rw [he hf]

theorem CopyOf.eq {α : Type} {v w : Option α} {f : Bool} (h : CopyOf (fun x y => y = x) v w f) (hw : v.isSome = true → w.isSome = true) : w = v := by
  cases h with
  | none => rfl
  | lost h => exact absurd (hw rfl) (by simp)
  | got h he => rw [h]

/-- A copy of something that may be absent. -/
def copies {α : Type} (R : Addr → α → Asrt) (L : α → α → Prop) (v : Option α) (r : Ptr) (f : Bool) : Asrt :=
  Asrt.ex fun (w : Option α) => ⌜CopyOf L v w f ∧ r.isSome = w.isSome⌝ ∗ optRep R r w

theorem copies_of {α : Type} {R : Addr → α → Asrt} {L : α → α → Prop} {v : α} {r : Ptr} {f : Bool} {y : Heap} (h : freshL R L v r f y) :
    copies R L (some v) r f y := by
  cases r with
  | none =>
    have h : (⌜f = true⌝ : Asrt) y := h
    exact ⟨none, Asrt.pure_star.2 ⟨⟨.lost h.1, rfl⟩, h.2⟩⟩
  | some a =>
    obtain ⟨w, h⟩ := h
    obtain ⟨h1, h2⟩ := Asrt.pure_star.1 h
    exact ⟨some w, Asrt.pure_star.2 ⟨⟨.got h1.1 h1.2, rfl⟩, h2⟩⟩

theorem copies_fresh {α : Type} {R : Addr → α → Asrt} {v : α} {r : Ptr} {f : Bool} {y : Heap} (h : fresh R v r f y) :
    copies R (fun x y => y = x) (some v) r f y := by
  refine copies_of ?_
  cases r with
  | none => exact h
  | some a => exact ⟨v, Asrt.pure_star.2 ⟨⟨rfl, fun _ => rfl⟩, h⟩⟩

theorem copy_opt {α : Type} {R : Addr → α → Asrt} {L : α → α → Prop} {g : α → α} {cp : Ptr → H Ptr} {c : Rules} {f : Bool} {h : Heap}
    {p : Ptr} {v : Option α} (h0 : cp none = Pure.pure none) (hv : HasOpt R h p v)
    (hcp : ∀ a x, v = some x → Has R h a x → Triple c f (keep h) (cp (some a)) (fun r f' => keep h ∗ copies R L (some (g x)) r f')) :
    Triple c f (keep h) (cp p) (fun r f' => keep h ∗ copies R L (v.map g) r f') := by
  cases p with
  | none => cases v with
    | none =>
      rw [h0]
      refine Triple.ret fun y hy => ?_
      have : copies R L (Option.map g none) none f = emp := by
        funext z
        refine propext ⟨fun ⟨w, hz⟩ => ?_, fun hz => ⟨none, Asrt.pure_star.2 ⟨⟨.none, rfl⟩, hz⟩⟩⟩
        obtain ⟨⟨hw, -⟩, hz2⟩ := Asrt.pure_star.1 hz
        cases hw
        exact hz2
      rw [this, Asrt.star_emp]
      exact hy
    | some x => exact False.elim hv
  | some a => cases v with
    | none => exact False.elim hv
    | some x => exact hcp a x rfl hv

theorem chainLoss_publics' {v : Option Chain} {w : Option Chain} {f : Bool} (h : CopyOf chainLoss v w f) {c : Rules}
    (hp : ∀ b ∈ (v.map Chain.publics).getD [], c.pub b) : ∀ x, w = some x → ∀ b ∈ x.publics, c.pub b := by
  intro x hx b hb
  cases h with
  | none => cases hx
  | lost h => cases hx
  | got h he => cases hx; exact hp b (chainLoss_publics h b hb)

theorem hHsCopyUndo_spec {c : Rules} (f : Bool) (l r ps : Ptr) (x y : Option Chain) (z : Option (List (Option Bytes)))
    (h1 : ∀ w, x = some w → ∀ b ∈ w.publics, c.pub b) (h2 : ∀ w, y = some w → ∀ b ∈ w.publics, c.pub b)
    (h3 : ∀ w, z = some w → ∀ b, some b ∈ w → c.pub b) :
    Triple c f (optRep isChain l x ∗ optRep isChain r y ∗ optRep (isArr isBuf) ps z) (hHsCopyUndo l r ps)
      (fun q f' => ⌜q = none ∧ (f = true → f' = true)⌝) := by
  unfold hHsCopyUndo
  sdestroy (Destroys.opt (v := x) (R := isChain) (d := hChainDestroy) rfl fun a w hw => hChainDestroy_spec (v := w) (h1 w hw))
  intro f1 hf1
  sdestroy (Destroys.opt (v := y) (R := isChain) (d := hChainDestroy) rfl fun a w hw => hChainDestroy_spec (v := w) (h2 w hw))
  intro f2 hf2
  sdestroy (Destroys.opt (v := z) (R := isArr isBuf) (d := fun l => hArrDestroy hBufDestroy l true) rfl fun a w hw =>
    hArrDestroy_deep (R := isBuf) (xs := w) fun b q hb => hBufDestroy_spec (Or.inr (h3 w hw b hb)))
  intro f3 hf3
  refine Triple.ret fun q hq => ⟨⟨rfl, fun h => hf3 (hf2 (hf1 h))⟩, hq⟩

theorem hHsCopyUndo_tail {c : Rules} (f : Bool) (l r ps : Ptr) (x y : Option Chain) (z : Option (List (Option Bytes))) {A F : Asrt} {Q : Ptr → Bool → Asrt}
    (h1 : ∀ w, x = some w → ∀ b ∈ w.publics, c.pub b) (h2 : ∀ w, y = some w → ∀ b ∈ w.publics, c.pub b)
    (h3 : ∀ w, z = some w → ∀ b, some b ∈ w → c.pub b) (hA : A = (optRep isChain l x ∗ optRep isChain r y ∗ optRep (isArr isBuf) ps z) ∗ F)
    (hQ : ∀ f', (f = true → f' = true) → ∀ s, F s → Q none f' s) : Triple c f A (hHsCopyUndo l r ps) Q := by
  rw [hA]
  refine Triple.conseq ((hHsCopyUndo_spec f l r ps x y z h1 h2 h3).frame F) (fun _ h => h) fun q f' s _ hs => ?_
  obtain ⟨⟨rfl, hf⟩, hs2⟩ := Asrt.pure_star.1 hs
  exact hQ f' hf s hs2

theorem arrLoss_two {w : List (Option Bytes)} {x y : Option Bytes} (h : arrLoss (fun a b => b = a) [x, y] w) : w = [x, y] := by
  obtain _ | ⟨p, _ | ⟨q, _ | ⟨r, w⟩⟩⟩ := w
  · exact False.elim h
  · exact False.elim h.2
  · obtain ⟨h1, h2, -⟩ := h
    cases x <;> cases p <;> cases y <;> cases q <;> simp_all
  · exact False.elim h.2.2

theorem hBufs2Copy_view (c : Rules) (f : Bool) (h : Heap) (a : Addr) (x y : Option Bytes) (hp : ∀ b, some b ∈ [x, y] → c.pub b)
    (ha : Has (isArr isBuf) h a [x, y]) :
    Triple c f (keep h) (hArrCopy hBufCopy hBufDestroy (some a) true) (fun r f' => keep h ∗ copies (isArr isBuf) (fun a b => b = a) (some [x, y]) r f') := by
  refine Triple.conseq (Triple.view (fun z hz => hArrCopy_keep (G := emp) (R := isBuf) (L := fun a b => b = a) (cp := hBufCopy) (dt := hBufDestroy)
    c f (Asrt.le_refl _) a [x, y] ?_ ?_ z hz) ha) (fun _ h => h) fun r f' s _ hs => Asrt.star_mono_r (fun t ht => ?_) hs
  · intro f q v h _ hv
    rw [leaving_emp]
    refine Triple.conseq (hBufCopy_keep c f q v h hv) (fun _ h => h) fun r f' s _ hs => Asrt.star_mono_r (fun t ht => ?_) hs
    cases r with
    | none => exact ht
    | some r => exact ⟨v, Asrt.pure_star.2 ⟨⟨rfl, fun _ => rfl⟩, ht⟩⟩
  · intro q v w hv hl
    subst hl
    exact hBufDestroy_spec (Or.inr (hp _ hv))
  · rw [leaving_emp] at ht
    refine copies_of ?_
    cases r with
    | none => exact ht
    | some r =>
      obtain ⟨w, ht⟩ := ht
      obtain ⟨h1, ht⟩ := Asrt.pure_star.1 ht
      exact ⟨w, Asrt.pure_star.2 ⟨⟨arrLoss_two h1.1, h1.2⟩, ht⟩⟩

theorem hHsFill_view (c : Rules) (f : Bool) (h : Heap) (a x : Addr) (v w : Handshake) (rk pp e : Ptr) (k : Option RootKey) (q : Option Packet) (ek : Option EcKey)
    (hw : w.eph = none ∧ w.rootKey = none ∧ w.pendingPkt = none) (ha : Has isHs h a v) :
    Triple c f (keep h ∗ isHs x w ∗ optRep isTRoot rk k ∗ optRep isTPkt pp q ∗ optRep isKey e ek) (hHsFill (some a) (some x) rk pp e)
      (fun r _ => keep h ∗ ⌜r = some x⌝ ∗ isHs x { w with status := v.status, isInitiator := v.isInitiator, evo := v.evo, rootKey := k, pendingPkt := q, eph := ek }) := by
  obtain ⟨w1, w2, w3, w4, w5, w6, w7, w8, w9, w10⟩ := w
  obtain ⟨rfl, rfl, rfl⟩ := hw
  unfold hHsFill
  sread hs_scal_view ha
  dsimp only
  unfold isHs
  sintro
  rename_i l r ps e1 k1 q1
  dsimp only
  cases e1 with
  | some _ => simp only [optRep]; sintro; rename_i hx; exact False.elim hx
  | none => cases k1 with
    | some _ => simp only [optRep]; sintro; rename_i hx; exact False.elim hx
    | none => cases q1 with
      | some _ => simp only [optRep]; sintro; rename_i hx; exact False.elim hx
      | none =>
        simp only [optRep_null, Asrt.star_emp]
        sread field_reads x _ _ _ _ rfl
        sread field_reads x _ _ _ _ rfl
        sread field_reads x _ _ _ _ rfl
        sstep store_spec c f x _ _
        intro _ f2 _
        refine Triple.ret fun y hy => ?_
        refine (?_ : ∀ y, _ → (keep h ∗ ⌜some x = some x⌝ ∗ Asrt.ex _) y) y hy
        sentail

theorem copies_eq {α : Type} {R : Addr → α → Asrt} {v : Option α} {r : Ptr} {f : Bool} (hr : ¬(v.isSome = true ∧ r = none)) :
    Asrt.le (copies R (fun x y => y = x) v r f) (optRep R r v) := by
  intro z ⟨w, hz⟩
  obtain ⟨⟨hw, hr'⟩, hz2⟩ := Asrt.pure_star.1 hz
  have := hw.eq fun h => by cases r with
    | none => exact absurd ⟨h, rfl⟩ hr
    | some r => exact hr'.symm
  rw [← this]
  exact hz2

theorem copies_null {α : Type} {R : Addr → α → Asrt} {L : α → α → Prop} {v : Option α} {f : Bool} (hv : v.isSome = true) :
    Asrt.le (copies R L v none f) ⌜f = true⌝ := by
  intro z ⟨w, hz⟩
  obtain ⟨⟨hw, hr'⟩, hz2⟩ := Asrt.pure_star.1 hz
  cases hw with
  | none => cases hv
  | lost h => exact ⟨h, hz2⟩
  | got h he => cases hr'

theorem Triple.weak {c : Rules} {f : Bool} {A P P' F : Asrt} {m : H β} {Q : β → Bool → Asrt} (hp : Asrt.le P P') (hA : A = P ∗ F)
    (hm : Triple c f (P' ∗ F) m Q) : Triple c f A m Q := by
  rw [hA]
  exact Triple.conseq hm (fun _ h => Asrt.star_mono hp h) (fun _ _ _ _ h => h)

theorem hasOpt_some {V : Type} {R : Addr → V → Asrt} {h : Heap} {p : Ptr} {v : Option V} (hh : HasOpt R h p v) : p.isSome = v.isSome := by
  cases p <;> cases v <;> first | rfl | exact False.elim hh

theorem hHsCopyRest_spec (c : Rules) (f : Bool) (hc : c.crash) (h : Heap) (a x : Addr) (v w : Handshake) (hw : w.eph = none ∧ w.rootKey = none ∧ w.pendingPkt = none)
    (hp : ∀ b ∈ v.publics, c.pub b) (hpw : ∀ b ∈ w.publics, c.pub b) (he : ∀ k, v.eph = some k → c.pub k.pub) (ha : Has isHs h a v) :
    Triple c f (keep h ∗ isHs x w) (hHsCopyRest (some a) (some x))
      (fun r f' => keep h ∗ fresh isHs { w with status := v.status, isInitiator := v.isInitiator, evo := v.evo, rootKey := v.rootKey, pendingPkt := v.pendingPkt.map Packet.plain, eph := v.eph } r f') := by
  obtain ⟨rk, r1, hrk⟩ := hs_root_view ha
  obtain ⟨pp, r2, hpp⟩ := hs_pending_view ha
  obtain ⟨e, r3, hek⟩ := hs_eph_view ha
  have n1 := hasOpt_some hrk
  have n2 := hasOpt_some hpp
  have n3 := hasOpt_some hek
  have hpl : ∀ q, v.pendingPkt.map Packet.plain = some q → ∀ b ∈ q.publics, c.pub b := by
    intro q hq b hb
    obtain ⟨p, hpq, rfl⟩ := Option.map_eq_some_iff.1 hq
    refine hp b ?_
    simp only [Handshake.publics, hpq, Option.map_some, Option.getD_some, List.mem_append]
    refine Or.inr ?_
    simp only [Packet.publics, Packet.plain, List.mem_append, List.mem_cons] at hb ⊢
    simp only [Option.toList] at hb ⊢
    grind
  have t1 : Triple c f (keep h) (hTRootCopy rk) (fun r f' => keep h ∗ copies isTRoot (fun x y => y = x) (v.rootKey.map id) r f') :=
    copy_opt (cp := hTRootCopy) rfl hrk fun q x _ hx => Triple.conseq (Triple.view (fun z hz => hTRootCopy_keep c f q x z hz) hx) (fun _ h => h)
      fun r f' s _ hs => Asrt.star_mono_r (fun t ht => copies_fresh ht) hs
  have t2 : ∀ f, Triple c f (keep h) (hTPktCopy pp) (fun r f' => keep h ∗ copies isTPkt (fun x y => y = x) (v.pendingPkt.map Packet.plain) r f') := fun f =>
    copy_opt (cp := hTPktCopy) rfl hpp fun q x hxv hx => Triple.conseq (hTPktCopy_view c f h q x (fun b hb => hp b (by
      simp [Handshake.publics, hxv, hb])) hx) (fun _ h => h)
      fun r f' s _ hs => Asrt.star_mono_r (fun t ht => copies_fresh ht) hs
  have t3 : ∀ f, Triple c f (keep h) (hKeyCopy e) (fun r f' => keep h ∗ copies isKey (fun x y => y = x) (v.eph.map id) r f') := fun f =>
    copy_opt (cp := hKeyCopy) rfl hek fun q x hxv hx => Triple.conseq (hKeyCopy_view c f hc h q x (he x hxv) hx) (fun _ h => h)
      fun r f' s _ hs => Asrt.star_mono_r (fun t ht => copies_fresh ht) hs
  simp only [Option.map_id, id_eq] at t1
  simp only [Option.map_id, id_eq] at t3
  unfold hHsCopyRest
  sread r1
  refine Triple.seq t1 (by frame) fun rkc f1 hf1 => ?_
  by_cases c1 : rk.isSome = true ∧ rkc.isNone = true
  · rw [if_pos c1]
    obtain rfl := Option.isNone_iff_eq_none.1 c1.2
    refine Triple.weak (copies_null (n1 ▸ c1.1)) (by frame) ?_
    sintro
    rename_i hf
    sdestroy hHsDestroy_spec (v := w) hpw
    intro f2 hf2
    refine Triple.ret fun y hy => ?_
    have hg : f2 = true := hf2 hf
    refine (?_ : ∀ y, _ → (keep h ∗ ⌜f2 = true⌝) y) y hy
    sentail
  · rw [if_neg c1]
    refine Triple.weak (copies_eq (by rw [← n1]; simpa using c1)) (by frame) ?_
    sread r2
    refine Triple.seq (t2 f1) (by frame) fun ppc f2 hf2 => ?_
    by_cases c2 : pp.isSome = true ∧ ppc.isNone = true
    · rw [if_pos c2]
      obtain rfl := Option.isNone_iff_eq_none.1 c2.2
      refine Triple.weak (copies_null (v := v.pendingPkt.map Packet.plain) (by rw [Option.isSome_map]; exact n2 ▸ c2.1)) (by frame) ?_
      sintro
      rename_i hf
      sdestroy (Destroys.opt (v := v.rootKey) (R := isTRoot) (d := hTRootDestroy) rfl fun a x _ => hTRootDestroy_spec c a x)
      intro f3 hf3
      sdestroy hHsDestroy_spec (v := w) hpw
      intro f4 hf4
      refine Triple.ret fun y hy => ?_
      have hg : f4 = true := hf4 (hf3 hf)
      refine (?_ : ∀ y, _ → (keep h ∗ ⌜f4 = true⌝) y) y hy
      sentail
    · rw [if_neg c2]
      refine Triple.weak (copies_eq (v := v.pendingPkt.map Packet.plain) (by rw [Option.isSome_map, ← n2]; simpa using c2)) (by frame) ?_
      sread r3
      refine Triple.seq (t3 f2) (by frame) fun ec f3 hf3 => ?_
      by_cases c3 : e.isSome = true ∧ ec.isNone = true
      · rw [if_pos c3]
        obtain rfl := Option.isNone_iff_eq_none.1 c3.2
        refine Triple.weak (copies_null (n3 ▸ c3.1)) (by frame) ?_
        sintro
        rename_i hf
        sdestroy (Destroys.opt (v := v.rootKey) (R := isTRoot) (d := hTRootDestroy) rfl fun a x _ => hTRootDestroy_spec c a x)
        intro f4 hf4
        sdestroy hHsDestroy_spec (v := w) hpw
        intro f5 hf5
        sdestroy (Destroys.opt (v := v.pendingPkt.map Packet.plain) (R := isTPkt) (d := hTPktDestroy) rfl fun a x hx => hTPktDestroy_spec (v := x) (hpl x hx))
        intro f6 hf6
        refine Triple.ret fun y hy => ?_
        have hg : f6 = true := hf6 (hf5 (hf4 hf))
        refine (?_ : ∀ y, _ → (keep h ∗ ⌜f6 = true⌝) y) y hy
        sentail
      · rw [if_neg c3]
        refine Triple.weak (copies_eq (by rw [← n3]; simpa using c3)) (by frame) ?_
        refine Triple.tail ?_
        sstep hHsFill_view c f3 h a x v w rkc ppc ec v.rootKey (v.pendingPkt.map Packet.plain) v.eph hw ha
        intro r f4 _
        sintro
        rename_i hr
        subst hr
        refine Triple.ret fun y hy => ?_
        exact hy

/-- With memory a handshake is copied whole. -/
theorem hsCopy_has {h : Heap} {a : Addr} {v : Handshake} (ha : Has isHs h a v) (he : v.evo ≠ 0) :
    hsCopy v = some { v with pendingPkt := v.pendingPkt.map Packet.plain } := by
  obtain ⟨l, -, hl⟩ := hs_self_view ha
  obtain ⟨rm, -, hrm⟩ := hs_remote_view ha
  obtain ⟨ps, -, hps⟩ := hs_list_view ha
  obtain ⟨rk, -, hrk⟩ := hs_root_view ha
  obtain ⟨pp, -, hpp⟩ := hs_pending_view ha
  obtain ⟨e, -, hek⟩ := hs_eph_view ha
  obtain ⟨-, -, hn⟩ := arr_view hps
  obtain ⟨x, -, hx⟩ := hn 0 v.pkt0 rfl
  obtain ⟨y, -, hy⟩ := hn 1 v.pkt1 rfl
  have opt : ∀ {α : Type} {R : Addr → α → Asrt} {cp : α → Option α} {p : Ptr} {v : Option α} {g : α → α}, HasOpt R h p v →
      (∀ a x, Has R h a x → cp x = some (g x)) → copyOpt cp v = some (v.map g) := by
    intro α R cp p v g hv hcp
    cases v with
    | none => rfl
    | some v => cases p with
      | none => exact False.elim hv
      | some p => simp [copyOpt, hcp p v hv]
  have bufs : ∀ {p : Ptr} {v : Option Bytes}, HasOpt isBuf h p v → dupOpt v = some v := by
    intro p v hv
    cases v with
    | none => rfl
    | some v => cases p with
      | none => exact False.elim hv
      | some p => simp [dupOpt, dup_of (has_valid hv)]
  have e1 := opt (g := id) (cp := chainCopy) hrm fun a x hx => chainCopy_has hx
  have e2 := opt (g := id) hrk (cp := rootKeyCopy) fun a x hx => by
    obtain ⟨s, ci, m, n⟩ := x
    sview hx isTRoot
    rename_i p hl _ _
    simp [rootKeyCopy, dup_of (has_valid (by assumption : Has isBuf h p s)), rootKeyCreate, hl]
  have e3 := opt (g := Packet.plain) hpp (cp := pktCopy) fun a x hx => by
    obtain ⟨hd, b, m, n⟩ := x
    sview hx isTPkt
    have h1 : dup b = some b := dup_of (has_valid (by assumption : Has isBuf h _ b))
    have h2 : dupOpt m = some m := bufs (by assumption : HasOpt isBuf h _ m)
    simp [pktCopy, h1, h2, Packet.plain]
  have e4 := opt (g := id) (cp := ecKeyCopy) hek fun a x hx => ecKeyCopy_has hx
  unfold hsCopy
  rw [chainCopy_has hl, e1, bufs hx, bufs hy, e2, e3, e4]
  simp [he]

/-- What `wickr_transport_handshake_copy` gives. -/
def hsCopied (v : Handshake) (r : Ptr) (f : Bool) : Asrt :=
  match r with
  | none => ⌜f = true ∨ v.evo = 0⌝
  | some x => Asrt.ex fun (w : Handshake) => ⌜HsLoss v w ∧ (f = false → hsCopy v = some w)⌝ ∗ isHs x w

theorem hHsCopy_view (c : Rules) (f : Bool) (hc : c.crash) (h : Heap) (a : Addr) (v : Handshake) (hp : ∀ b ∈ v.publics, c.pub b)
    (he : ∀ k, v.eph = some k → c.pub k.pub) (ha : Has isHs h a v) :
    Triple c f (keep h) (hHsCopy (some a)) (fun r f' => keep h ∗ hsCopied v r f') := by
  obtain ⟨l, r0, hl⟩ := hs_self_view ha
  obtain ⟨rm, r1, hrm⟩ := hs_remote_view ha
  obtain ⟨ps, r2, hps⟩ := hs_list_view ha
  have n1 := hasOpt_some hrm
  have hpr : ∀ b ∈ (v.remote.map Chain.publics).getD [], c.pub b := fun b hb => hp b (by simp [Handshake.publics, hb])
  have hpk : ∀ b, some b ∈ [v.pkt0, v.pkt1] → c.pub b := fun b hb => hp b (by
    simp only [List.mem_cons, List.not_mem_nil, or_false] at hb
    rcases hb with hb | hb <;> simp [Handshake.publics, ← hb])
  have t2 : ∀ f, Triple c f (keep h) (hChainCopy rm) (fun r f' => keep h ∗ copies isChain chainLoss (v.remote.map id) r f') := fun f =>
    copy_opt (cp := hChainCopy) rfl hrm fun q x hxv hx => Triple.conseq (hChainCopy_view c f hc h q x (fun b hb => hp b (by
      simp [Handshake.publics, hxv, hb])) hx) (fun _ h => h) fun r f' s _ hs => Asrt.star_mono_r (fun t ht => copies_of ht) hs
  simp only [Option.map_id, id_eq] at t2
  have t1 : Triple c f (keep h) (hChainCopy (some l)) (fun r f' => keep h ∗ copies isChain chainLoss (some v.self) r f') :=
    Triple.conseq (hChainCopy_view c f hc h l v.self (fun b hb => hp b (by simp [Handshake.publics, hb])) hl) (fun _ h => h)
      fun r f' s _ hs => Asrt.star_mono_r (fun t ht => copies_of ht) hs
  unfold hHsCopy
  dsimp only
  sread r0
  refine Triple.seq t1 (by frame) fun lc f1 hf1 => ?_
  sread r1
  refine Triple.seq (t2 f1) (by frame) fun rc f2 hf2 => ?_
  sread r2
  refine Triple.seq (hBufs2Copy_view c f2 h ps v.pkt0 v.pkt1 hpk hps) (by frame) fun pc f3 hf3 => ?_
  unfold copies
  sintro
  rename_i z y x hx hy hz
  have hpx : ∀ w, x = some w → ∀ b ∈ w.publics, c.pub b := by
    refine chainLoss_publics' hx.1 fun b hb => hp b ?_
    simp [Handshake.publics]
    simp at hb
    exact Or.inl hb
  have hpy := chainLoss_publics' hy.1 hpr
  have hpz : ∀ w, z = some w → ∀ b, some b ∈ w → c.pub b := by
    intro w hw b hb
    subst hw
    cases hz.1 with
    | got h he => subst h; exact hpk b hb
  by_cases cnd : lc.isNone = true ∨ (rc.isNone = true ∧ rm.isSome = true) ∨ pc.isNone = true
  · rw [if_pos cnd]
    refine hHsCopyUndo_tail f3 lc rc pc x y z hpx hpy hpz (by frame) fun f4 hf4 s hs => ?_
    have hf : f4 = true := by
      refine hf4 ?_
      rcases cnd with h | ⟨h, h'⟩ | h
      · obtain rfl := Option.isNone_iff_eq_none.1 h
        obtain ⟨h1, h2⟩ := hx
        cases h1 with
        | lost h => exact hf3 (hf2 h)
        | got h he => cases h2
      · obtain rfl := Option.isNone_iff_eq_none.1 h
        obtain ⟨h1, h2⟩ := hy
        rw [n1] at h'
        generalize v.remote = vr at h1 h'
        cases h1 with
        | none => cases h'
        | lost h => exact hf3 h
        | got h he => cases h2
      · obtain rfl := Option.isNone_iff_eq_none.1 h
        obtain ⟨h1, h2⟩ := hz
        cases h1 with
        | lost h => exact h
        | got h he => cases h2
    exact (by sentail : ∀ s, keep h s → (keep h ∗ ⌜f4 = true ∨ v.evo = 0⌝) s) s hs
  · rw [if_neg cnd]
    cases lc with
    | none => exact absurd (Or.inl rfl) cnd
    | some lc => cases pc with
      | none => exact absurd (Or.inr (Or.inr rfl)) cnd
      | some pc =>
        cases x with
        | none => cases hx.2
        | some x => cases z with
          | none => cases hz.2
          | some z =>
            obtain rfl : z = [v.pkt0, v.pkt1] := by
              cases hz.1 with
              | got h he => exact h
            have hxl : chainLoss v.self x ∧ (f1 = false → x = v.self) := by
              cases hx.1 with
              | got h he => exact ⟨h, he⟩
            have hys : y.isSome = v.remote.isSome := by
              have hy2 := hy.2
              have hy1 := hy.1
              rw [← n1]
              cases hr : y with
              | some y' =>
                subst hr
                cases hv : v.remote with
                | none => rw [hv] at hy1; cases hy1
                | some r' => rw [n1, hv]; rfl
              | none =>
                subst hr
                cases rc with
                | some rc => cases hy2
                | none =>
                  cases rm with
                  | none => rfl
                  | some rm => exact absurd (Or.inr (Or.inl ⟨rfl, rfl⟩)) cnd
            sread hs_scal_view ha
            dsimp only
            show Triple c f3 (isChain lc x ∗ optRep isChain rc y ∗ isArr isBuf pc [v.pkt0, v.pkt1] ∗ keep h) _ _
            unfold onNull
            sstep hHsWith_spec c f3 lc pc rc x y v.pkt0 v.pkt1 v.evo
            intro q f4 hf4
            cases q with
            | none =>
              dsimp only
              sintro
              rename_i hf
              refine hHsCopyUndo_tail f4 (some lc) rc (some pc) (some x) y (some [v.pkt0, v.pkt1]) hpx hpy hpz (F := keep h) (by show _ = (isChain lc x ∗ optRep isChain rc y ∗ isArr isBuf pc [v.pkt0, v.pkt1]) ∗ keep h; ac_rfl) fun f5 hf5 s hs => ?_
              have hf : f5 = true ∨ v.evo = 0 := hf.imp_left hf5
              exact (by sentail : ∀ s, keep h s → (keep h ∗ ⌜f5 = true ∨ v.evo = 0⌝) s) s hs
            | some q =>
              dsimp only
              sintro
              rename_i hevo
              refine Triple.tail ?_
              sstep hHsCopyRest_spec c f4 hc h a q v ⟨x, y, v.pkt0, v.pkt1, .unknown, none, none, none, false, v.evo⟩ ⟨rfl, rfl, rfl⟩ hp ?_ he ha
              rotate_left
              · intro r f5 hf5
                rw [Asrt.star_emp]
                refine Triple.ret fun s hs => Asrt.star_mono_r (fun t ht => ?_) hs
                cases r with
                | none => exact ⟨Or.inl ht.1, ht.2⟩
                | some r =>
                  refine ⟨⟨x, y, v.pkt0, v.pkt1, v.status, v.eph, v.rootKey, v.pendingPkt.map Packet.plain, v.isInitiator, v.evo⟩, Asrt.pure_star.2 ⟨⟨⟨hxl.1, ⟨f2, hy.1⟩, hys, rfl, rfl, rfl, rfl, rfl, rfl, rfl, rfl⟩, fun hn => ?_⟩, ht⟩⟩
                  have h3 := oom_back hf4 (oom_back hf5 hn)
                  have h2 := oom_back hf3 h3
                  have h1 := oom_back hf2 h2
                  have hex : x = v.self := hxl.2 h1
                  have hey : y = v.remote := hy.1.exact h2
                  subst hex hey
                  exact hsCopy_has ha hevo
              · intro b hb
                simp only [Handshake.publics, List.mem_append, Option.map_none, Option.getD_none, List.not_mem_nil, or_false] at hb
                rcases hb with ((hb | hb) | hb) | hb
                · exact hpx x rfl b hb
                · cases y with
                  | none => cases hb
                  | some y => exact hpy y rfl b hb
                · exact hpk b (by cases hv : v.pkt0 <;> simp_all)
                · exact hpk b (by cases hv : v.pkt1 <;> simp_all)

end Wickr
