import Verif.Lemmas.SepTAns
/-
Triples for the functions of transport_ctx.c: starting a handshake.
-/
namespace Wickr
open Asrt Spec

variable {E : Engine}

theorem hHsCreate_null (f : Bool) (r : Ptr) (evo : UInt32) : Triple laxest f emp (hHsCreate none r evo) (fun x _ => ⌜x = none⌝) := by
  unfold hHsCreate
  refine Triple.onNull' (hArrNew_spec laxest f 2 (by decide)) ?_ ?_
  · intro f1 _ hf
    exact Triple.ret fun y hy => ⟨rfl, hy⟩
  · intro ps f1 _
    have harr : ∀ y, isSlots ps 2 (List.replicate 2 none) y → isArr isBuf ps [none, none] y := fun y hy =>
      ⟨[none, none], by dsimp only [List.replicate] at hy ⊢; unfold items items items; simp only [optRep_null, Asrt.star_emp]; exact hy⟩
    refine Triple.conseq (P := isArr isBuf ps [none, none]) ?_ (fun y hy => harr y (by simpa only [Asrt.star_emp] using hy)) (fun _ _ _ _ h => h)
    unfold onNull hHsWith
    refine Triple.pureBind (x := (none : Ptr)) ?_
    dsimp only
    refine Triple.destroy (F := emp) (hArrDestroy_deep (R := isBuf) (xs := [none, none]) fun b q hb => by simp at hb) (by simp only [Asrt.star_emp]) ?_
    intro f3 hf3
    exact Triple.ret fun y hy => ⟨rfl, hy⟩

/-- What creating a handshake for a context gives.  If memory runs out it may not be held to the remote identity of the context. -/
def CreatedFor (c : TCtx) (f : Bool) (v : Handshake) : Prop :=
  (f = false → tCreateHandshake c = some v) ∧ v.status = .unknown ∧ v.eph = none ∧ v.rootKey = none ∧ v.pendingPkt = none ∧ v.evo = c.evo ∧
    chainLoss c.self v.self ∧ CopyOf chainLoss c.remote v.remote f

def createdFor (c : TCtx) (r : Ptr) (f : Bool) : Asrt :=
  match r with
  | none => ⌜f = true ∨ tCreateHandshake c = none⌝
  | some q => Asrt.ex fun v => ⌜CreatedFor c f v⌝ ∗ isHs q v

theorem hsCreate_fields {l : Chain} {r : Option Chain} {evo : UInt32} {v : Handshake} (h : hsCreate l r evo = some v) :
    v = ⟨l, r, none, none, .unknown, none, none, none, false, evo⟩ := by
  unfold hsCreate at h
  split at h
  · cases h
  · cases h; rfl

theorem hTCreateHandshake_spec (f : Bool) (a : Addr) (c : TCtx) :
    Triple laxest f (isTCtx a c) (hTCreateHandshake (some a)) (fun r f' => isTCtx a c ∗ createdFor c r f') := by
  refine Triple.owned fun h hh => ?_
  obtain ⟨rx, tx, l, rm, pd, h1, -, -, h2, h3, -⟩ := tctx_has (has_of hh)
  have hcs := chainCopy_has h2
  have hcr : c.remote.bind chainCopy = c.remote := by
    generalize c.remote = x at h3
    cases rm with
    | none => cases x with
      | none => rfl
      | some x => exact h3.elim
    | some rm => cases x with
      | none => exact h3.elim
      | some x => exact chainCopy_has h3
  have hval : tCreateHandshake c = hsCreate c.self c.remote c.evo := by
    unfold tCreateHandshake
    rw [hcs, hcr]
    rfl
  have t2 : ∀ f, Triple laxest f (keep h) (hChainCopy rm) (fun r f' => keep h ∗ copies isChain chainLoss (c.remote.map id) r f') := fun f =>
    copy_opt (cp := hChainCopy) rfl h3 fun q x hxv hx => Triple.conseq (hChainCopy_view laxest f trivial h q x (fun b hb => trivial) hx) (fun _ h => h)
      fun r f' s _ hs => Asrt.star_mono_r (fun t ht => copies_of ht) hs
  simp only [Option.map_id, id_eq] at t2
  unfold hTCreateHandshake
  have r2 : Reads (keep h) (field (some a) 2) (some l) := field_view h1 rfl
  have r3 : Reads (keep h) (field (some a) 3) rm := field_view h1 rfl
  have rs : Reads (keep h) (scal (some a)) (.tctx c.status c.evo c.err) := scal_view h1
  sread r2
  sstep hChainCopy_view laxest f trivial h l c.self (fun _ _ => trivial) h2
  intro lc f1 hf1
  sread r3
  refine Triple.seq (t2 f1) (by frame) fun rc f2 hf2 => ?_
  sread rs
  dsimp only
  unfold copies
  sintro
  rename_i y hy
  have fin : ∀ (f : Bool) (A : Asrt), A = keep h → (f = true ∨ tCreateHandshake c = none) → Triple laxest f A (Pure.pure none)
      (fun r f' => keep h ∗ createdFor c r f') := by
    intro f A hA hf
    subst hA
    refine Triple.ret fun y hy => ?_
    unfold createdFor
    dsimp only
    revert hy; revert y
    sentail
  cases lc with
  | none =>
    dsimp only [freshL]
    sintro
    rename_i ho
    unfold onNull
    refine Triple.seq (F := keep h ∗ optRep isChain rc y) (hHsCreate_null f2 rc c.evo) (by rw [Asrt.emp_star]; ac_rfl) fun x f3 hf3 => ?_
    sintro
    rename_i hx
    subst hx
    dsimp only
    refine Triple.pureBind (x := (none : Ptr)) ?_
    refine Triple.destroy (F := keep h) (Destroys.opt (v := y) (R := isChain) (d := hChainDestroy) rfl fun a x hx => hChainDestroy_spec (v := x) fun _ _ => trivial) (by ac_rfl) ?_
    intro f4 hf4
    exact fin f4 _ (by simp only) (Or.inl (hf4 (hf3 (hf2 ho))))
  | some lc =>
    dsimp only [freshL]
    sintro
    rename_i x hx
    unfold onNull
    sstep hHsCreate_spec laxest f2 lc rc x y c.evo
    intro q f3 hf3
    cases q with
    | none =>
      dsimp only [orGives]
      sintro
      rename_i hn
      sdestroy hChainDestroy_spec (v := x) (fun _ _ => trivial)
      intro f4 hf4
      refine Triple.destroy (F := keep h) (Destroys.opt (v := y) (R := isChain) (d := hChainDestroy) rfl fun a x hx => hChainDestroy_spec (v := x) fun _ _ => trivial) (by ac_rfl) ?_
      intro f5 hf5
      refine fin f5 _ (by simp only) (hn.imp (fun h => hf5 (hf4 h)) fun hn => ?_)
      rw [hval]
      unfold hsCreate at hn ⊢
      split at hn
      · rename_i h0
        rw [if_pos h0]
      · cases hn
    | some q =>
      dsimp only [orGives]
      sintro
      rename_i v hv
      refine Triple.ret fun s hs => ?_
      refine Asrt.star_mono_r (P := keep h) (F := isHs q v) (fun t ht => ?_) (by rw [Asrt.star_comm]; exact hs)
      have hve := hsCreate_fields hv
      refine ⟨v, Asrt.pure_star.2 ⟨⟨fun hf => ?_, by rw [hve], by rw [hve], by rw [hve], by rw [hve], by rw [hve], by rw [hve]; exact hx.1, by rw [hve]; exact (hy.1.later hf3)⟩, ht⟩⟩
      rw [hval, ← hv, hx.2 (oom_back (fun h => hf3 (hf2 h)) hf), hy.1.exact (oom_back hf3 hf)]

theorem CreatedFor.tied {c : TCtx} {f g : Bool} {v : Handshake} {R0 : Option Chain} {A : Chain → Prop} {S Y : Prop} {st : Bool} (h : CreatedFor c f v)
    (hi : TInv E R0 A S Y g st c) : Tied E R0 f v.remote := by
  have hc := h.2.2.2.2.2.2.2
  refine ⟨fun R hR => ?_, fun hR => ?_⟩
  · obtain ⟨d, h1, h2⟩ := hi.held.1 R hR
    rw [h1] at hc
    generalize v.remote = w at hc
    cases hc with
    | lost h => exact Or.inr ⟨h, rfl⟩
    | got h he => exact Or.inl ⟨_, rfl, h2.loss h⟩
  · rw [hi.held.2 hR] at hc
    generalize v.remote = w at hc
    cases hc
    rfl

/-! ### Starting -/

theorem hTAbandon_spec (cc : Rules) (f : Bool) (a : Addr) (c : TCtx) (e : TErr) (hc : ∀ b h, c.pending = some h → b ∈ h.publics → cc.pub b) :
    Triple cc f (isTCtx a c) (hTAbandon (some a) e) (fun ss _ => isTOut a ss (tError { c with pending := none } e)) := by
  unfold hTAbandon
  refine tctx_open (c := c) (F := emp) (Asrt.star_emp _).symm fun rx tx l r pd => ?_
  unfold isTFlat
  sstep destroyField_spec (a := a) (x := .tctx c.status c.evo c.err) (ps := [rx, tx, some l, r, pd]) (i := 4) (q := pd) f
    (Destroys.opt (v := c.pending) (R := isHs) (d := hHsDestroy) rfl fun a x hx => hHsDestroy_spec (v := x) fun b hb => hc b x hx hb) rfl
  intro _ f1 hf1
  simp only [List.set_cons_succ, List.set_cons_zero]
  refine tctx_shut (a := a) (c := { c with pending := none }) (rx := rx) (tx := tx) (l := l) (r := r) (pd := none) (F := emp) ?_ ?_
  · unfold isTFlat
    simp only [optRep_null, Asrt.star_emp]
  · rw [Asrt.star_emp]
    exact hTError_spec cc f1 a _ e

/-- What the callbacks are given by `start`. -/
def StartSeen (es : List TEv) : Prop := ∀ e ∈ es, e = .state .error ∨ e = .state .initialHandshake ∨ ∃ d, e = .tx d

/-- The context after `start`. -/
def startPost (E : Engine) (R0 : Option Chain) (A : Chain → Prop) (S Y : Prop) (a : Addr) (val : TCtx × List TEv) (ψ : Prop)
    (ss : List TSeen) (f : Bool) : Asrt :=
  Asrt.ex fun z => ⌜(f = false → val = z) ∧ TInv E R0 A S Y f true z.1 ∧ StartSeen z.2⌝ ∗ isTOut a ss z ∗ junk (f = true ∨ ψ)

theorem TInv.errorS {R0 : Option Chain} {A : Chain → Prop} {S Y : Prop} {f st : Bool} {c : TCtx} (hi : TInv E R0 A S Y f st c) (e : TErr) :
    TInv E R0 A S Y f true (tError c e).1 := by
  have h := hi.error e
  exact ⟨h.held, h.keyed, h.live, h.refs, fun p hp => (h.pend p hp).mono (fun _ h => h) id id id (fun _ => rfl), fun _ => by rw [(tError_same c e).2.1]; simp⟩

theorem hTStart_spec (hE : E.Fits) {R0 : Option Chain} {A : Chain → Prop} {S Y : Prop} {st : Bool} (f : Bool) (a : Addr) (c : TCtx) (r : HsRand)
    (hi : TInv E R0 A S Y f st c) (hr : HsRandOk r) :
    Triple laxest f (isTCtx a c) (hTStart E (some a) r) (startPost E R0 A S Y a (tStart E c r) (TStartLeaks E c r)) := by
  obtain ⟨⟨d, hd, hr2⟩, hr1, -⟩ := hr
  have bad : ∀ (f1 : Bool) (P G : Asrt) (w : TCtx) (e : TErr), P = isTCtx a w ∗ G → Asrt.le G (junk (f1 = true ∨ TStartLeaks E c r)) → TInv E R0 A S Y f1 st w →
      (f1 = false → tStart E c r = tError w e) → Triple laxest f1 P (hTError (some a) e) (startPost E R0 A S Y a (tStart E c r) (TStartLeaks E c r)) := by
    intro f1 P G w e hP hG hw hv
    refine Triple.tail ?_
    rw [hP]
    sstep hTError_spec laxest f1 a w e
    intro ss f2 hf2
    refine Triple.ret fun y hy => ⟨tError w e, Asrt.pure_star.2 ⟨⟨fun h => hv (oom_back hf2 h), (hw.oom hf2).errorS e, fun x hx => Or.inl ((tError_same w e).2.2 x hx)⟩, ?_⟩⟩
    exact Asrt.star_mono_r (fun z hz => junk_mono (fun h => h.imp_left hf2) z (hG z hz)) hy
  have abandon : ∀ (f1 : Bool) (P G : Asrt) (w : TCtx) (e : TErr), P = isTCtx a w ∗ G → Asrt.le G (junk (f1 = true ∨ TStartLeaks E c r)) → TInv E R0 A S Y f1 st { w with pending := none } →
      (f1 = false → tStart E c r = tError { w with pending := none } e) → Triple laxest f1 P (hTAbandon (some a) e) (startPost E R0 A S Y a (tStart E c r) (TStartLeaks E c r)) := by
    intro f1 P G w e hP hG hw hv
    refine Triple.tail ?_
    rw [hP]
    sstep hTAbandon_spec laxest f1 a w e (fun _ _ _ _ => trivial)
    intro ss f2 hf2
    refine Triple.ret fun y hy => ⟨tError { w with pending := none } e, Asrt.pure_star.2 ⟨⟨fun h => hv (oom_back hf2 h), (hw.oom hf2).errorS e, fun x hx => Or.inl ((tError_same _ e).2.2 x hx)⟩, ?_⟩⟩
    exact Asrt.star_mono_r (fun z hz => junk_mono (fun h => h.imp_left hf2) z (hG z hz)) hy
  unfold hTStart
  dsimp only
  refine Triple.read (F := emp) (tctx_scal_reads a c) (Asrt.star_emp _).symm ?_
  dsimp only
  by_cases hs : c.status ≠ .fresh
  · rw [if_pos hs]
    exact bad f _ emp c _ (Asrt.star_emp _).symm junk_emp hi fun _ => by unfold tStart; rw [if_pos hs]
  · rw [if_neg hs]
    have hfresh : c.status = .fresh := Decidable.byContradiction hs
    refine Triple.seq (F := emp) (hTCreateHandshake_spec f a c) (Asrt.star_emp _).symm fun q f1 hf1 => ?_
    refine tctx_open (c := c) (by frame) fun rx tx l rm pd => ?_
    unfold isTFlat
    sstep setField_spec laxest f1 a (.tctx c.status c.evo c.err) [rx, tx, some l, rm, pd] 4 q (by simp)
    intro _ f2 hf2
    simp only [List.set_cons_succ, List.set_cons_zero]
    have hj : ∀ g : Bool, Asrt.le (optRep isHs pd c.pending) (junk (g = true ∨ TStartLeaks E c r)) := by
      intro g
      cases hp : c.pending with
      | none => cases pd with
        | none => exact junk_emp
        | some _ => intro y hy; exact hy.1.elim
      | some x => exact le_junk (Or.inr ⟨hfresh, Or.inl (by simp [hp])⟩)
    have hi2 : ∀ {g : Bool}, (f2 = true → g = true) → TInv E R0 A S Y g st { c with pending := none } :=
      fun hg => (hi.oom fun h => hg (hf2 (hf1 h))).withPending none fun _ hx => by cases hx
    have hval : ∀ (w : Option Handshake), tCreateHandshake c = w → tStart E c r = match w with
        | none => tError { c with pending := none } .createHandshakeFailed
        | some h =>
          match hsStart E h r with
          | (_, none) => tError { c with pending := none } .startHandshakeFailed
          | (h, some q) =>
            if h.status = .failed then tError { c with pending := none } .startHandshakeFailed
            else match pktSerialize q with
              | none => tError { c with pending := none } .packetSerializationFailed
              | some b =>
                let x := tUpdate { c with pending := some h } .initialHandshake
                (x.1, x.2 ++ [.tx b]) := by
      intro w hw
      unfold tStart
      rw [if_neg hs, hw]
      rfl
    cases q with
    | none =>
      unfold createdFor
      dsimp only
      sintro
      rename_i hn
      refine tctx_shut (a := a) (c := { c with pending := none }) (rx := rx) (tx := tx) (l := l) (r := rm) (pd := none) (F := optRep isHs pd c.pending) ?_ ?_
      · unfold isTFlat
        simp only [optRep_null, Asrt.star_emp]
        ac_rfl
      · refine bad f2 _ _ { c with pending := none } _ rfl (hj f2) (hi2 id) fun hf => ?_
        exact hval none (hn.resolve_left (by simp [oom_back hf2 hf]))
    | some q =>
      unfold createdFor
      dsimp only
      sintro
      rename_i v hv
      have hw : v.status = .unknown ∧ v.eph = none ∧ v.rootKey = none ∧ v.pendingPkt = none := ⟨hv.2.1, hv.2.2.1, hv.2.2.2.1, hv.2.2.2.2.1⟩
      sstep hHsStart_spec hE f2 q v r d hd hr1 hr2 (fun _ => hw.2.1)
      intro o f3 hf3
      sintro
      rename_i z hz
      obtain ⟨w, pk⟩ := z
      unfold isSent
      dsimp only at hz ⊢
      obtain ⟨z1, ⟨-, z2, -, z3, z4, -⟩, z5, z6⟩ := hz
      have hj3 : ∀ {g : Bool}, (f3 = true → g = true) → Asrt.le (optRep isHs pd c.pending ∗ junk (f3 = true ∨ StartLeaks E v r)) (junk (g = true ∨ TStartLeaks E c r)) := by
        intro g hg
        refine junk_star (hj g) fun y hy => ?_
        rcases hy with (hy | hy) | hy
        · exact Or.inl (Or.inl (hg hy))
        · cases hfe : f1 with
          | true => exact Or.inl (Or.inl (hg (hf3 (hf2 hfe))))
          | false => exact Or.inl (Or.inr ⟨hfresh, Or.inr ⟨v, hv.1 hfe, hy⟩⟩)
        · exact Or.inr hy
      refine tctx_shut (a := a) (c := { c with pending := some w }) (rx := rx) (tx := tx) (l := l) (r := rm) (pd := some q)
        (F := optRep isTPkt o pk ∗ optRep isHs pd c.pending ∗ junk (f3 = true ∨ StartLeaks E v r)) ?_ ?_
      · unfold isTFlat
        simp only [optRep_both]
        ac_rfl
      · sread tctx_pending_reads a { c with pending := some w }
        have hps : tPendingStatus { c with pending := some w } = w.status := rfl
        rw [hps]
        cases o with
        | none => cases pk with
          | some pk => dsimp only [optRep]; sabsurd
          | none =>
            dsimp only
            refine abandon f3 _ _ { c with pending := some w } _ ?_ (hj3 id) (hi2 hf3) fun hf => ?_
            · rw [optRep_null, Asrt.emp_star]
            · have e1 := z1 hf
              rw [hval _ (hv.1 (oom_back (fun h => hf3 (hf2 h)) hf))]
              dsimp only
              rw [e1]
        | some o => cases pk with
          | none => dsimp only [optRep]; sabsurd
          | some pk =>
            obtain ⟨-, k2, -⟩ := z6 pk rfl
            have hnf : w.status ≠ .failed := by rw [k2]; simp
            dsimp only
            rw [if_neg hnf, optRep_both]
            sstep hTEmit_spec f3 o pk
            intro b f4 hf4
            cases b with
            | none =>
              dsimp only [gives]
              sintro
              rename_i hn
              refine abandon f4 _ _ { c with pending := some w } _ ?_ (hj3 hf4) (hi2 fun h => hf4 (hf3 h)) fun hf => ?_
              · ac_rfl
              · have e1 := z1 (oom_back hf4 hf)
                rw [hval _ (hv.1 (oom_back (fun h => hf4 (hf3 (hf2 h))) hf))]
                dsimp only
                rw [e1]
                dsimp only
                rw [if_neg hnf, hn.resolve_left (by simp [hf])]
            | some b =>
              dsimp only [gives]
              sintro
              rename_i bs hbs
              sstep hTUpdate_spec laxest f4 a { c with pending := some w } .initialHandshake
              intro ss f5 hf5
              have hup : tUpdate { c with pending := some w } .initialHandshake = ({ c with pending := some w, status := .initialHandshake }, [.state .initialHandshake]) := by
                unfold tUpdate
                rw [if_neg (by dsimp only; rw [hfresh]; simp)]
              rw [hup]
              refine Triple.ret fun y hy => ⟨({ c with pending := some w, status := .initialHandshake }, [.state .initialHandshake] ++ [.tx bs]), Asrt.pure_star.2 ⟨⟨fun hf => ?_, ?_, ?_⟩, ?_⟩⟩
              · have e1 := z1 (oom_back (fun h => hf5 (hf4 h)) hf)
                rw [hval _ (hv.1 (oom_back (fun h => hf5 (hf4 (hf3 (hf2 h)))) hf))]
                dsimp only
                rw [e1]
                dsimp only
                rw [if_neg hnf, hbs, hup]
              · have hi5 : TInv E R0 A S Y f5 st c := hi.oom fun h => hf5 (hf4 (hf3 (hf2 (hf1 h))))
                refine ⟨hi5.held, hi5.keyed, by simp, hi5.refs, fun x hx => ?_, by simp⟩
                cases hx
                refine ⟨⟨by simp [k2], fun _ => ⟨z3.trans hw.2.2.1, z4.trans hw.2.2.2⟩⟩, by simp [k2], fun _ => rfl, fun _ => ?_, by simp [k2], by simp [k2]⟩
                rw [z2]
                exact (hv.tied hi).mono fun h => hf5 (hf4 (hf3 (hf2 h)))
              · intro x hx
                rcases List.mem_cons.1 hx with rfl | hx
                · exact Or.inr (Or.inl rfl)
                · have hx := List.mem_singleton.1 hx
                  exact Or.inr (Or.inr ⟨bs, hx⟩)
              · have hg := tout_append (a := a) (w := { c with pending := some w, status := .initialHandshake }) (ss := ss) (ss' := [.tx b]) (es := [.state .initialHandshake]) (es' := [.tx bs])
                  (A := (isTOut a ss ({ c with pending := some w, status := .initialHandshake }, [.state .initialHandshake]) ∗ isBuf b bs) ∗ optRep isHs pd c.pending ∗ junk (f3 = true ∨ StartLeaks E v r))
                  (G := optRep isHs pd c.pending ∗ junk (f3 = true ∨ StartLeaks E v r)) (by
                    rw [show isTEvents [TSeen.tx b] [TEv.tx bs] = isBuf b bs from Asrt.star_emp _]
                    unfold isTOut
                    ac_rfl) y (by revert hy; revert y; sentail)
                exact Asrt.star_mono_r (hj3 fun h => hf5 (hf4 h)) hg

end Wickr
