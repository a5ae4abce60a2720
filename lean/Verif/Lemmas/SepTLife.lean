import Verif.Lemmas.SepTProc
import Verif.Lemmas.SepStream
/-
Triples for the functions of transport_ctx.c: creating, copying and releasing contexts.
-/
namespace Wickr
open Asrt Spec

variable {E : Engine}

theorem hTCreate_spec (cc : Rules) (f : Bool) (l : Addr) (r : Ptr) (self : Chain) (remote : Option Chain) (evo : UInt32) :
    Triple cc f (isChain l self ∗ optRep isChain r remote) (hTCreate (some l) r evo)
      (fun q f' => orGives (isChain l self ∗ optRep isChain r remote) isTCtx (tCreate self remote evo) q f') := by
  unfold hTCreate tCreate
  dsimp only
  by_cases hc : evo ≠ 0 ∧ evo > ppeMax
  · rw [if_pos hc, if_pos hc]
    refine Triple.ret fun y hy => ?_
    dsimp only [orGives]
    revert hy; revert y; sentail
  · rw [if_neg hc, if_neg hc]
    sgo

theorem hTDestroy_spec {c : Rules} {a : Addr} {v : TCtx} (hr : (∀ s, v.rx = some s → s.ref = 1) ∧ ∀ s, v.tx = some s → s.ref = 1) (hp : ∀ b ∈ v.publics, c.pub b) :
    Destroys c (isTCtx a v) (hTDestroy (some a)) := by
  intro f
  unfold hTDestroy isTCtx
  sintro
  rename_i rx tx l r pd
  sstep destroyField_spec (a := a) (x := .tctx v.status v.evo v.err) (ps := [rx, tx, some l, r, pd]) (i := 2) (q := some l) f
    (hChainDestroy_spec (v := v.self) fun b hb => hp b (by simp [TCtx.publics, hb])) rfl
  intro _ f1 _
  simp only [List.set_cons_succ, List.set_cons_zero]
  sstep destroyField_spec (a := a) (x := .tctx v.status v.evo v.err) (ps := [rx, tx, none, r, pd]) (i := 3) (q := r) f1
    (Destroys.opt (v := v.remote) (R := isChain) (d := hChainDestroy) rfl fun a x hx => hChainDestroy_spec (v := x) fun b hb => hp b (by simp [TCtx.publics, hx, hb])) rfl
  intro _ f2 _
  simp only [List.set_cons_succ, List.set_cons_zero]
  sstep destroyField_spec (a := a) (x := .tctx v.status v.evo v.err) (ps := [rx, tx, none, none, pd]) (i := 1) (q := tx) f2
    (Destroys.opt (v := v.tx) (R := isSCtx) (d := hSCtxDestroy) rfl fun a x hx => hSCtxDestroy_spec (v := x) (Or.inr (hr.2 x hx)) fun b hb => hp b (by simp [TCtx.publics, hx, hb])) rfl
  intro _ f3 _
  simp only [List.set_cons_succ, List.set_cons_zero]
  sstep destroyField_spec (a := a) (x := .tctx v.status v.evo v.err) (ps := [rx, none, none, none, pd]) (i := 0) (q := rx) f3
    (Destroys.opt (v := v.rx) (R := isSCtx) (d := hSCtxDestroy) rfl fun a x hx => hSCtxDestroy_spec (v := x) (Or.inr (hr.1 x hx)) fun b hb => hp b (by simp [TCtx.publics, hx, hb])) rfl
  intro _ f4 _
  simp only [List.set_cons_succ, List.set_cons_zero]
  sstep destroyField_spec (a := a) (x := .tctx v.status v.evo v.err) (ps := [none, none, none, none, pd]) (i := 4) (q := pd) f4
    (Destroys.opt (v := v.pending) (R := isHs) (d := hHsDestroy) rfl fun a x hx => hHsDestroy_spec (v := x) fun b hb => hp b (by simp [TCtx.publics, hx, hb])) rfl
  intro _ f5 _
  simp only [List.set_cons_succ, List.set_cons_zero]
  sgo

/-! ### Copying -/

theorem siv_copy {h : Heap} {a : Addr} {v : StreamIv} (ha : Has isSIv h a v) : streamIvCopy v = some v := by
  obtain ⟨c, s, n⟩ := v
  sview ha isSIv
  simp only [streamIvCopy]
  rw [dup_of (has_valid (by assumption))]
  rfl

theorem sctx_copy {h : Heap} {a : Addr} {v : StreamCtx} (ha : Has isSCtx h a v) : streamCtxCopy v = some { v with ref := 1 } := by
  obtain ⟨k, i, s, d, n⟩ := v
  sview ha isSCtx
  rename_i q hd hc hk hi
  unfold streamCtxCopy
  dsimp only at *
  rw [(has_wf hk).2]
  have e : i.bind streamIvCopy = i := by
    cases i with
    | none => rfl
    | some i => cases q with
      | none => exact hi.elim
      | some q => exact siv_copy hi
  dsimp only
  rw [e, if_neg]
  rintro ⟨h1, h2⟩
  rw [← hd] at h2
  cases i <;> simp_all

/-- A copy of a context, if there is one. -/
def tcopied (c : TCtx) (r : Ptr) (f : Bool) : Asrt :=
  match r with
  | none => ⌜f = true ∨ tCopy c = none⌝
  | some q => Asrt.ex fun w => ⌜(f = false → tCopy c = some w) ∧ TCtxLoss c w⌝ ∗ isTCtx q w

theorem hTCopyOf_spec {c : Rules} (f : Bool) (h : Heap) (a l r : Addr) (tx rx : Ptr) (v : TCtx) (x y : Chain) (t u : Option StreamCtx) (ha : Has isTCtx h a v)
    (h1 : ∀ b ∈ x.publics, c.pub b) (h2 : ∀ b ∈ y.publics, c.pub b) (h3 : ∀ s, t = some s → s.ref = 1 ∧ ∀ b ∈ s.publics, c.pub b)
    (h4 : ∀ s, u = some s → s.ref = 1 ∧ ∀ b ∈ s.publics, c.pub b) :
    Triple c f (keep h ∗ isChain l x ∗ isChain r y ∗ optRep isSCtx tx t ∗ optRep isSCtx rx u) (hTCopyOf (some a) (some l) (some r) tx rx)
      (fun q f' => keep h ∗ fresh isTCtx ⟨u, t, x, some y, v.status, v.evo, none, .noError⟩ q f') := by
  obtain ⟨rx0, tx0, l0, r0, pd0, g1, -⟩ := tctx_has ha
  have rs : Reads (keep h) (scal (some a)) (.tctx v.status v.evo v.err) := scal_view g1
  unfold hTCopyOf
  refine Triple.onNull' (alloc_spec c f (.obj .plain [none, none, none, none, none])) ?_ ?_
  · intro f1 _ hf
    sdestroy hChainDestroy_spec (v := x) h1
    intro f2 hf2
    sdestroy hChainDestroy_spec (v := y) h2
    intro f3 hf3
    sdestroy (Destroys.opt (v := t) (R := isSCtx) (d := hSCtxDestroy) rfl fun a s hs => hSCtxDestroy_spec (v := s) (Or.inr (h3 s hs).1) (h3 s hs).2)
    intro f4 hf4
    sdestroy (Destroys.opt (v := u) (R := isSCtx) (d := hSCtxDestroy) rfl fun a s hs => hSCtxDestroy_spec (v := s) (Or.inr (h4 s hs).1) (h4 s hs).2)
    intro f5 hf5
    have hg : f5 = true := hf5 (hf4 (hf3 (hf2 hf)))
    refine Triple.ret fun z hz => (?_ : ∀ z, _ → (keep h ∗ ⌜f5 = true⌝) z) z hz
    sentail
  · intro q f1 hf1
    sread rs
    sgo

theorem hTCopy_view (c : Rules) (f : Bool) (hc : c.crash) (h : Heap) (a : Addr) (v : TCtx) (hp : ∀ b ∈ v.publics, c.pub b) (ha : Has isTCtx h a v) :
    Triple c f (keep h) (hTCopy (some a)) (fun r f' => keep h ∗ tcopied v r f') := by
  obtain ⟨rx, tx, l, rm, pd, g1, g2, g3, g4, g5, -⟩ := tctx_has ha
  have n1 := hasOpt_some g3
  have n2 := hasOpt_some g2
  have r2 : Reads (keep h) (field (some a) 2) (some l) := field_view g1 rfl
  have r3 : Reads (keep h) (field (some a) 3) rm := field_view g1 rfl
  have r1 : Reads (keep h) (field (some a) 1) tx := field_view g1 rfl
  have r0 : Reads (keep h) (field (some a) 0) rx := field_view g1 rfl
  have nop : ∀ (f : Bool) (A : Asrt), A = keep h → (f = true ∨ tCopy v = none) → Triple c f A (Pure.pure none) (fun r f' => keep h ∗ tcopied v r f') := by
    intro f A hA hf
    subst hA
    refine Triple.ret fun y hy => (?_ : ∀ y, _ → (keep h ∗ ⌜f = true ∨ tCopy v = none⌝) y) y hy
    sentail
  have t1 : ∀ f, Triple c f (keep h) (hSCtxCopy tx) (fun r f' => keep h ∗ copies isSCtx (fun x y => y = x) (v.tx.map fun s => { s with ref := 1 }) r f') := fun f =>
    copy_opt (cp := hSCtxCopy) rfl g3 fun q x hxv hx => Triple.conseq (Triple.view (fun z hz => hSCtxCopy_keep c f hc q x (fun b hb => hp b (by simp [TCtx.publics, hxv, hb])) z hz) hx) (fun _ h => h)
      fun r f' s _ hs => Asrt.star_mono_r (fun t ht => copies_fresh ht) hs
  have t0 : ∀ f, Triple c f (keep h) (hSCtxCopy rx) (fun r f' => keep h ∗ copies isSCtx (fun x y => y = x) (v.rx.map fun s => { s with ref := 1 }) r f') := fun f =>
    copy_opt (cp := hSCtxCopy) rfl g2 fun q x hxv hx => Triple.conseq (Triple.view (fun z hz => hSCtxCopy_keep c f hc q x (fun b hb => hp b (by simp [TCtx.publics, hxv, hb])) z hz) hx) (fun _ h => h)
      fun r f' s _ hs => Asrt.star_mono_r (fun t ht => copies_fresh ht) hs
  have e1 : copyOpt streamCtxCopy v.tx = some (v.tx.map fun s => { s with ref := 1 }) := by
    generalize v.tx = x at g3
    cases x with
    | none => rfl
    | some x => cases tx with
      | none => exact g3.elim
      | some tx => simp [copyOpt, sctx_copy g3]
  have e0 : copyOpt streamCtxCopy v.rx = some (v.rx.map fun s => { s with ref := 1 }) := by
    generalize v.rx = x at g2
    cases x with
    | none => rfl
    | some x => cases rx with
      | none => exact g2.elim
      | some rx => simp [copyOpt, sctx_copy g2]
  have hp1 : ∀ s, (v.tx.map fun s => { s with ref := 1 }) = some s → s.ref = 1 ∧ ∀ b ∈ s.publics, c.pub b := by
    intro s hs
    obtain ⟨s0, hs0, rfl⟩ := Option.map_eq_some_iff.1 hs
    exact ⟨rfl, fun b hb => hp b (by simp only [TCtx.publics, hs0]; simp; exact Or.inr (Or.inr (Or.inr (Or.inl hb))))⟩
  have hp0 : ∀ s, (v.rx.map fun s => { s with ref := 1 }) = some s → s.ref = 1 ∧ ∀ b ∈ s.publics, c.pub b := by
    intro s hs
    obtain ⟨s0, hs0, rfl⟩ := Option.map_eq_some_iff.1 hs
    exact ⟨rfl, fun b hb => hp b (by simp only [TCtx.publics, hs0]; simp; exact Or.inr (Or.inr (Or.inl hb)))⟩
  unfold hTCopy
  dsimp only
  sread r2
  refine Triple.onNullL (F := emp) (hChainCopy_view c f hc h l v.self (fun b hb => hp b (by simp [TCtx.publics, hb])) g4) (Asrt.star_emp _).symm ?_ ?_
  · intro f1 _ hf
    exact nop f1 _ (Asrt.star_emp _) (Or.inl hf)
  intro lc f1 x hf1 hx1 hx2
  have hpx : ∀ b ∈ x.publics, c.pub b := fun b hb => hp b (by simp [TCtx.publics, chainLoss_publics hx1 b hb])
  sread r3
  cases rm with
  | none =>
    cases hv : v.remote with
    | some _ => rw [hv] at g5; exact g5.elim
    | none =>
      unfold onNull
      refine Triple.pureBind (x := (none : Ptr)) ?_
      dsimp only
      sdestroy hChainDestroy_spec (v := x) hpx
      intro f2 hf2
      refine nop f2 _ (by simp only [Asrt.star_emp]) (Or.inr ?_)
      unfold tCopy
      rw [hv, chainCopy_has g4]
      rfl
  | some rm =>
    cases hv : v.remote with
    | none => rw [hv] at g5; exact g5.elim
    | some r =>
      rw [hv] at g5
      refine Triple.onNullL (F := isChain lc x) (hChainCopy_view c f1 hc h rm r (fun b hb => hp b (by simp [TCtx.publics, hv, hb])) g5) (by simp only [Asrt.star_emp]) ?_ ?_
      · intro f2 _ hf
        sdestroy hChainDestroy_spec (v := x) hpx
        intro f3 hf3
        exact nop f3 _ (by simp only) (Or.inl (hf3 hf))
      intro rc f2 y hf2 hy1 hy2
      have hpy : ∀ b ∈ y.publics, c.pub b := fun b hb => hp b (by simp [TCtx.publics, hv, chainLoss_publics hy1 b hb])
      sread r1
      refine Triple.seq (t1 f2) (by frame) fun txc f3 hf3 => ?_
      by_cases c1 : txc.isNone = true ∧ tx.isSome = true
      · rw [if_pos c1]
        obtain rfl := Option.isNone_iff_eq_none.1 c1.1
        refine Triple.weak (copies_null (v := v.tx.map fun s => { s with ref := 1 }) (by rw [Option.isSome_map]; exact n1 ▸ c1.2)) (by frame) ?_
        sintro
        rename_i hf
        sdestroy hChainDestroy_spec (v := x) hpx
        intro f4 hf4
        sdestroy hChainDestroy_spec (v := y) hpy
        intro f5 hf5
        exact nop f5 _ (by simp only) (Or.inl (hf5 (hf4 hf)))
      · rw [if_neg c1]
        refine Triple.weak (copies_eq (v := v.tx.map fun s => { s with ref := 1 }) (by rw [Option.isSome_map, ← n1]; rintro ⟨h1, h2⟩; exact c1 ⟨Option.isNone_iff_eq_none.2 h2, h1⟩)) (by frame) ?_
        sread r0
        refine Triple.seq (t0 f3) (by frame) fun rxc f4 hf4 => ?_
        by_cases c2 : rxc.isNone = true ∧ rx.isSome = true
        · rw [if_pos c2]
          obtain rfl := Option.isNone_iff_eq_none.1 c2.1
          refine Triple.weak (copies_null (v := v.rx.map fun s => { s with ref := 1 }) (by rw [Option.isSome_map]; exact n2 ▸ c2.2)) (by frame) ?_
          sintro
          rename_i hf
          sdestroy hChainDestroy_spec (v := x) hpx
          intro f5 hf5
          sdestroy hChainDestroy_spec (v := y) hpy
          intro f6 hf6
          sdestroy (Destroys.opt (v := v.tx.map fun s => { s with ref := 1 }) (R := isSCtx) (d := hSCtxDestroy) rfl fun a s hs => hSCtxDestroy_spec (v := s) (Or.inr (hp1 s hs).1) (hp1 s hs).2)
          intro f7 hf7
          exact nop f7 _ (by simp only) (Or.inl (hf7 (hf6 (hf5 hf))))
        · rw [if_neg c2]
          refine Triple.weak (copies_eq (v := v.rx.map fun s => { s with ref := 1 }) (by rw [Option.isSome_map, ← n2]; rintro ⟨h1, h2⟩; exact c2 ⟨Option.isNone_iff_eq_none.2 h2, h1⟩)) (by frame) ?_
          refine Triple.tail ?_
          sstep hTCopyOf_spec f4 h a lc rc txc rxc v x y (v.tx.map fun s => { s with ref := 1 }) (v.rx.map fun s => { s with ref := 1 }) ha hpx hpy hp1 hp0
          intro q f5 hf5
          cases q with
          | none =>
            dsimp only [fresh]
            sintro
            rename_i hf
            exact nop f5 _ (by simp only) (Or.inl hf)
          | some q =>
            dsimp only [fresh]
            refine Triple.ret fun z hz => Asrt.star_mono_r (P := keep h) (F := isTCtx q _) (fun t ht => ⟨_, Asrt.pure_star.2 ⟨⟨fun hf => ?_, ?_⟩, ht⟩⟩) (by simpa only [Asrt.star_emp] using hz)
            · unfold tCopy
              rw [chainCopy_has g4, hv, Option.bind_some, Option.bind_some, chainCopy_has g5, Option.bind_some, e1, e0,
                hx2 (oom_back (fun h => hf5 (hf4 (hf3 (hf2 h)))) hf), hy2 (oom_back (fun h => hf5 (hf4 (hf3 h))) hf)]
              rfl
            · exact ⟨rfl, rfl, hx1, ⟨r, y, hv, rfl, hy1⟩, rfl, rfl, rfl, rfl⟩

end Wickr
