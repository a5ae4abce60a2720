import Verif.Lemmas.TInv
/-
Triples for the functions of transport_ctx.c: the end of a handshake.
-/
namespace Wickr
open Asrt Spec

variable {E : Engine}

theorem optRep_both {V : Type _} {R : Addr → V → Asrt} {a : Addr} {v : V} : optRep R (some a) (some v) = R a v := rfl

theorem streamCtxCreate_ref {k : StreamKey} {d : Dir} {s : Bytes} {v : StreamCtx} (h : streamCtxCreate k d s = some v) : v.ref = 1 := by
  unfold streamCtxCreate at h
  grind

theorem hSCtxCreate_decode (f : Bool) (p : Addr) (k : StreamKey) :
    Triple laxest f (isSKey p k) (hSCtxCreate (some p) .decode [])
      (fun r f' => orSpills (isSKey p k) isSCtx (streamCtxCreate k .decode []) r f') :=
  hSCtxCreate_spec laxest f trivial p k .decode [0] (by decide) trivial

theorem hTInstall_spec (hE : E.Fits) (hl : ∀ b k h, E.hmac b k .sha512 = some h → h.length = 64) (f : Bool) (h : Heap) (a rx tx : Addr) (c : TCtx) (vr vt : StreamCtx)
    (ps : List Ptr) (bs : List Bytes) (hr : (∀ s, c.rx = some s → s.ref = 1) ∧ ∀ s, c.tx = some s → s.ref = 1) (hb : BufsIn h ps bs) :
    Triple laxest f (isTCtx a c ∗ isSCtx rx vr ∗ isSCtx tx vt ∗ keep h) (hTInstall E (some a) (some rx) (some tx) ps) (fun ss f' => Asrt.ex fun z =>
      ⌜(f' = false → tActivate E { c with rx := some vr, tx := some vt } bs = .ok z) ∧ OnlySent { c with rx := some vr, tx := some vt } z.1 ∧
        (z.1.status = .active ∨ z.1.status = .error) ∧ ∀ e ∈ z.2, e = .state .active ∨ e = .state .error ∨ ∃ d, e = .tx d⌝ ∗ isTOut a ss z ∗ keep h) := by
  unfold hTInstall
  refine tctx_open (c := c) (by frame) fun r0 t0 l r pd => ?_
  unfold isTFlat
  sstep destroyField_spec (a := a) (x := .tctx c.status c.evo c.err) (ps := [r0, t0, some l, r, pd]) (i := 0) (q := r0) f
    (Destroys.opt (v := c.rx) (R := isSCtx) (d := hSCtxDestroy) rfl fun a x hx => hSCtxDestroy_spec (v := x) (Or.inr (hr.1 x hx)) fun _ _ => trivial) rfl
  intro _ f1 hf1
  simp only [List.set_cons_zero]
  sstep destroyField_spec (a := a) (x := .tctx c.status c.evo c.err) (ps := [none, t0, some l, r, pd]) (i := 1) (q := t0) f1
    (Destroys.opt (v := c.tx) (R := isSCtx) (d := hSCtxDestroy) rfl fun a x hx => hSCtxDestroy_spec (v := x) (Or.inr (hr.2 x hx)) fun _ _ => trivial) rfl
  intro _ f2 hf2
  simp only [List.set_cons_succ, List.set_cons_zero]
  sstep setField_spec laxest f2 a (.tctx c.status c.evo c.err) [none, none, some l, r, pd] 0 (some rx) (by simp)
  intro _ f3 hf3
  simp only [List.set_cons_zero]
  sstep setField_spec laxest f3 a (.tctx c.status c.evo c.err) [some rx, none, some l, r, pd] 1 (some tx) (by simp)
  intro _ f4 hf4
  simp only [List.set_cons_succ, List.set_cons_zero]
  refine tctx_shut (a := a) (c := { c with rx := some vr, tx := some vt }) (rx := some rx) (tx := some tx) (l := l) (r := r) (pd := pd) (F := keep h) ?_ ?_
  · unfold isTFlat
    simp only [optRep_both]
    ac_rfl
  · exact hTActivate_spec hE hl f4 h a { c with rx := some vr, tx := some vt } ps bs rfl hb

theorem hTFinalize_spec (hE : E.Fits) (hk : E.Hkdf64) (hl : ∀ b k h, E.hmac b k .sha512 = some h → h.length = 64) {R0 : Option Chain} {A : Chain → Prop} {S Y : Prop} {st : Bool}
    (f : Bool) (h : Heap) (a : Addr) (c : TCtx) (hs : Handshake) (e : HTEnv) (e' : TEnv) (hi : TInv E R0 A S Y f st c) (hp : c.pending = some hs)
    (hst : hs.status = .pendingFinalization) (he : EnvIn h e e') (hv : ValidBuf e'.seed) :
    Triple laxest f (isTCtx a c ∗ keep h) (hTFinalize E (some a) e) (tPost E R0 A S Y st a (keep h) (tFinalize E c e') (KeysRefused E hs e'.seed)) := by
  obtain ⟨he1, he2, he3, he4, he5⟩ := he
  have hV : Vouch R0 A Y f := (hi.pend hs hp).ready hst
  unfold hTFinalize
  refine tctx_open (c := c) (by frame) fun r0 t0 l r pd => ?_
  unfold isTFlat
  rw [hp]
  cases pd with
  | none => dsimp only [optRep]; sabsurd
  | some q =>
    sread field_reads a _ _ 4 _ rfl
    simp only [optRep_both]
    sstep hHsFinalize_spec hE hk f q hs
    intro res f1 hf1
    sintro
    rename_i z hz
    obtain ⟨w, k⟩ := z
    obtain ⟨z1, z2, z3⟩ := hz
    unfold isFinal
    dsimp only at z1 z2 z3 ⊢
    cases res with
    | none => cases k with
      | some k => dsimp only [optRep]; sabsurd
      | none =>
        have hw := z1 rfl
        subst hw
        refine Triple.tPost (G := junk (f1 = true)) ({ c with pending := some (hsFail hs) }, []) ?_ (junk_mono Or.inl) (fun hf => ?_) ?_ .nil
        · intro y hy
          unfold isTOut
          rw [isTEvents_nil, Asrt.star_emp]
          refine Asrt.star_mono (tctx_close (rx := r0) (tx := t0) (l := l) (r := r) (pd := some q)) (F := keep h ∗ junk (f1 = true)) ?_
          unfold isTFlat
          simp only [optRep_both] at hy ⊢
          revert hy; revert y; sentail
        · have := z3 hf
          simp [tFinalize, hp, this]
        · exact (hi.oom hf1).withPending _ fun x hx => by cases hx; exact .failed rfl
    | some res => cases k with
      | none => dsimp only [optRep]; sabsurd
      | some ks =>
        have hfin := z2 ks rfl
        have hval : tFinalize E c e' = match (streamKeyCopy ks.localKey).bind (streamCtxCreate · .encode e'.seed) with
            | none => .ok ({ c with pending := none }, [])
            | some tx =>
              match (streamKeyCopy ks.remoteKey).bind (streamCtxCreate · .decode []) with
              | none => .ok ({ c with pending := none }, [])
              | some rx => tActivate E { c with pending := none, rx := some rx, tx := some tx } e'.onActive := by
          unfold tFinalize
          rw [hp]
          dsimp only
          rw [hfin]
          rfl
        simp only [optRep_both]
        sstep destroyField_spec (a := a) (x := .tctx c.status c.evo c.err) (ps := [r0, t0, some l, r, some q]) (i := 4) (q := some q) f1
          (hHsDestroy_spec (v := w) fun _ _ => trivial) rfl
        intro _ f2 hf2
        simp only [List.set_cons_succ, List.set_cons_zero]
        have hi2 : TInv E R0 A S Y f2 st { c with pending := none } := (hi.oom fun h => hf2 (hf1 h)).withPending _ fun x hx => by cases hx
        refine tctx_shut (a := a) (c := { c with pending := none }) (rx := r0) (tx := t0) (l := l) (r := r) (pd := none) (F := isHsKeys res ks ∗ keep h ∗ junk (f1 = true)) ?_ ?_
        · unfold isTFlat
          simp only [optRep_null, Asrt.star_emp]
          ac_rfl
        · have fin : ∀ (f3 : Bool) (P G : Asrt), (f2 = true → f3 = true) → P = isTCtx a { c with pending := none } ∗ keep h ∗ G →
              Asrt.le G (junk (f3 = true ∨ KeysRefused E hs e'.seed)) → (f3 = false → tFinalize E c e' = .ok ({ c with pending := none }, [])) →
              Triple laxest f3 P (Pure.pure []) (tPost E R0 A S Y st a (keep h) (tFinalize E c e') (KeysRefused E hs e'.seed)) := by
            intro f3 P G hf3 hP hG hv
            refine Triple.tPost (G := G) ({ c with pending := none }, []) ?_ hG hv (hi2.oom hf3) .nil
            intro y hy
            unfold isTOut
            rw [isTEvents_nil, Asrt.star_emp]
            rw [hP] at hy
            exact hy
          have hj : ∀ {f3 : Bool}, (f2 = true → f3 = true) → Asrt.le (junk (f1 = true)) (junk (f3 = true ∨ KeysRefused E hs e'.seed)) :=
            fun h => junk_mono fun g => Or.inl (h (hf2 g))
          unfold hTStreams isHsKeys
          sintro
          rename_i lk rk
          sread field_reads res _ _ 0 _ rfl
          refine Triple.lend0 (P := isSKey lk ks.localKey) (by frame) fun h1 hh1 => ?_
          have wl := (has_wf (has_of hh1)).2
          refine Triple.giveBack0 hh1 (by frame) ?_
          refine Triple.lend0 (P := isSKey rk ks.remoteKey) (by frame) fun h2 hh2 => ?_
          have wr := (has_wf (has_of hh2)).2
          refine Triple.giveBack0 hh2 (by frame) ?_
          rw [wl, wr] at hval
          simp only [Option.bind_some] at hval
          have hkr : streamCtxCreate ks.localKey .encode e'.seed = none → KeysRefused E hs e'.seed := by
            intro hn w' ks' hx
            rw [hfin] at hx
            cases hx
            rw [wl]
            exact hn
          sstep hSKeyCopy_spec laxest f2 trivial lk ks.localKey fun _ _ => trivial
          intro tk f3 hf3
          cases tk with
          | none =>
            dsimp only [fresh]
            sintro
            rename_i ho
            refine fin f3 _ ((res ↦ .obj .plain [some lk, some rk]) ∗ isSKey lk ks.localKey ∗ isSKey rk ks.remoteKey ∗ junk (f1 = true)) hf3 (by ac_rfl) (le_junk (Or.inl ho)) (by simp [ho])
          | some tk =>
            dsimp only [fresh]
            rw [he2]
            sstep hSCtxCreate_spec laxest f3 trivial tk ks.localKey .encode e'.seed hv trivial
            intro tx f4 hf4
            cases tx with
            | none =>
              dsimp only [orSpills]
              sintro
              rename_i hn
              sdestroy hSKeyDestroy_spec (v := ks.localKey) (fun _ _ => trivial)
              intro f5 hf5
              refine fin f5 _ ((res ↦ .obj .plain [some lk, some rk]) ∗ isSKey lk ks.localKey ∗ isSKey rk ks.remoteKey ∗ spill f4 ∗ junk (f1 = true)) (fun h => hf5 (hf4 (hf3 h))) (by ac_rfl)
                (le_junk (hn.imp hf5 hkr)) fun hf => ?_
              rw [hval, hn.resolve_left (by simp [oom_back hf5 hf])]
            | some tx =>
              dsimp only [orSpills]
              sintro
              rename_i vt hvt
              sread field_reads res _ _ 1 _ rfl
              sstep hSKeyCopy_spec laxest f4 trivial rk ks.remoteKey fun _ _ => trivial
              intro kk f5 hf5
              have up : f2 = true → f5 = true := fun h => hf5 (hf4 (hf3 h))
              rw [hvt] at hval
              dsimp only at hval
              have hres : Asrt.le ((res ↦ .obj .plain [some lk, some rk]) ∗ isSKey lk ks.localKey ∗ isSKey rk ks.remoteKey) (isHsKeys res ks) := fun y hy => ⟨lk, rk, hy⟩
              cases kk with
              | none =>
                dsimp only [fresh]
                sintro
                rename_i ho
                refine Triple.pureBind (x := (none : Ptr)) ?_
                refine Triple.conseq (P := isHsKeys res ks ∗ isTCtx a { c with pending := none } ∗ isSCtx tx vt ∗ keep h ∗ junk (f1 = true)) ?_
                  (fun y hy => Asrt.star_mono hres (by revert hy; revert y; sentail)) (fun _ _ _ _ h => h)
                sdestroy hResDestroy_spec (v := ks) (fun _ _ => trivial)
                intro f6 hf6
                sdestroy hSCtxDestroy_spec (v := vt) (Or.inr (streamCtxCreate_ref hvt)) (fun _ _ => trivial)
                intro f7 hf7
                refine fin f7 _ (junk (f1 = true)) (fun h => hf7 (hf6 (up h))) (by ac_rfl) (hj fun h => hf7 (hf6 (up h))) (by simp [hf7 (hf6 ho)])
              | some kk =>
                dsimp only [fresh]
                sstep hSCtxCreate_decode f5 kk ks.remoteKey
                intro rx f6 hf6
                refine Triple.conseq (P := isHsKeys res ks ∗ isTCtx a { c with pending := none } ∗ orSpills (isSKey kk ks.remoteKey) isSCtx (streamCtxCreate ks.remoteKey .decode []) rx f6 ∗ isSCtx tx vt ∗ keep h ∗ junk (f1 = true)) ?_
                  (fun y hy => Asrt.star_mono hres (by revert hy; revert y; sentail)) (fun _ _ _ _ h => h)
                sdestroy hResDestroy_spec (v := ks) (fun _ _ => trivial)
                intro f7 hf7
                cases rx with
                | none =>
                  dsimp only [orSpills]
                  sintro
                  rename_i hn
                  sdestroy hSCtxDestroy_spec (v := vt) (Or.inr (streamCtxCreate_ref hvt)) (fun _ _ => trivial)
                  intro f8 hf8
                  sdestroy hSKeyDestroy_spec (v := ks.remoteKey) (fun _ _ => trivial)
                  intro f9 hf9
                  have up9 : f6 = true → f9 = true := fun h => hf9 (hf8 (hf7 h))
                  refine fin f9 _ (spill f6 ∗ junk (f1 = true)) (fun h => up9 (hf6 (up h))) (by ac_rfl)
                    (junk_star (spill_junk fun h => Or.inl (up9 h)) (hj fun h => up9 (hf6 (up h)))) fun hf => ?_
                  rw [hval, hn.resolve_left (by simp [oom_back up9 hf])]
                | some rx =>
                  dsimp only [orSpills]
                  sintro
                  rename_i vr hvr
                  rw [hvr] at hval
                  dsimp only at hval
                  refine Triple.tail ?_
                  sstep hTInstall_spec hE hl f7 h a rx tx { c with pending := none } vr vt e.onActive e'.onActive hi2.refs he5
                  intro ss f8 hf8
                  sintro
                  rename_i z hz
                  obtain ⟨y1, y2, y3, y4⟩ := hz
                  have up8 : f2 = true → f8 = true := fun h => hf8 (hf7 (hf6 (up h)))
                  have hV8 : Vouch R0 A Y f8 := hV.mono (fun _ h => h) id fun h => up8 (hf2 (hf1 h))
                  refine Triple.tPost (G := junk (f1 = true)) z (by sentail) (hj up8) (fun hf => ?_) ?_ ?_
                  · rw [hval]
                    exact y1 hf
                  · exact TInv.streams (hi2.oom up8) hV8 (streamCtxCreate_ref hvr) (streamCtxCreate_ref hvt) y2 y3
                  · refine ⟨fun _ _ _ => hV8, fun ch hc => ?_⟩
                    rcases y4 _ hc with h | h | ⟨d, h⟩ <;> cases h

end Wickr
