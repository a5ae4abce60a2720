import Verif.Lemmas.SepHsTop
/-
Handshakes in memory: verifying identities, finalizing, releasing, creating.
-/
namespace Wickr
open Asrt Spec

/-! ### Verifying the identity -/

theorem hs_dropRoot_spec (c : Rules) (f : Bool) (a : Addr) (v : Handshake) :
    Triple c f (isHs a v) (destroyField hTRootDestroy (some a) 4) (fun _ _ => isHs a { v with rootKey := none }) := by
  unfold isHs
  sintro
  rename_i l r ps e k q
  refine Triple.tail ?_
  sstep destroyField_spec (a := a) (x := .hs v.status v.isInitiator v.evo) (ps := [some l, r, some ps, e, k, q]) (i := 4) (q := k) f
    (Destroys.opt (v := v.rootKey) (R := isTRoot) rfl fun a x _ => hTRootDestroy_spec c a x) rfl
  intro _ f1 _
  refine Triple.ret fun y hy => ⟨l, r, ps, e, none, q, ?_⟩
  simp only [List.set_cons_succ, List.set_cons_zero, optRep_null] at hy ⊢
  revert hy; revert y; sentail

theorem hHsVerify_spec (f : Bool) (a : Addr) (v : Handshake) (valid : Bool) :
    Triple laxest f (isHs a v) (hHsVerify (some a) valid) (fun r _ => isHs a (hsVerify v valid).1 ∗ optRep isTPkt r (hsVerify v valid).2) := by
  unfold hHsVerify hsVerify
  dsimp only
  sread hs_scal_reads a v
  dsimp only
  by_cases hc : (!valid) = true ∨ v.status ≠ .pendingVerification
  · rw [if_pos hc, if_pos hc]
    sstep hHsFail_spec laxest f a v
    intro _ f1 _
    sstep hs_dropRoot_spec laxest f1 a (hsFail v)
    intro _ f2 _
    refine Triple.ret ?_
    simp only [optRep_null, Asrt.star_emp]
    unfold hsFail
    sentail
  · rw [if_neg hc, if_neg hc]
    refine Triple.lend0 (P := isHs a v) (by frame) fun h hh => ?_
    obtain ⟨k, r1, hk⟩ := hs_root_view (has_of hh)
    sread r1
    refine Triple.giveBack0 hh (by frame) ?_
    have hkn : k.isSome = v.rootKey.isSome := by
      cases k with
      | none => cases hv : v.rootKey with | none => rfl | some c => rw [hv] at hk; exact hk.elim
      | some c => cases hv : v.rootKey with | none => rw [hv] at hk; exact hk.elim | some c => rfl
    rw [hkn]
    sstep hHsStatus_spec laxest f a v (if v.rootKey.isSome then .pendingFinalization else .inProgress)
    intro _ f1 _
    unfold isHs
    sintro
    rename_i l r ps e k q
    sread field_reads a _ _ 5 _ rfl
    sstep setField_spec laxest f1 a (.hs (if v.rootKey.isSome then .pendingFinalization else .inProgress) v.isInitiator v.evo) [some l, r, some ps, e, k, q] 5 none (by simp)
    intro _ f2 _
    refine Triple.ret fun y hy => ?_
    simp only [List.set_cons_succ, List.set_cons_zero] at hy
    rw [Asrt.star_comm]
    refine Asrt.star_mono_r (P := optRep isTPkt q v.pendingPkt) (F := (a ↦ .obj (.hs (if v.rootKey.isSome then .pendingFinalization else .inProgress) v.isInitiator v.evo)
      [some l, r, some ps, e, k, none]) ∗ isChain l v.self ∗ optRep isChain r v.remote ∗ isArr isBuf ps [v.pkt0, v.pkt1] ∗ optRep isKey e v.eph ∗
      optRep isTRoot k v.rootKey) (fun z hz => ⟨l, r, ps, e, k, none, ?_⟩) ?_
    · revert hy; revert y; sentail
    · simp only [optRep_null]
      revert hz; revert z; sentail

/-! ### Finalizing -/

theorem hHsTranscript_view (hE : E.Fits) (f : Bool) (h : Heap) (a : Addr) (v : Handshake) (ha : Has isHs h a v) :
    Triple laxest f (keep h) (hHsTranscript E (some a))
      (fun r f' => keep h ∗ gives isBuf ((concat2 v.pkt0 v.pkt1).bind fun t => E.digest t none .sha512) r f') := by
  obtain ⟨l, r1, hl⟩ := hs_list_view ha
  obtain ⟨-, -, hn⟩ := arr_view hl
  obtain ⟨x, r2, hx⟩ := hn 0 v.pkt0 rfl
  obtain ⟨y, r3, hy⟩ := hn 1 v.pkt1 rfl
  have fetch : ∀ {i : Nat} {x : Ptr}, Reads (keep h) (hArrSlot (some l) i) x → Reads (keep h) (hArrFetch hBufCopy (some l) i false) x := by
    intro i x hr
    unfold hArrFetch
    refine Reads.bind hr (by frame) ?_
    cases x with
    | none => exact Reads.ret none
    | some x => exact Reads.ret (some x)
  unfold hHsTranscript
  sread r1
  sread fetch r2
  sread fetch r3
  refine Triple.onNullG (hConcatPtr_view laxest f h x y v.pkt0 v.pkt1 hx hy) (by frame) ?_ ?_
  · intro f1 _ hf
    exact Triple.noneGv (by sentail) (hf.imp_right fun h => by rw [h]; rfl)
  · intro t f1 b hf1 hb
    refine Triple.lend (h := h) (P := isBuf t b) (by frame) fun h1 h' hp e1 s1 s2 => ?_
    sstep hDigest_view hE laxest f1 trivial h' t none b none .sha512 (Has.sub (has_of hp) s2) trivial
    intro d f2 hf2
    refine Triple.giveBack e1 hp (by frame) ?_
    sdestroy hBufDestroy_spec (Or.inr trivial)
    intro f3 hf3
    cases d with
    | none =>
      dsimp only [gives]
      sintro
      rename_i hf
      exact Triple.noneGv (by sentail) (hf.imp hf3 fun h => by rw [hb]; exact h)
    | some d =>
      dsimp only [gives]
      sintro
      rename_i b' hb'
      exact Triple.someGv (v := b') (by rw [hb]; exact hb') (by sentail)

/-- A handshake and its keys. -/
def isFinal (a : Addr) (r : Ptr) (z : Handshake × Option HsKeys) : Asrt := isHs a z.1 ∗ optRep isHsKeys r z.2

theorem hResCreate_spec (c : Rules) (f : Bool) (p q : Addr) (x y : StreamKey) :
    Triple c f (isSKey p x ∗ isSKey q y) (hResCreate (some p) (some q)) (fun r f' => match r with
      | none => ⌜f' = true⌝ ∗ isSKey p x ∗ isSKey q y
      | some a => isHsKeys a ⟨x, y⟩) := by
  unfold hResCreate
  dsimp only
  unfold isHsKeys
  sgo

theorem hHsResult_spec (f : Bool) (a : Addr) (v : Handshake) (p q : Ptr) (x y : Option StreamKey) :
    Triple laxest f (isHs a v ∗ optRep isSKey p x ∗ optRep isSKey q y) (hHsResult (some a) p q)
      (fun r f' => Asrt.ex fun z => ⌜(z = (hsFail v, none) ∧ (f' = true ∨ x = none ∨ y = none)) ∨ ∃ s t, x = some s ∧ y = some t ∧
        z = ({ v with status := .complete }, some (if v.isInitiator then ⟨s, t⟩ else ⟨t, s⟩))⌝ ∗ isFinal a r z) := by
  have bad : ∀ (f : Bool), (f = true ∨ x = none ∨ y = none) → Triple laxest f (isHs a v ∗ optRep isSKey p x ∗ optRep isSKey q y)
      (do let _ ← hSKeyDestroy p; let _ ← hSKeyDestroy q; hHsFail (some a); Pure.pure none)
      (fun r f' => Asrt.ex fun z => ⌜(z = (hsFail v, none) ∧ (f' = true ∨ x = none ∨ y = none)) ∨ ∃ s t, x = some s ∧ y = some t ∧
        z = ({ v with status := .complete }, some (if v.isInitiator then ⟨s, t⟩ else ⟨t, s⟩))⌝ ∗ isFinal a r z) := by
    intro f hf
    sdestroy (Destroys.opt (v := x) (R := isSKey) rfl fun a x _ => hSKeyDestroy_spec (fun _ _ => trivial))
    intro f1 hf1
    sdestroy (Destroys.opt (v := y) (R := isSKey) rfl fun a x _ => hSKeyDestroy_spec (fun _ _ => trivial))
    intro f2 hf2
    sstep hHsFail_spec laxest f2 a v
    intro _ f3 hf3
    refine Triple.ret fun z hz => ⟨(hsFail v, none), Asrt.pure_star.2 ⟨Or.inl ⟨rfl, hf.imp_left fun h => hf3 (hf2 (hf1 h))⟩, ?_⟩⟩
    unfold isFinal
    simp only [optRep_null]
    revert hz; revert z; sentail
  have good : ∀ (f : Bool) (u : Addr) (s t : StreamKey), x = some s → y = some t → Triple laxest f (isHs a v ∗ isHsKeys u (if v.isInitiator then ⟨s, t⟩ else ⟨t, s⟩))
      (do hHsStatus (some a) .complete; Pure.pure (some u))
      (fun r f' => Asrt.ex fun z => ⌜(z = (hsFail v, none) ∧ (f' = true ∨ x = none ∨ y = none)) ∨ ∃ s t, x = some s ∧ y = some t ∧
        z = ({ v with status := .complete }, some (if v.isInitiator then ⟨s, t⟩ else ⟨t, s⟩))⌝ ∗ isFinal a r z) := by
    intro f u s t hx hy
    sstep hHsStatus_spec laxest f a v .complete
    intro _ f1 hf1
    refine Triple.ret fun z hz => ⟨({ v with status := .complete }, some (if v.isInitiator then ⟨s, t⟩ else ⟨t, s⟩)), Asrt.pure_star.2 ⟨Or.inr ⟨s, t, hx, hy, rfl⟩, ?_⟩⟩
    unfold isFinal
    dsimp only [optRep]
    revert hz; revert z; sentail
  have miss : (p = none ∨ q = none) → (if v.isInitiator = true then hResCreate p q else hResCreate q p) = Pure.pure none := by
    intro hn
    have e1 : hResCreate p q = Pure.pure none := by cases p <;> cases q <;> first | rfl | simp at hn
    have e2 : hResCreate q p = Pure.pure none := by cases p <;> cases q <;> first | rfl | simp at hn
    rw [e1, e2, ite_self]
  unfold hHsResult
  sread hs_scal_reads a v
  dsimp only
  unfold onNull
  cases p with
  | none =>
    rw [miss (Or.inl rfl)]
    cases x with
    | some x => dsimp only [optRep]; sabsurd
    | none => exact Triple.pureBind (Triple.conseq (bad f (Or.inr (Or.inl rfl))) (by sentail) (fun _ _ _ _ h => h))
  | some p =>
    cases q with
    | none =>
      rw [miss (Or.inr rfl)]
      cases y with
      | some y => dsimp only [optRep]; sabsurd
      | none => exact Triple.pureBind (Triple.conseq (bad f (Or.inr (Or.inr rfl))) (by sentail) (fun _ _ _ _ h => h))
    | some q =>
      cases x with
      | none => dsimp only [optRep]; sabsurd
      | some x =>
        cases y with
        | none => dsimp only [optRep]; sabsurd
        | some y =>
          dsimp only [optRep] at bad ⊢
          cases hi : v.isInitiator with
          | true =>
            rw [hi] at good
            simp only [↓reduceIte] at good ⊢
            sstep hResCreate_spec laxest f p q x y
            intro r f1 hf1
            cases r with
            | none =>
              dsimp only
              sintro
              rename_i hf
              exact Triple.conseq (bad f1 (Or.inl hf)) (by sentail) (fun _ _ _ _ h => by simpa only [hi, ↓reduceIte] using h)
            | some u => exact Triple.conseq (good f1 u x y rfl rfl) (by sentail) (fun _ _ _ _ h => h)
          | false =>
            rw [hi] at good
            simp only [Bool.false_eq_true, ↓reduceIte] at good ⊢
            sstep hResCreate_spec laxest f q p y x
            intro r f1 hf1
            cases r with
            | none =>
              dsimp only
              sintro
              rename_i hf
              exact Triple.conseq (bad f1 (Or.inl hf)) (by sentail) (fun _ _ _ _ h => by simpa only [hi, Bool.false_eq_true, ↓reduceIte] using h)
            | some u => exact Triple.conseq (good f1 u x y rfl rfl) (by sentail) (fun _ _ _ _ h => h)

theorem hDerive_view (hE : E.Fits) (hl : E.Hkdf64) (f : Bool) (h : Heap) (a : Addr) (k : RootKey) (salt sid : Bytes) (d : Dir) (hs : ValidBuf salt)
    (hi : ValidBuf sid) (hx : Has isTRoot h a k) :
    Triple laxest f (keep h) (hTRootDerive E (some a) salt sid d) (fun r f' => keep h ∗ Asrt.ex fun (y : Option StreamKey) =>
      ⌜(y = none → f' = true ∨ rootKeyToStreamKey E k salt sid d = none) ∧ ∀ v, y = some v → rootKeyToStreamKey E k salt sid d = some v⌝ ∗
        optRep isSKey r y ∗ spill f') := by
  refine Triple.conseq (hTRootDerive_view hE laxest f trivial h a k salt sid d (fun x hx => by rw [hl _ _ _ _ hx]; cases k.cipher <;> rfl)
    ⟨by simp [KdfMeta.Ok, hkdfSha512], fun s hs' => by cases hs'; exact ⟨hs, Or.inr trivial⟩, fun i hi' => by cases hi'; exact hi, by simp [KdfMeta.spills, hkdfSha512],
      fun _ _ => Or.inr trivial⟩ trivial hx) (fun _ h => h) (fun r f' _ y hy => ?_)
  refine Asrt.star_mono_r (fun z hz => ?_) hy
  cases r with
  | none =>
    obtain ⟨hf, hz⟩ := Asrt.pure_star.1 hz
    exact ⟨none, Asrt.pure_star.2 ⟨⟨fun _ => hf, fun v hv => by cases hv⟩, by simpa only [optRep_null, Asrt.emp_star] using hz⟩⟩
  | some r =>
    obtain ⟨v, hz⟩ := hz
    obtain ⟨hv, hz⟩ := Asrt.pure_star.1 hz
    refine ⟨some v, Asrt.pure_star.2 ⟨⟨fun h => (by cases h), fun w hw => (by cases hw; exact hv)⟩, ?_⟩⟩
    rw [← Asrt.star_emp (isSKey r v)] at hz
    exact Asrt.star_mono_r (fun _ h => emp_spill _ h) hz

theorem hHsFinalize_spec (hE : E.Fits) (hl : E.Hkdf64) (f : Bool) (a : Addr) (v : Handshake) :
    Triple laxest f (isHs a v) (hHsFinalize E (some a))
      (fun r f' => Asrt.ex fun z => ⌜FinOutcome E v f' z.1 z.2⌝ ∗ isFinal a r z ∗ junk (f' = true)) := by
  have bad : ∀ (f : Bool), (f = true ∨ hsFinalize E v = (hsFail v, none)) → Triple laxest f (isHs a v) (do hHsFail (some a); Pure.pure none)
      (fun r f' => Asrt.ex fun z => ⌜FinOutcome E v f' z.1 z.2⌝ ∗ isFinal a r z ∗ junk (f' = true)) := by
    intro f hf
    sstep hHsFail_spec laxest f a v
    intro _ f1 hf1
    refine Triple.doneJ (V := Handshake × Option HsKeys) (φ := fun _ f' z => FinOutcome E v f' z.1 z.2) (ψ := fun _ f' _ => f' = true)
      (P := fun r z => isFinal a r z) (hsFail v, none) (by unfold isFinal; simp only [optRep_null]; frame) junk_emp
      ⟨fun _ => rfl, fun ks h => (by cases h), fun hn => ?_⟩
    rcases hf with hf | hf
    · rw [hf1 hf] at hn; cases hn
    · exact hf
  unfold hHsFinalize
  dsimp only
  sread hs_scal_reads a v
  dsimp only
  refine Triple.lend0 (P := isHs a v) (by frame) fun h hh => ?_
  obtain ⟨k, r1, hk⟩ := hs_root_view (has_of hh)
  sread r1
  cases hr : v.rootKey with
  | none =>
    rw [hr] at hk
    cases k with
    | some k => exact hk.elim
    | none =>
      dsimp only
      refine Triple.giveBack0 hh (by frame) ?_
      refine Triple.conseq (bad f (Or.inr ?_)) (by sentail) (fun _ _ _ _ h => h)
      unfold hsFinalize
      rw [hr]
  | some rk =>
    rw [hr] at hk
    cases k with
    | none => exact hk.elim
    | some k =>
      dsimp only
      by_cases hs : v.status ≠ .pendingFinalization
      · rw [if_pos hs]
        refine Triple.giveBack0 hh (by frame) ?_
        refine Triple.conseq (bad f (Or.inr ?_)) (by sentail) (fun _ _ _ _ h => h)
        unfold hsFinalize
        rw [hr]
        dsimp only
        rw [if_pos hs]
      · rw [if_neg hs]
        have hval : hsFinalize E v = match hsDeriveKeys E v rk with
            | none => (hsFail v, none)
            | some ks => ({ v with status := .complete }, some ks) := by
          unfold hsFinalize
          rw [hr]
          dsimp only
          rw [if_neg hs]
          rfl
        refine Triple.onNullG (hHsTranscript_view hE f h a v (has_of hh)) (by frame) ?_ ?_
        · intro f1 _ hf
          refine Triple.giveBack0 hh (by frame) ?_
          refine Triple.conseq (bad f1 (hf.imp_right fun hf => ?_)) (by sentail) (fun _ _ _ _ h => h)
          rw [hval]
          have : hsDeriveKeys E v rk = none := by
            unfold hsDeriveKeys
            cases hc : concat2 v.pkt0 v.pkt1 with
            | none => rfl
            | some t =>
              rw [hc, Option.bind_some] at hf
              rw [Option.bind_some, hf]
              rfl
          rw [this]
        · intro hash f1 hb hf1 hhb
          refine Triple.lend (h := h) (P := isBuf hash hb) (by frame) fun h1 h' hp e1 s1 s2 => ?_
          have hvb := has_valid (has_of hp)
          refine Triple.giveBack e1 hp (by frame) ?_
          sread readBuf_spec hash hb
          sstep hDerive_view hE hl f1 h k rk hb senderInfo .encode hvb (by decide) hk
          intro sk f2 hf2
          sintro
          rename_i sv hsv
          sstep hDerive_view hE hl f2 h k rk hb receiverInfo .decode hvb (by decide) hk
          intro rv f3 hf3
          sintro
          rename_i rvv hrv
          sdestroy hBufDestroy_spec (Or.inr trivial)
          intro f4 hf4
          refine Triple.giveBack0 hh (by frame) ?_
          refine Triple.tail ?_
          sstep hHsResult_spec f4 a v sk rv sv rvv
          intro r f5 hf5
          sintro
          rename_i z hz
          have hm2 : f2 = true → f5 = true := fun h => hf5 (hf4 (hf3 h))
          have hm3 : f3 = true → f5 = true := fun h => hf5 (hf4 h)
          have hder : ∀ s t, rootKeyToStreamKey E rk hb senderInfo .encode = some s → rootKeyToStreamKey E rk hb receiverInfo .decode = some t →
              hsDeriveKeys E v rk = some (if v.isInitiator then ⟨s, t⟩ else ⟨t, s⟩) := by
            intro s t h1 h2
            unfold hsDeriveKeys
            obtain ⟨t', ht, hd⟩ := Option.bind_eq_some_iff.1 hhb
            rw [ht, Option.bind_some, hd, Option.bind_some, h1, Option.bind_some, h2]
            rfl
          refine Triple.doneJ (V := Handshake × Option HsKeys) (φ := fun _ f' z => FinOutcome E v f' z.1 z.2) (ψ := fun _ f' _ => f' = true)
            (P := fun r z => isFinal a r z) z (by frame) ?_ ?_
          · first | exact junk_star (spill_junk hm2) (spill_junk hm3) | exact junk_star (spill_junk hm3) (spill_junk hm2)
          rcases hz with ⟨rfl, hf⟩ | ⟨s, t, h1, h2, rfl⟩
          · refine ⟨fun _ => rfl, fun ks h => (by cases h), fun hn => ?_⟩
            rw [hval]
            have : hsDeriveKeys E v rk = none := by
              unfold hsDeriveKeys
              obtain ⟨t', ht, hd⟩ := Option.bind_eq_some_iff.1 hhb
              rw [ht, Option.bind_some, hd, Option.bind_some]
              rcases hf with hf | hf | hf
              · rw [hf] at hn; cases hn
              · rw [(hsv.1 hf).resolve_left (by rw [oom_back hm2 hn]; decide)]
                rfl
              · rw [(hrv.1 hf).resolve_left (by rw [oom_back hm3 hn]; decide)]
                cases rootKeyToStreamKey E rk hb senderInfo .encode <;> rfl
            rw [this]
          · have hd := hder s t (hsv.2 s h1) (hrv.2 t h2)
            have : hsFinalize E v = ({ v with status := .complete }, some (if v.isInitiator then ⟨s, t⟩ else ⟨t, s⟩)) := by rw [hval, hd]
            exact ⟨fun h => (by cases h), fun ks h => (by cases h; exact this), fun _ => this⟩

/-! ### Releasing and creating -/

theorem hHsDestroy_spec {c : Rules} {a : Addr} {v : Handshake} (hp : ∀ b ∈ v.publics, c.pub b) : Destroys c (isHs a v) (hHsDestroy (some a)) := by
  intro f
  unfold hHsDestroy isHs
  sintro
  rename_i l r ps e k q
  sstep destroyField_spec (a := a) (x := .hs v.status v.isInitiator v.evo) (ps := [some l, r, some ps, e, k, q]) (i := 0) (q := some l) f
    (hChainDestroy_spec (v := v.self) fun b hb => hp b (by simp [Handshake.publics, hb])) rfl
  intro _ f1 _
  simp only [List.set_cons_zero]
  sstep destroyField_spec (a := a) (x := .hs v.status v.isInitiator v.evo) (ps := [none, r, some ps, e, k, q]) (i := 1) (q := r) f1
    (Destroys.opt (v := v.remote) (R := isChain) (d := hChainDestroy) rfl fun a x hx => hChainDestroy_spec (v := x) fun b hb => hp b (by simp [Handshake.publics, hx, hb])) rfl
  intro _ f2 _
  simp only [List.set_cons_succ, List.set_cons_zero]
  sstep destroyField_spec (a := a) (x := .hs v.status v.isInitiator v.evo) (ps := [none, none, some ps, e, k, q]) (i := 2) (q := some ps) (d := fun l => hArrDestroy hBufDestroy l true) f2
    (hArrDestroy_deep (R := isBuf) (xs := [v.pkt0, v.pkt1]) fun b q hb => hBufDestroy_spec (Or.inr (hp b (by
      simp only [List.mem_cons, List.not_mem_nil, or_false] at hb
      rcases hb with hb | hb <;> simp [Handshake.publics, ← hb])))) rfl
  intro _ f3 _
  simp only [List.set_cons_succ, List.set_cons_zero]
  sstep destroyField_spec (a := a) (x := .hs v.status v.isInitiator v.evo) (ps := [none, none, none, e, k, q]) (i := 3) (q := e) f3
    (Destroys.opt (v := v.eph) (R := isKey) (d := hKeyDestroy) rfl fun a x _ => hKeyDestroy_spec c a x) rfl
  intro _ f4 _
  simp only [List.set_cons_succ, List.set_cons_zero]
  sstep destroyField_spec (a := a) (x := .hs v.status v.isInitiator v.evo) (ps := [none, none, none, none, k, q]) (i := 4) (q := k) f4
    (Destroys.opt (v := v.rootKey) (R := isTRoot) (d := hTRootDestroy) rfl fun a x _ => hTRootDestroy_spec c a x) rfl
  intro _ f5 _
  simp only [List.set_cons_succ, List.set_cons_zero]
  sstep destroyField_spec (a := a) (x := .hs v.status v.isInitiator v.evo) (ps := [none, none, none, none, none, q]) (i := 5) (q := q) f5
    (Destroys.opt (v := v.pendingPkt) (R := isTPkt) (d := hTPktDestroy) rfl fun a x hx => hTPktDestroy_spec (v := x) fun b hb => hp b (by simp [Handshake.publics, hx, hb])) rfl
  intro _ f6 _
  simp only [List.set_cons_succ, List.set_cons_zero]
  sgo

theorem hResDestroy_spec {c : Rules} {a : Addr} {v : HsKeys} (hp : ∀ b ∈ v.localKey.publics ++ v.remoteKey.publics, c.pub b) :
    Destroys c (isHsKeys a v) (hResDestroy (some a)) := by
  intro f
  unfold hResDestroy isHsKeys
  sintro
  rename_i p q
  sstep destroyField_spec (a := a) (x := .plain) (ps := [some p, some q]) (i := 0) (q := some p) f
    (hSKeyDestroy_spec (v := v.localKey) fun b hb => hp b (by simp [hb])) rfl
  intro _ f1 _
  simp only [List.set_cons_zero]
  sstep destroyField_spec (a := a) (x := .plain) (ps := [none, some q]) (i := 1) (q := some q) f1
    (hSKeyDestroy_spec (v := v.remoteKey) fun b hb => hp b (by simp [hb])) rfl
  intro _ f2 _
  simp only [List.set_cons_succ, List.set_cons_zero]
  sgo

/-! ### Creating -/

theorem hHsWith_spec (c : Rules) (f : Bool) (l ps : Addr) (r : Ptr) (self : Chain) (remote : Option Chain) (b0 b1 : Option Bytes) (evo : UInt32) :
    Triple c f (isChain l self ∗ optRep isChain r remote ∗ isArr isBuf ps [b0, b1]) (hHsWith (some l) r (some ps) evo)
      (fun x f' => match x with
        | none => ⌜f' = true ∨ evo = 0⌝ ∗ isChain l self ∗ optRep isChain r remote ∗ isArr isBuf ps [b0, b1]
        | some a => ⌜evo ≠ 0⌝ ∗ isHs a ⟨self, remote, b0, b1, .unknown, none, none, none, false, evo⟩) := by
  unfold hHsWith
  dsimp only
  by_cases he : evo = 0
  · rw [if_pos he]
    refine Triple.ret fun y hy => Asrt.pure_star.2 ⟨Or.inr he, hy⟩
  · rw [if_neg he]
    refine Triple.onNull' (alloc_spec c f _) ?_ ?_
    · intro f1 _ hf
      exact Triple.ret fun y hy => Asrt.pure_star.2 ⟨Or.inl hf, hy⟩
    · intro x f1 _
      sstep store_spec c f1 x _ _
      intro _ f2 _
      refine Triple.ret fun y hy => Asrt.pure_star.2 ⟨he, l, r, ps, none, none, none, ?_⟩
      simp only [optRep_null, Asrt.star_emp]
      revert hy; revert y; sentail

/-- What creating a handshake gives. -/
theorem hHsCreate_spec (c : Rules) (f : Bool) (l : Addr) (r : Ptr) (self : Chain) (remote : Option Chain) (evo : UInt32) :
    Triple c f (isChain l self ∗ optRep isChain r remote) (hHsCreate (some l) r evo)
      (fun x f' => orGives (isChain l self ∗ optRep isChain r remote) isHs (hsCreate self remote evo) x f') := by
  unfold hHsCreate
  have hnone : ∀ (f : Bool), (f = true ∨ evo = 0) → Triple c f (isChain l self ∗ optRep isChain r remote) (Pure.pure none)
      (fun x f' => orGives (isChain l self ∗ optRep isChain r remote) isHs (hsCreate self remote evo) x f') := by
    intro f hf
    refine Triple.ret fun y hy => Asrt.pure_star.2 ⟨hf.imp_right fun h => ?_, hy⟩
    unfold hsCreate
    rw [if_pos h]
  refine Triple.onNull' (hArrNew_spec c f 2 (by decide)) ?_ ?_
  · intro f1 _ hf
    exact hnone f1 (Or.inl hf)
  · intro ps f1 _
    have harr : ∀ y, isSlots ps 2 (List.replicate 2 none) y → isArr isBuf ps [none, none] y := fun y hy =>
      ⟨[none, none], by dsimp only [List.replicate] at hy ⊢; unfold items items items; simp only [optRep_null, Asrt.star_emp]; exact hy⟩
    refine Triple.conseq (P := isArr isBuf ps [none, none] ∗ isChain l self ∗ optRep isChain r remote) ?_ (fun y hy => Asrt.star_mono harr hy) (fun _ _ _ _ h => h)
    unfold onNull
    sstep hHsWith_spec c f1 l ps r self remote none none evo
    intro x f2 hf2
    cases x with
    | none =>
      dsimp only
      sintro
      rename_i hf
      sdestroy (hArrDestroy_deep (R := isBuf) (xs := [none, none]) fun b q hb => by simp at hb)
      intro f3 hf3
      exact Triple.conseq (hnone f3 (hf.imp_left hf3)) (by sentail) (fun _ _ _ _ h => h)
    | some x =>
      dsimp only
      sintro
      rename_i he
      refine Triple.ret fun y hy => ⟨_, Asrt.pure_star.2 ⟨?_, hy⟩⟩
      unfold hsCreate
      rw [if_neg he]

end Wickr
