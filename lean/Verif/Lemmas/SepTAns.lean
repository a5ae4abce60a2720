import Verif.Lemmas.SepTFin
/-
Triples for the functions of transport_ctx.c: the decisions of the application.
-/
namespace Wickr
open Asrt Spec

variable {E : Engine}

theorem tctx_pending_reads (a : Addr) (c : TCtx) : Reads (isTCtx a c) (hTPendingStatus (some a)) (tPendingStatus c) :=
  Reads.owned fun x hx => by
    obtain ⟨rx, tx, l, r, pd, h1, -, -, -, -, h2⟩ := tctx_has (has_of hx)
    unfold hTPendingStatus
    refine Reads.bind (F := emp) (field_view (i := 4) h1 rfl) (Asrt.star_emp _).symm ?_
    unfold tPendingStatus
    generalize c.pending = p at h2
    cases pd with
    | none => cases p with
      | some p => exact h2.elim
      | none => exact Reads.ret _
    | some q => cases p with
      | none => exact h2.elim
      | some p => exact Reads.bind (F := emp) (hs_scal_view h2) (Asrt.star_emp _).symm (Reads.ret _)

theorem tctx_pending_field (a : Addr) (c : TCtx) {cc : Rules} {f : Bool} {P F : Asrt} {α : Type} {k : Ptr → H α} {R : α → Bool → Asrt} (hP : P = isTCtx a c ∗ F)
    (h0 : c.pending = none → Triple cc f P (k none) R)
    (h1 : ∀ q hs r0 t0 l r, c.pending = some hs → Triple cc f (isTFlat a c r0 t0 l r (some q) ∗ F) (k (some q)) R) :
    Triple cc f P (field (some a) 4 >>= k) R := by
  subst hP
  refine tctx_open (c := c) rfl fun r0 t0 l r pd => ?_
  cases pd with
  | none =>
    cases hp : c.pending with
    | some hs => unfold isTFlat; rw [hp]; dsimp only [optRep]; sabsurd
    | none =>
      have : Reads (isTFlat a c r0 t0 l r none) (field (some a) 4) none := by
        unfold isTFlat
        exact Reads.frame (field_reads a _ _ 4 _ rfl) rfl
      exact Triple.read this rfl (tctx_shut rfl (h0 hp))
  | some q =>
    cases hp : c.pending with
    | none => unfold isTFlat; rw [hp]; dsimp only [optRep]; sabsurd
    | some hs =>
      have : Reads (isTFlat a c r0 t0 l r (some q)) (field (some a) 4) (some q) := by
        unfold isTFlat
        exact Reads.frame (field_reads a _ _ 4 _ rfl) rfl
      exact Triple.read this rfl (h1 q hs r0 t0 l r hp)

theorem hTFinalizeIfReady_spec (hE : E.Fits) (hk : E.Hkdf64) (hl : ∀ b k h, E.hmac b k .sha512 = some h → h.length = 64) {R0 : Option Chain} {A : Chain → Prop} {S Y : Prop} {st : Bool}
    (f : Bool) (h : Heap) (a : Addr) (c : TCtx) (e : HTEnv) (e' : TEnv) (hi : TInv E R0 A S Y f st c) (he : EnvIn h e e') (hv : ValidBuf e'.seed) :
    Triple laxest f (isTCtx a c ∗ keep h) (hTFinalizeIfReady E (some a) e) (tPost E R0 A S Y st a (keep h) (tFinalizeIfReady E c e') (FinLeaks E c e'.seed)) := by
  unfold hTFinalizeIfReady tFinalizeIfReady
  sread tctx_pending_reads a c
  by_cases hs : tPendingStatus c = .pendingFinalization
  · rw [if_pos hs, if_pos hs]
    unfold tPendingStatus at hs
    cases hp : c.pending with
    | none => rw [hp] at hs; cases hs
    | some x =>
      rw [hp] at hs
      refine Triple.conseq (hTFinalize_spec hE hk hl f h a c x e e' hi hp hs he hv) (fun _ h => h) ?_
      intro ss f' _ y hy
      obtain ⟨z, hz⟩ := hy
      obtain ⟨h1, h2⟩ := Asrt.pure_star.1 hz
      exact ⟨z, Asrt.pure_star.2 ⟨h1, Asrt.star_mono_r (fun _ => Asrt.star_mono_r (junk_mono fun g => g.imp_right fun g => ⟨x, hp, hs, g⟩)) h2⟩⟩
  · rw [if_neg hs, if_neg hs]
    refine Triple.tPost (G := emp) (c, []) ?_ junk_emp (fun _ => rfl) hi .nil
    intro y hy
    unfold isTOut
    rw [isTEvents_nil, Asrt.star_emp, Asrt.star_emp]
    exact hy

theorem hTVolley_spec {R0 : Option Chain} {A : Chain → Prop} {S Y : Prop} {st : Bool} (f : Bool) (a : Addr) (q : Ptr) (c : TCtx) (v : Option Packet) (e1 e2 : TErr)
    (hi : TInv E R0 A S Y f st c) (hv : v ≠ none → Vouch R0 A Y f) :
    Triple laxest f (isTCtx a c ∗ optRep isTPkt q v) (hTVolley (some a) q e1 e2)
      (tPost E R0 A S Y st a emp (.ok (tVolley c v e1 e2)) (tPendingStatus c = .failed ∧ v ≠ none)) := by
  unfold hTVolley tVolley
  sread tctx_pending_reads a c
  by_cases hs : tPendingStatus c = .failed
  · rw [if_pos hs, if_pos hs]
    refine Triple.tFail (G := optRep isTPkt q v) e1 (by rw [Asrt.emp_star]) ?_ (fun _ => rfl) hi
    cases q with
    | none => cases v with
      | none => exact junk_emp
      | some v => intro y hy; exact hy.1.elim
    | some q => cases v with
      | none => intro y hy; exact hy.1.elim
      | some v => exact le_junk (Or.inr ⟨hs, by simp⟩)
  · rw [if_neg hs, if_neg hs]
    cases q with
    | none => cases v with
      | some v => dsimp only [optRep]; sabsurd
      | none =>
        refine Triple.tPost (G := emp) (c, []) ?_ junk_emp (fun _ => rfl) hi .nil
        intro y hy
        unfold isTOut
        rw [isTEvents_nil, Asrt.star_emp, Asrt.star_emp]
        exact hy
    | some q => cases v with
      | none => dsimp only [optRep]; sabsurd
      | some v =>
        rw [optRep_both]
        sstep hTEmit_spec f q v
        intro o f1 hf1
        have hi1 := hi.oom hf1
        cases o with
        | none =>
          dsimp only [gives]
          sintro
          rename_i hn
          refine Triple.tFail (G := emp) e2 (by simp only [Asrt.star_emp]) junk_emp (fun hf => ?_) hi1
          rw [hn.resolve_left (by simp [hf])]
        | some o =>
          dsimp only [gives]
          sintro
          rename_i d hd
          refine Triple.tPost (G := emp) (c, [.tx d]) ?_ junk_emp (fun hf => ?_) hi1 (.tx ((hv (by simp)).mono (fun _ h => h) id hf1))
          · intro y hy
            unfold isTOut
            rw [show isTEvents [TSeen.tx o] [TEv.tx d] = isBuf o d from Asrt.star_emp _]
            revert hy; revert y; sentail
          · rw [hd]

/-! ### What the application sends in between does not touch the handshake -/

theorem tError_pending (c : TCtx) (e : TErr) : (tError c e).1.pending = c.pending := (tError_same c e).1.2.2.2.2.1

theorem tSend_pending {c : TCtx} {b : Option Bytes} {z : TCtx × List TEv} (h : tSend E c b = .ok z) : z.1.pending = c.pending := by
  unfold tSend at h
  split at h
  · cases h; exact tError_pending _ _
  · split at h
    · cases h; exact tError_pending _ _
    · split at h
      · cases h
      · dsimp only at h
        split at h
        · cases h; exact tError_pending _ _
        · split at h
          · cases h; exact tError_pending _ _
          · cases h; rfl

theorem tSends_pending : ∀ {bs : List Bytes} {c : TCtx} {z : TCtx × List TEv}, tSends E c bs = .ok z → z.1.pending = c.pending := by
  intro bs
  induction bs with
  | nil => intro c z h; cases h; rfl
  | cons b bs ih =>
    intro c z h
    unfold tSends at h
    cases h1 : tSend E c (some b) with
    | ok x =>
      rw [h1] at h
      simp only [Res.bind] at h
      cases h2 : tSends E x.1 bs with
      | ok y =>
        rw [h2] at h
        cases h
        exact (ih h2).trans (tSend_pending h1)
      | null => rw [h2] at h; cases h
      | ub => rw [h2] at h; cases h
    | null => rw [h1] at h; cases h
    | ub => rw [h1] at h; cases h

theorem tActivate_pending {c : TCtx} {bs : List Bytes} {z : TCtx × List TEv} (h : tActivate E c bs = .ok z) : z.1.pending = c.pending := by
  unfold tActivate at h
  split at h
  · cases h; rfl
  · cases h1 : tSends E { c with status := .active } bs with
    | ok y =>
      rw [h1] at h
      cases h
      have := tSends_pending h1
      exact this
    | null => rw [h1] at h; cases h
    | ub => rw [h1] at h; cases h

theorem tFinalize_failed {c : TCtx} {hs : Handshake} {e : TEnv} {z : TCtx × List TEv} (hp : c.pending = some hs) (h : tFinalize E c e = .ok z)
    (hf : tPendingStatus z.1 = .failed) : KeysRefused E hs e.seed := by
  intro w ks hx
  unfold tFinalize at h
  rw [hp] at h
  dsimp only at h
  rw [hx] at h
  dsimp only at h
  split at h
  · assumption
  · split at h
    · cases h; cases hf
    · have := tActivate_pending h
      unfold tPendingStatus at hf
      rw [this] at hf
      cases hf

/-! ### Decisions -/

theorem TPendOk.verify {R0 : Option Chain} {A : Chain → Prop} {S Y : Prop} {f st : Bool} {hs : Handshake} {valid : Bool} (h : TPendOk E R0 A S Y f st hs)
    (hy : valid = true → S → Y) : TPendOk E R0 A S Y f st (hsVerify hs valid).1 ∧ ((hsVerify hs valid).2 ≠ none → Vouch R0 A Y f ∧ (hsVerify hs valid).1.status = .pendingFinalization) := by
  unfold hsVerify
  by_cases hc : (!valid) = true ∨ hs.status ≠ .pendingVerification
  · rw [if_pos hc]
    exact ⟨.failed rfl, by simp⟩
  · rw [if_neg hc]
    have hst : hs.status = .pendingVerification := Decidable.byContradiction fun h => hc (Or.inr h)
    have hb : valid = true := by cases valid <;> simp_all
    obtain ⟨h1, h2, h3⟩ := h.asked hst
    have hV : Vouch R0 A Y f := Or.inr ⟨h2, hy hb h3⟩
    dsimp only
    rw [if_pos h1]
    refine ⟨⟨?_, ?_, ?_, ?_, ?_, fun _ => hV⟩, fun _ => ⟨hV, rfl⟩⟩ <;> simp [HsWf]

theorem hTAnswer_spec (hE : E.Fits) (hk : E.Hkdf64) (hl : ∀ b k h, E.hmac b k .sha512 = some h → h.length = 64) {R0 : Option Chain} {A : Chain → Prop} {S Y : Prop} {st : Bool}
    (f : Bool) (h : Heap) (a : Addr) (c : TCtx) (valid : Bool) (e : HTEnv) (e' : TEnv) (hi : TInv E R0 A S Y f st c) (hy : valid = true → S → Y)
    (he : EnvIn h e e') (hv : ValidBuf e'.seed) :
    Triple laxest f (isTCtx a c ∗ keep h) (hTAnswer E (some a) valid e) (tPost E R0 A S Y st a (keep h) (tAnswer E c valid e') (AnswerLeaks E c valid e'.seed)) := by
  unfold hTAnswer
  refine tctx_pending_field a c rfl ?_ ?_
  · intro hp
    refine Triple.pureBind (x := (none : Ptr)) ?_
    unfold hTFinalizeIfReady
    refine Triple.assoc ?_
    sread tctx_pending_reads a c
    have hs : tPendingStatus c = .unknown := by unfold tPendingStatus; rw [hp]
    rw [hs]
    refine Triple.pureBind (x := ([] : List TSeen)) ?_
    unfold hTVolley
    refine Triple.assoc ?_
    sread tctx_pending_reads a c
    rw [hs]
    refine Triple.pureBind (x := ([] : List TSeen)) ?_
    refine Triple.tPost (G := emp) (c, []) ?_ junk_emp (fun _ => ?_) hi .nil
    · intro y hy
      unfold isTOut
      simp only [List.append_nil, isTEvents_nil, Asrt.star_emp]
      exact hy
    · unfold tAnswer
      rw [hp]
  · intro q hs r0 t0 l r hp
    unfold isTFlat
    rw [hp, optRep_both]
    sstep hHsVerify_spec f q hs valid
    intro v f1 hf1
    obtain ⟨hi1, hV1⟩ := ((hi.oom hf1).pend hs hp).verify hy
    refine tctx_shut (a := a) (c := { c with pending := some (hsVerify hs valid).1 }) (rx := r0) (tx := t0) (l := l) (r := r) (pd := some q)
      (F := optRep isTPkt v (hsVerify hs valid).2 ∗ keep h) ?_ ?_
    · unfold isTFlat
      simp only [optRep_both]
      ac_rfl
    · sstep hTFinalizeIfReady_spec hE hk hl f1 h a { c with pending := some (hsVerify hs valid).1 } e e' ((hi.oom hf1).withPending _ fun x hx => by cases hx; exact hi1) he hv
      intro ss f2 hf2
      unfold tPost
      sintro
      rename_i z hz
      obtain ⟨w, es⟩ := z
      obtain ⟨z1, z2, z3⟩ := hz
      unfold isTOut
      dsimp only at z1 z2 z3 ⊢
      sstep hTVolley_spec f2 a v w (hsVerify hs valid).2 .handshakeFailed .handshakeVolleyFailed z2 (fun hn => (hV1 hn).1.mono (fun _ h => h) id hf2)
      intro ss' f3 hf3
      unfold tPost
      sintro
      rename_i z hz
      obtain ⟨w', es'⟩ := z
      obtain ⟨y1, y2, y3⟩ := hz
      unfold isTOut
      dsimp only at y1 y2 y3 ⊢
      refine Triple.tPost (G := junk (f3 = true ∨ tPendingStatus w = .failed ∧ (hsVerify hs valid).2 ≠ none) ∗
        junk (f2 = true ∨ FinLeaks E { c with pending := some (hsVerify hs valid).1 } e'.seed)) (w', es ++ es') ?_ (junk_star (fun y hy => ?_) (junk_mono fun g => ?_)) (fun hf => ?_) y2 ?_
      · intro y hy
        exact tout_append (w := w') (es := es) (es' := es') (by ac_rfl) y hy
      · refine junk_mono (fun g => ?_) y hy
        rcases g with g | ⟨g1, g2⟩
        · exact Or.inl g
        · cases hf : f2 with
          | true => exact Or.inl (hf3 hf)
          | false =>
            refine Or.inr ⟨hs, hp, (hV1 g2).2, ?_⟩
            have := z1 hf
            unfold tFinalizeIfReady at this
            rw [if_pos (show tPendingStatus { c with pending := some (hsVerify hs valid).1 } = .pendingFinalization from (hV1 g2).2)] at this
            exact tFinalize_failed rfl this g1
      · rcases g with g | ⟨x, g1, g2, g3⟩
        · exact Or.inl (hf3 g)
        · cases g1
          exact Or.inr ⟨hs, hp, g2, g3⟩
      · have e1 := z1 (oom_back hf3 hf)
        have e2 := y1 hf
        injection e2 with e2
        unfold tAnswer
        rw [hp]
        dsimp only
        rw [e1]
        simp only [Res.bind, e2]
      · exact (z3.mono (fun h => h.mono (fun _ h => h) id hf3) (fun h => h.imp_right hf3)).append y3

theorem hTAnswers_spec (hE : E.Fits) (hk : E.Hkdf64) (hl : ∀ b k h, E.hmac b k .sha512 = some h → h.length = 64) {R0 : Option Chain} {A : Chain → Prop} {S Y : Prop} {st : Bool}
    (h : Heap) (a : Addr) (e : HTEnv) (e' : TEnv) (he : EnvIn h e e') (hv : ValidBuf e'.seed) : ∀ (bs : List Bool) (f : Bool) (c : TCtx), (true ∈ bs → S → Y) → TInv E R0 A S Y f st c →
    Triple laxest f (isTCtx a c ∗ keep h) (hTAnswers E (some a) e bs) (tPost E R0 A S Y st a (keep h) (tAnswers E c e' bs) (AnswersLeak E c e' bs)) := by
  intro bs
  induction bs with
  | nil =>
    intro f c hy hi
    unfold hTAnswers
    refine Triple.tPost (G := emp) (c, []) ?_ junk_emp (fun _ => rfl) hi .nil
    intro y hy
    unfold isTOut
    rw [isTEvents_nil, Asrt.star_emp, Asrt.star_emp]
    exact hy
  | cons b bs ih =>
    intro f c hy hi
    unfold hTAnswers
    sstep hTAnswer_spec hE hk hl f h a c b e e' hi (fun hb => hy (by simp [hb])) he hv
    intro ss f2 hf2
    unfold tPost
    sintro
    rename_i z hz
    obtain ⟨w, es⟩ := z
    obtain ⟨z1, z2, z3⟩ := hz
    unfold isTOut
    dsimp only at z1 z2 z3 ⊢
    sstep ih f2 w (fun hb => hy (by simp [hb])) z2
    intro ss' f3 hf3
    unfold tPost
    sintro
    rename_i z hz
    obtain ⟨w', es'⟩ := z
    obtain ⟨y1, y2, y3⟩ := hz
    unfold isTOut
    dsimp only at y1 y2 y3 ⊢
    refine Triple.tPost (G := junk (f3 = true ∨ AnswersLeak E w e' bs) ∗ junk (f2 = true ∨ AnswerLeaks E c b e'.seed)) (w', es ++ es') ?_
      (junk_star (junk_mono fun g => ?_) (junk_mono fun g => g.imp hf3 Or.inl)) (fun hf => ?_) y2 ?_
    · intro y hy
      exact tout_append (w := w') (es := es) (es' := es') (by ac_rfl) y hy
    · rcases g with g | g
      · exact Or.inl g
      · cases hf : f2 with
        | true => exact Or.inl (hf3 hf)
        | false => exact Or.inr (Or.inr ⟨w, es, z1 hf, g⟩)
    · have e1 := z1 (oom_back hf3 hf)
      have e2 := y1 hf
      unfold tAnswers
      rw [e1]
      simp only [Res.bind, e2]
    · exact (z3.mono (fun h => h.mono (fun _ h => h) id hf3) (fun h => h.imp_right hf3)).append y3

end Wickr
