import Verif.Lemmas.SepTStart
/-
Triples for the functions of transport_ctx.c: what comes from the other side.
-/
namespace Wickr
open Asrt Spec

variable {E : Engine}

/-- The application has been asked about a chain under which `G` holds, or memory ran out. -/
def ShownIn (G : Chain → Prop) (es : List TEv) (f : Bool) : Prop := ∃ ch, G ch ∧ (f = true ∨ ∃ c, TEv.ask c ∈ es ∧ SameChain ch c)

/-- The same, right after the packet was processed. -/
def ShownNow (G : Chain → Prop) (ask : Option Chain) (f : Bool) : Prop := ∃ ch, G ch ∧ (f = true ∨ ∃ c, ask = some c ∧ SameChain ch c)

theorem pend_process {R0 : Option Chain} {A G : Chain → Prop} {Y : Prop} {f f1 st : Bool} {v w : Handshake} {p p' : Packet} {r : HsRand} {q : Option Packet} {ask : Option Chain}
    (ht : v.status = .unknown ∨ v.status = .inProgress → Tied E R0 f v.remote) (hf : f = true → f1 = true) (hG : ∀ ch, Authentic E p ch → G ch)
    (ho : ProcOutcome E v p r f1 w p' q ask) :
    TPendOk E R0 (fun R => A R ∨ G R) (ShownNow G ask f1) Y f1 st w ∧ (q ≠ none → Vouch R0 (fun R => A R ∨ G R) Y f1) ∧ (ask ≠ none → R0 = none ∨ f1 = true) := by
  obtain ⟨-, -, -, h4⟩ := ho
  rcases h4 with ⟨k1, rfl, rfl⟩ | ⟨k1, ⟨ch, ch', k2, k3, k4⟩, k5, k6, k7, k8⟩
  · exact ⟨.failed k1, by simp, by simp⟩
  · have ht := (ht k1).mono hf
    rcases k2 with ⟨k2, k9⟩ | ⟨k2, k9, k10⟩
    · obtain ⟨R, hR⟩ : ∃ R, R0 = some R := by
        cases hr : R0 with
        | none => rw [ht.2 hr] at k2; cases k2
        | some R => exact ⟨R, rfl⟩
      obtain ⟨c, hc, hst⟩ := (ht.1 R hR).resolve_right (by rw [k2]; simp)
      rw [k2] at hc
      cases hc
      have hv : Vouch R0 (fun R => A R ∨ G R) Y f1 := Or.inl ⟨R, hR, Or.inr (hG R (hst.authentic ((after_honest hst.1 k4).2.2 rfl)))⟩
      obtain ⟨rfl, k11⟩ := k7 k9
      refine ⟨⟨?_, ?_, ?_, ?_, ?_, fun _ => hv⟩, fun _ => hv, by simp⟩ <;> simp [HsWf, k9]
    · have hR : R0 = none ∨ f1 = true := by
        cases hr : R0 with
        | none => exact Or.inl rfl
        | some R =>
          refine Or.inr ((ht.1 R hr).elim (fun ⟨c, hc, _⟩ => ?_) fun h => h.1)
          rw [k2] at hc; cases hc
      obtain ⟨rfl, k11, k12⟩ := k6 k10
      obtain ⟨m, -, hm⟩ := Option.bind_eq_some_iff.1 k9
      have hh : ChainHonest E ch := fun d s hd => by rw [(chainFromProto_spec hm).1] at hd; cases hd
      obtain ⟨g1, -, g3⟩ := after_honest hh k4
      refine ⟨⟨?_, ?_, ?_, ?_, fun _ => ⟨k5, hR, ch, hG ch (g3 rfl), ?_⟩, ?_⟩, by simp, fun _ => hR⟩
      · simp [HsWf, k10]
      · simp [k10]
      · simp [k10]
      · simp [k10]
      · cases ask with
        | none => exact Or.inl (k11 rfl)
        | some c =>
          obtain ⟨ch2, e1, e2⟩ := k12 c rfl
          rw [k3] at e1
          cases e1
          refine Or.inr ⟨c, rfl, ?_⟩
          obtain ⟨s1, s2⟩ := chainLoss_same e2
          rw [g1.1] at s1
          rw [g1.2] at s2
          exact ⟨s1, s2⟩
      · simp [k10]

/-- What receiving leaves. -/
def rPost (E : Engine) (R0 : Option Chain) (A G : Chain → Prop) (S Y Yes : Prop) (st : Bool) (a : Addr) (F : Asrt) (val : Res (TCtx × List TEv)) (ψ : Prop)
    (ss : List TSeen) (f : Bool) : Asrt :=
  Asrt.ex fun z => ⌜(f = false → val = .ok z) ∧ TInv E R0 (fun R => A R ∨ G R) (S ∨ ShownIn G z.2 f) (Y ∨ ShownIn G z.2 f ∧ Yes) f st z.1 ∧
    TGood (Vouch R0 (fun R => A R ∨ G R) (Y ∨ ShownIn G z.2 f ∧ Yes) f) (R0 = none ∨ f = true) z.2⌝ ∗ isTOut a ss z ∗ F ∗ junk (f = true ∨ ψ)

theorem rPost_of {R0 : Option Chain} {A G : Chain → Prop} {S Y Yes : Prop} {st : Bool} {a : Addr} {F : Asrt} {val : Res (TCtx × List TEv)} {ψ ψ' : Prop}
    {ss : List TSeen} {f : Bool} (hψ : ψ → ψ') {y : Heap} (hy : tPost E R0 A S Y st a F val ψ ss f y) : rPost E R0 A G S Y Yes st a F val ψ' ss f y := by
  obtain ⟨z, hz⟩ := hy
  obtain ⟨⟨z1, z2, z3⟩, hz⟩ := Asrt.pure_star.1 hz
  refine ⟨z, Asrt.pure_star.2 ⟨⟨z1, z2.mono (fun _ h => Or.inl h) Or.inl Or.inl id, z3.mono (fun h => h.mono (fun _ h => Or.inl h) Or.inl id) id⟩, ?_⟩⟩
  exact Asrt.star_mono_r (fun _ => Asrt.star_mono_r (junk_mono fun h => h.imp_right hψ)) hz

theorem hTAsk_spec (hE : E.Fits) (hk : E.Hkdf64) (hl : ∀ b k h, E.hmac b k .sha512 = some h → h.length = 64) {R0 : Option Chain} {A : Chain → Prop} {S Y : Prop} {st : Bool}
    (f : Bool) (h : Heap) (a : Addr) (o : Ptr) (ask : Option Chain) (c : TCtx) (e : HTEnv) (e' : TEnv) (hi : TInv E R0 A S Y f st c) (hy : true ∈ e'.answers → S → Y)
    (hq : ask ≠ none → R0 = none ∨ f = true) (he : EnvIn h e e') (hv : ValidBuf e'.seed) :
    Triple laxest f (isTCtx a c ∗ optRep isChain o ask ∗ keep h) (hTAsk E (some a) o e) (fun ss f' =>
      Asrt.ex fun z => ⌜((f' = false → tAsk E c ask e' = .ok z) ∧ TInv E R0 A S Y f' st z.1 ∧ TGood (Vouch R0 A Y f') (R0 = none ∨ f' = true) z.2) ∧ ∀ ch, ask = some ch → TEv.ask ch ∈ z.2⌝ ∗
        isTOut a ss z ∗ keep h ∗ junk (f' = true ∨ ask ≠ none ∧ AnswersLeak E c e' e'.answers)) := by
  unfold hTAsk tAsk
  cases o with
  | none => cases ask with
    | some _ => dsimp only [optRep]; sabsurd
    | none =>
      dsimp only
      refine Triple.ret fun y hy => ⟨(c, []), Asrt.pure_star.2 ⟨⟨⟨fun _ => rfl, hi, .nil⟩, fun _ hx => by cases hx⟩, ?_⟩⟩
      unfold isTOut
      rw [isTEvents_nil, Asrt.star_emp]
      rw [optRep_null, Asrt.emp_star] at hy
      rw [← Asrt.star_emp (keep h)] at hy
      exact Asrt.star_mono_r (fun _ => Asrt.star_mono_r junk_emp) hy
  | some o => cases ask with
    | none => dsimp only [optRep]; sabsurd
    | some ch =>
      rw [optRep_both]
      dsimp only
      sstep hTAnswers_spec hE hk hl h a e e' he hv e.answers f c (by rw [he.2.2.2.1]; exact hy) hi
      intro ss f1 hf1
      unfold tPost
      sintro
      rename_i z hz
      obtain ⟨w, es⟩ := z
      obtain ⟨z1, z2, z3⟩ := hz
      unfold isTOut
      dsimp only at z1 z2 z3 ⊢
      refine Triple.ret fun y hy => ⟨(w, .ask ch :: es), Asrt.pure_star.2 ⟨⟨⟨fun hf => ?_, z2, ?_⟩, fun _ hx => by cases hx; simp⟩, ?_⟩⟩
      · rw [he.2.2.2.1] at z1
        rw [z1 hf]
        rfl
      · refine TGood.append (es := [.ask ch]) ⟨by simp, fun _ _ => (hq (by simp)).imp_right hf1⟩ z3
      · have h2 : Asrt.le (junk (f1 = true ∨ AnswersLeak E c e' e.answers)) (junk (f1 = true ∨ some ch ≠ none ∧ AnswersLeak E c e' e'.answers)) :=
          junk_mono fun h => h.imp_right fun h => ⟨by simp, he.2.2.2.1 ▸ h⟩
        unfold isTEvents isTEvent
        refine Asrt.star_mono_r (fun _ => Asrt.star_mono_r h2) (?_ : ((isTCtx a w ∗ (isChain o ch ∗ isTEvents ss es)) ∗ keep h ∗ junk (f1 = true ∨ AnswersLeak E c e' e.answers)) y)
        revert hy; revert y; sentail

/-- What is needed of a handshake before a packet is processed. -/
def ReadyFor (E : Engine) (R0 : Option Chain) (f : Bool) (p : Packet) (v : Handshake) : Prop :=
  HsWf v ∧ (v.status = .unknown ∨ v.status = .inProgress → Tied E R0 f v.remote) ∧ ¬ WrongCase v p

/-- transport_ctx.c:385-408, with a handshake. -/
def tProcessWith (E : Engine) (c : TCtx) (h : Handshake) (p : Packet) (e : TEnv) : Res (TCtx × List TEv) :=
  (hsProcess E h (some p) e.hs).bind fun (h, out) =>
    (tAsk E { c with pending := some h } out.ask e).bind fun x =>
      (tFinalizeIfReady E x.1 e).bind fun y =>
        let z := tVolley y.1 out.send .processHandshakeFailed .packetSerializationFailed
        .ok (z.1, x.2 ++ (y.2 ++ z.2))

theorem hTProcessWith_spec (hE : E.Fits) (hk : E.Hkdf64) (hl : ∀ b k h, E.hmac b k .sha512 = some h → h.length = 64) {R0 : Option Chain} {A G : Chain → Prop} {S Y : Prop} {st : Bool}
    (f : Bool) (h : Heap) (a b q : Addr) (rx tx : Ptr) (l : Addr) (rm : Ptr) (c : TCtx) (v : Handshake) (p : Packet) (e : HTEnv) (e' : TEnv)
    (hi : TInv E R0 A S Y f st { c with pending := none }) (hw : ReadyFor E R0 f p v) (hr : HsRandOk e'.hs) (hG : ∀ ch, Authentic E p ch → G ch)
    (he : EnvIn h e e') (hv : ValidBuf e'.seed) :
    Triple laxest f (isTFlat a { c with pending := some v } rx tx l rm (some q) ∗ isTPkt b p ∗ keep h) (hTProcessWith E (some a) (some b) (some q) e)
      (fun ss f' => Asrt.ex fun p' => rPost E R0 A G S Y (true ∈ e'.answers) st a (isTPkt b p' ∗ keep h) (tProcessWith E c v p e') (ProcessLeaks E c v p e') ss f') := by
  unfold hTProcessWith
  unfold isTFlat
  simp only [optRep_both]
  rw [he.1]
  sstep hHsProcess_spec hE f q b v p e'.hs hr hw.1 hw.2.2
  intro o f1 hf1
  sintro
  rename_i z hz
  obtain ⟨w, p', s, ask⟩ := z
  dsimp only at hz
  obtain ⟨k1, k2, k3⟩ := pend_process (A := A) (G := G) (Y := Y ∨ ShownNow G ask f1 ∧ true ∈ e'.answers) (st := st) hw.2.1 hf1 hG hz
  have hz := hz.1
  have hi1 : TInv E R0 (fun R => A R ∨ G R) (ShownNow G ask f1) (Y ∨ ShownNow G ask f1 ∧ true ∈ e'.answers) f1 st { c with pending := some w } :=
    ⟨hi.held, fun h => (hi.keyed h).mono (fun _ h => Or.inl h) Or.inl hf1, hi.live, hi.refs, fun x hx => by cases hx; exact k1, hi.begun⟩
  unfold isProcessed
  dsimp only
  refine tctx_shut (a := a) (c := { c with pending := some w }) (rx := rx) (tx := tx) (l := l) (r := rm) (pd := some q)
    (F := isTPkt b p' ∗ optRep isTPkt o.1 s ∗ optRep isChain o.2 ask ∗ keep h ∗ junk (f1 = true ∨ ProcLeaks E v p e'.hs)) ?_ ?_
  · unfold isTFlat
    simp only [optRep_both]
    ac_rfl
  · sstep hTAsk_spec hE hk hl f1 h a o.2 ask { c with pending := some w } e e' hi1 (fun h1 h2 => Or.inr ⟨h2, h1⟩) k3 he hv
    intro ss f2 hf2
    sintro
    rename_i z hz
    obtain ⟨w2, es⟩ := z
    obtain ⟨⟨x1, x2, x3⟩, x4⟩ := hz
    unfold isTOut
    dsimp only at x1 x2 x3 x4 ⊢
    sstep hTFinalizeIfReady_spec hE hk hl f2 h a w2 e e' x2 he hv
    intro ss' f3 hf3
    unfold tPost
    sintro
    rename_i z hz
    obtain ⟨w3, es'⟩ := z
    obtain ⟨z1, z2, z3⟩ := hz
    unfold isTOut
    dsimp only at z1 z2 z3 ⊢
    sstep hTVolley_spec f3 a o.1 w3 s .processHandshakeFailed .packetSerializationFailed z2 (fun hn => (k2 hn).mono (fun _ h => h) id fun h => hf3 (hf2 h))
    intro ss'' f4 hf4
    unfold tPost
    sintro
    rename_i z hz
    obtain ⟨w4, es''⟩ := z
    obtain ⟨y1, y2, y3⟩ := hz
    unfold isTOut
    dsimp only at y1 y2 y3 ⊢
    have hs : ShownNow G ask f1 → ShownIn G (es ++ (es' ++ es'')) f4 := by
      rintro ⟨ch, g1, g2⟩
      refine ⟨ch, g1, g2.imp (fun h => hf4 (hf3 (hf2 h))) fun ⟨c, g3, g4⟩ => ⟨c, ?_, g4⟩⟩
      exact List.mem_append_left _ (x4 c g3)
    have hY : Y ∨ ShownNow G ask f1 ∧ true ∈ e'.answers → Y ∨ ShownIn G (es ++ (es' ++ es'')) f4 ∧ true ∈ e'.answers := fun h => h.imp_right fun h => ⟨hs h.1, h.2⟩
    refine Triple.ret fun y hy => ⟨p', (w4, es ++ (es' ++ es'')), Asrt.pure_star.2 ⟨⟨fun hf => ?_, y2.mono (fun _ h => h) (fun h => Or.inr (hs h)) hY id, ?_⟩, ?_⟩⟩
    · have e1 := z1 (oom_back hf4 hf)
      have e2 := x1 (oom_back (fun h => hf4 (hf3 h)) hf)
      have e3 := hz (oom_back (fun h => hf4 (hf3 (hf2 h))) hf)
      have e4 := y1 hf
      injection e4 with e4
      unfold tProcessWith
      rw [e3]
      simp only [Res.bind]
      rw [e2]
      simp only
      rw [e1]
      simp only [e4]
    · refine TGood.append (x3.mono (fun h => h.mono (fun _ h => h) hY fun h => hf4 (hf3 h)) fun h => h.imp_right fun h => hf4 (hf3 h)) (TGood.append
        (z3.mono (fun h => h.mono (fun _ h => h) hY hf4) fun h => h.imp_right hf4) (y3.mono (fun h => h.mono (fun _ h => h) hY id) id))
    · have hj : Asrt.le (junk (f4 = true ∨ tPendingStatus w3 = .failed ∧ s ≠ none) ∗ junk (f3 = true ∨ FinLeaks E w2 e'.seed) ∗
          junk (f2 = true ∨ ask ≠ none ∧ AnswersLeak E { c with pending := some w } e' e'.answers) ∗
          junk (f1 = true ∨ ProcLeaks E v p e'.hs)) (junk (f4 = true ∨ ProcessLeaks E c v p e')) := by
        cases hf : f4 with
        | true => exact le_junk (Or.inl rfl)
        | false =>
          have g3 := oom_back hf4 hf
          have g2 := oom_back hf3 g3
          have g1 := oom_back hf2 g2
          have e1 := z1 g3
          have e2 := x1 g2
          have e3 := hz g1
          refine junk_star (junk_mono fun g => Or.inr ?_) (junk_star (junk_mono fun g => Or.inr ?_) (junk_star (junk_mono fun g => Or.inr ?_) (junk_mono fun g => Or.inr ?_)))
          · obtain ⟨t1, t2⟩ := g.resolve_left (by simp)
            exact Or.inr ⟨w, ⟨s, ask⟩, e3, Or.inr ⟨w2, es, e2, Or.inr ⟨t2, w3, es', e1, t1⟩⟩⟩
          · exact Or.inr ⟨w, ⟨s, ask⟩, e3, Or.inr ⟨w2, es, e2, Or.inl (g.resolve_left (by simp [g3]))⟩⟩
          · exact Or.inr ⟨w, ⟨s, ask⟩, e3, Or.inl (g.resolve_left (by simp [g2]))⟩
          · exact Or.inl (g.resolve_left (by simp [g1]))
      refine Asrt.star_mono_r (fun _ => Asrt.star_mono_r hj) ?_
      refine tout_append (A := (isTCtx a w4 ∗ isTEvents ss es ∗ isTEvents (ss' ++ ss'') (es' ++ es'')) ∗ _) (w := w4) (es := es) (es' := es' ++ es'') rfl y ?_
      refine Asrt.star_mono (P := isTCtx a w4 ∗ isTEvents ss es ∗ isTEvents ss' es' ∗ isTEvents ss'' es'') (fun z hz => Asrt.star_mono_r (fun u hu => Asrt.star_mono_r (fun t ht => isTEvents_append _ _ _ _ t ht) hu) hz)
        (?_ : ((isTCtx a w4 ∗ isTEvents ss es ∗ isTEvents ss' es' ∗ isTEvents ss'' es'') ∗ (isTPkt b p' ∗ keep h) ∗
          junk (f4 = true ∨ tPendingStatus w3 = .failed ∧ s ≠ none) ∗ junk (f3 = true ∨ FinLeaks E w2 e'.seed) ∗
          junk (f2 = true ∨ ask ≠ none ∧ AnswersLeak E { c with pending := some w } e' e'.answers) ∗ junk (f1 = true ∨ ProcLeaks E v p e'.hs)) y)
      revert hy
      revert y
      sentail

/-- What a handshake packet leaves behind. -/
def HsPktLeaks (E : Engine) (c : TCtx) (p : Packet) (e : TEnv) : Prop :=
  ∃ v, (c.pending = some v ∨ c.pending = none ∧ tCreateHandshake c = some v) ∧ ProcessLeaks E c v p e

theorem hTProcessHs_spec (hE : E.Fits) (hk : E.Hkdf64) (hl : ∀ b k h, E.hmac b k .sha512 = some h → h.length = 64) {R0 : Option Chain} {A G : Chain → Prop} {S Y : Prop} {st : Bool}
    (f : Bool) (h : Heap) (a b : Addr) (c : TCtx) (p : Packet) (e : HTEnv) (e' : TEnv)
    (hi : TInv E R0 A S Y f st c) (hc : tCanHandshake c = true) (ho : (st = false → ∀ m, handshakeFromPacket p ≠ some (.response m)) ∧ (st = true → ∀ m, handshakeFromPacket p ≠ some (.seed m)))
    (hr : HsRandOk e'.hs) (hG : ∀ ch, Authentic E p ch → G ch) (he : EnvIn h e e') (hv : ValidBuf e'.seed) :
    Triple laxest f (isTCtx a c ∗ isTPkt b p ∗ keep h) (hTProcessHs E (some a) (some b) e)
      (fun ss f' => Asrt.ex fun p' => rPost E R0 A G S Y (true ∈ e'.answers) st a (isTPkt b p' ∗ keep h) (tProcessHs E c p e') (HsPktLeaks E c p e') ss f') := by
  have hi0 : ∀ {g : Bool}, (f = true → g = true) → TInv E R0 A S Y g st { c with pending := none } := fun hg => (hi.oom hg).withPending none fun _ hx => by cases hx
  unfold hTProcessHs
  refine tctx_pending_field a c rfl ?_ ?_
  · intro hp
    dsimp only
    have hfresh : c.status = .fresh := by
      unfold tCanHandshake at hc
      rw [hp] at hc
      simpa using hc
    have hst : st = false := by
      cases hs : st with
      | false => rfl
      | true => exact absurd hfresh (hi.begun hs)
    sstep hTCreateHandshake_spec f a c
    intro q f1 hf1
    cases q with
    | none =>
      dsimp only [createdFor]
      sintro
      rename_i hn
      refine Triple.conseq (Triple.tFail (R0 := R0) (A := A) (S := S) (Y := Y) (st := st) (F := isTPkt b p ∗ keep h) (G := emp) (val := tProcessHs E c p e') (ψ := HsPktLeaks E c p e') .createHandshakeFailed (by simp only [Asrt.star_emp]) junk_emp (fun hf => ?_) (hi.oom hf1)) (fun _ h => h)
        fun ss f' s _ hs => ⟨p, rPost_of id hs⟩
      unfold tProcessHs
      rw [hp]
      dsimp only
      rw [hn.resolve_left (by simp [hf])]
    | some q =>
      dsimp only [createdFor]
      sintro
      rename_i v hv'
      refine tctx_open (c := c) (by frame) fun rx tx l rm pd => ?_
      unfold isTFlat
      sstep setField_spec laxest f1 a (.tctx c.status c.evo c.err) [rx, tx, some l, rm, pd] 4 (some q) (by simp)
      intro _ f2 hf2
      simp only [List.set_cons_succ, List.set_cons_zero]
      rw [hp]
      cases pd with
      | some _ => dsimp only [optRep]; sabsurd
      | none =>
        have hw : ReadyFor E R0 f2 p v := by
          refine ⟨⟨fun _ => hv'.2.2.1, fun _ => ⟨hv'.2.2.2.1, hv'.2.2.2.2.1⟩⟩, fun _ => (hv'.tied hi).mono hf2, ?_⟩
          rintro (⟨-, m, hm⟩ | ⟨h1, -⟩)
          · exact ho.1 hst m hm
          · rw [hv'.2.1] at h1; cases h1
        refine Triple.conseq (hTProcessWith_spec hE hk hl f2 h a b q rx tx l rm c v p e e' (hi0 fun h => hf2 (hf1 h)) hw hr hG he hv) ?_ ?_
        · unfold isTFlat
          simp only [optRep_both, optRep_null]
          sentail
        · intro ss f' s hf' hs
          obtain ⟨p', z, hz⟩ := hs
          obtain ⟨⟨g1, g2⟩, hz⟩ := Asrt.pure_star.1 hz
          have hj : Asrt.le (junk (f' = true ∨ ProcessLeaks E c v p e')) (junk (f' = true ∨ HsPktLeaks E c p e')) := by
            cases hf : f' with
            | true => exact le_junk (Or.inl rfl)
            | false => exact junk_mono fun g => Or.inr ⟨v, Or.inr ⟨hp, hv'.1 (oom_back (fun h => hf' (hf2 h)) hf)⟩, g.resolve_left (by simp)⟩
          refine ⟨p', z, Asrt.pure_star.2 ⟨⟨fun hf => ?_, g2⟩, Asrt.star_mono_r (fun _ => Asrt.star_mono_r hj) hz⟩⟩
          have := g1 hf
          unfold tProcessWith at this
          unfold tProcessHs
          rw [hp]
          dsimp only
          rw [hv'.1 (oom_back (fun h => hf' (hf2 h)) hf)]
          exact this
  · intro q v rx tx l rm hp
    dsimp only
    have hpo := hi.pend v hp
    have hw : ReadyFor E R0 f p v := by
      refine ⟨hpo.wf, fun h1 => hpo.tied (h1.resolve_left hpo.known), ?_⟩
      rintro (⟨h1, -⟩ | ⟨h1, m, hm⟩)
      · exact hpo.known h1
      · exact ho.2 (hpo.begun h1) m hm
    refine Triple.conseq (hTProcessWith_spec hE hk hl f h a b q rx tx l rm c v p e e' (hi0 id) hw hr hG he hv) ?_ ?_
    · have : ({ c with pending := some v } : TCtx) = c := by rw [← hp]
      rw [this]
      exact fun _ h => h
    · intro ss f' s hf' hs
      obtain ⟨p', z, hz⟩ := hs
      obtain ⟨⟨g1, g2⟩, hz⟩ := Asrt.pure_star.1 hz
      refine ⟨p', z, Asrt.pure_star.2 ⟨⟨fun hf => ?_, g2⟩, Asrt.star_mono_r (fun _ => Asrt.star_mono_r (junk_mono fun g => g.imp_right fun g => ⟨v, Or.inl hp, g⟩)) hz⟩⟩
      have := g1 hf
      unfold tProcessWith at this
      unfold tProcessHs
      rw [hp]
      exact this

/-! ### Receiving -/

theorem hTData_spec (hE : E.Fits) {R0 : Option Chain} {A : Chain → Prop} {S Y : Prop} {st : Bool} (f : Bool) (a b : Addr) (c : TCtx) (p : Packet) (v : StreamCtx) (e : HTEnv)
    (hi : TInv E R0 A S Y f st c) (hv : c.rx = some v) :
    Triple laxest f (isTCtx a c ∗ isTPkt b p) (hTData E (some a) (some b) e) (tPost E R0 A S Y st a (isTPkt b p)
      (match (tDecode E v p e.junk).2 with
        | none => .ok (tError { c with rx := some (tDecode E v p e.junk).1 } .packetDecodeFailed)
        | some d => .ok ({ c with rx := some (tDecode E v p e.junk).1 }, [.rx d])) False) := by
  have hV : ∀ {g : Bool}, (f = true → g = true) → Vouch R0 A Y g := fun hg => (hi.keyed (Or.inl (by rw [hv]; rfl))).mono (fun _ h => h) id hg
  have hi1 : ∀ {g : Bool} (w : StreamCtx), (f = true → g = true) → w.ref = v.ref → TInv E R0 A S Y g st { c with rx := some w } := fun w hg hw =>
    ⟨hi.held, fun _ => hV hg, fun h => ⟨rfl, (hi.live h).2⟩, ⟨fun s hs => by cases hs; exact hw.trans (hi.refs.1 v hv), hi.refs.2⟩, (hi.oom hg).pend, hi.begun⟩
  unfold hTData
  refine Triple.seq (F := emp) (hTDecode_spec hE f a b c p e.junk v hv) (Asrt.star_emp _).symm fun o f1 hf1 => ?_
  sintro
  rename_i w hw
  cases o with
  | none =>
    dsimp only [gives]
    sintro
    rename_i hn
    refine Triple.tFail (G := emp) (c := { c with rx := some w }) .packetDecodeFailed ?_ junk_emp (fun hf => ?_) (hi1 w hf1 hw.1)
    · simp only [Asrt.star_emp]
    · rw [hn.resolve_left (by simp [hf]), hw.2 (Or.inl hf)]
  | some o =>
    dsimp only [gives]
    sintro
    rename_i d hd
    refine Triple.tPost (G := emp) ({ c with rx := some w }, [.rx d]) ?_ junk_emp (fun hf => ?_) (hi1 w hf1 hw.1) ⟨fun _ _ _ => hV hf1, by simp⟩
    · intro y hy
      unfold isTOut
      rw [show isTEvents [TSeen.rx o] [TEv.rx d] = isBuf o d from Asrt.star_emp _, Asrt.star_emp]
      revert hy; revert y; sentail
    · rw [hd, hw.2 (Or.inl hf)]

/-- What a buffer contains is authentic under a chain. -/
def GotIn (E : Engine) (d : Option Bytes) (ch : Chain) : Prop := ∃ p, d.bind pktFromBuffer = some p ∧ Authentic E p ch

theorem hTRecv_spec (hE : E.Fits) (hk : E.Hkdf64) (hl : ∀ b k h, E.hmac b k .sha512 = some h → h.length = 64) {R0 : Option Chain} {A : Chain → Prop} {S Y : Prop} {st : Bool}
    (f : Bool) (h : Heap) (a : Addr) (b : Ptr) (d : Option Bytes) (c : TCtx) (e : HTEnv) (e' : TEnv) (hi : TInv E R0 A S Y f st c) (hb : HasOpt isBuf h b d)
    (ho : ∀ p, d.bind pktFromBuffer = some p → (st = false → ∀ m, handshakeFromPacket p ≠ some (.response m)) ∧ (st = true → ∀ m, handshakeFromPacket p ≠ some (.seed m)))
    (hr : HsRandOk e'.hs) (he : EnvIn h e e') (hv : ValidBuf e'.seed) :
    Triple laxest f (isTCtx a c ∗ keep h) (hTRecv E (some a) b e)
      (rPost E R0 A (GotIn E d) S Y (true ∈ e'.answers) st a (keep h) (tRecv E c d e') (RecvLeaks E c d e')) := by
  have fail : ∀ (f1 : Bool) (P : Asrt) (er : TErr), P = isTCtx a c ∗ keep h → (f = true → f1 = true) → (f1 = false → tRecv E c d e' = .ok (tError c er)) →
      Triple laxest f1 P (hTError (some a) er) (rPost E R0 A (GotIn E d) S Y (true ∈ e'.answers) st a (keep h) (tRecv E c d e') (RecvLeaks E c d e')) := by
    intro f1 P er hP hf hval
    refine Triple.conseq (Triple.tFail (F := keep h) (G := emp) (ψ := RecvLeaks E c d e') er (by rw [hP, Asrt.star_emp]) junk_emp hval (hi.oom hf)) (fun _ h => h) fun ss f' s _ hs => rPost_of id hs
  unfold hTRecv
  cases b with
  | none => cases d with
    | some _ => exact hb.elim
    | none => exact fail f _ _ rfl id fun _ => rfl
  | some b => cases d with
    | none => exact hb.elim
    | some d =>
      dsimp only
      sread tctx_scal_reads a c
      dsimp only
      by_cases hs : c.status = .error
      · rw [if_pos hs]
        refine Triple.tail ?_
        sstep hTUpdate_spec laxest f a c .error
        intro ss f1 hf1
        have hu : tUpdate c .error = (c, []) := by unfold tUpdate; rw [if_pos hs]
        refine Triple.conseq (Triple.tPost (R0 := R0) (A := A) (S := S) (Y := Y) (st := st) (a := a) (F := keep h) (val := tRecv E c (some d) e') (ψ := RecvLeaks E c (some d) e') (G := emp) (tUpdate c .error) (fun y hy => by rw [Asrt.star_emp]; exact hy) junk_emp (fun _ => ?_) ?_ ?_) (fun _ h => h) fun ss f' s _ hs => rPost_of id hs
        · unfold tRecv
          dsimp only
          rw [if_pos hs]
        · rw [hu]; exact hi.oom hf1
        · rw [hu]; exact .nil
      · rw [if_neg hs]
        sstep hTPktFromBuffer_view laxest f h b d (fun _ _ _ _ => trivial) hb
        intro q f1 hf1
        cases q with
        | none =>
          dsimp only [gives]
          sintro
          rename_i hn
          refine fail f1 _ _ (by ac_rfl) hf1 fun hf => ?_
          unfold tRecv
          dsimp only
          rw [if_neg hs, hn.resolve_left (by simp [hf])]
        | some q =>
          dsimp only [gives]
          sintro
          rename_i p hp
          have fin : ∀ m : H (List TSeen), Triple laxest f1 (isTCtx a c ∗ isTPkt q p ∗ keep h) m
              (fun ss f' => Asrt.ex fun p' => rPost E R0 A (GotIn E (some d)) S Y (true ∈ e'.answers) st a (isTPkt q p' ∗ keep h) (tRecv E c (some d) e') (RecvLeaks E c (some d) e') ss f') →
              Triple laxest f1 (isTCtx a c ∗ isTPkt q p ∗ keep h) (do
                let x ← m
                let _ ← hTPktDestroy (some q)
                Pure.pure x) (rPost E R0 A (GotIn E (some d)) S Y (true ∈ e'.answers) st a (keep h) (tRecv E c (some d) e') (RecvLeaks E c (some d) e')) := by
            intro m hm
            refine Triple.seq (F := emp) hm (Asrt.star_emp _).symm fun ss f2 hf2 => ?_
            unfold rPost
            sintro
            rename_i p' z hz
            sdestroy hTPktDestroy_spec (a := q) (v := p') (fun _ _ => trivial)
            intro f3 hf3
            have hs : ShownIn (GotIn E (some d)) z.2 f2 → ShownIn (GotIn E (some d)) z.2 f3 := fun ⟨ch, g1, g2⟩ => ⟨ch, g1, g2.imp_left hf3⟩
            have hY : Y ∨ ShownIn (GotIn E (some d)) z.2 f2 ∧ true ∈ e'.answers → Y ∨ ShownIn (GotIn E (some d)) z.2 f3 ∧ true ∈ e'.answers := fun h => h.imp_right fun h => ⟨hs h.1, h.2⟩
            obtain ⟨z1, z2, z3⟩ := hz
            refine Triple.ret fun y hy => ⟨z, Asrt.pure_star.2 ⟨⟨fun hf => z1 (oom_back hf3 hf), z2.mono (fun _ h => h) (fun h => h.imp_right hs) hY hf3,
              z3.mono (fun h => h.mono (fun _ h => h) hY hf3) (fun h => h.imp_right hf3)⟩, ?_⟩⟩
            refine Asrt.star_mono_r (fun _ => Asrt.star_mono_r (junk_mono fun h => h.imp_left hf3)) (?_ : (isTOut a ss z ∗ keep h ∗ junk (f2 = true ∨ RecvLeaks E c (some d) e')) y)
            revert hy; revert y; sentail
          have hval : tRecv E c (some d) e' = if tCanHandshake c && isHandshakePkt p then tProcessHs E c p e'
              else match c.rx with
                | none => .ok (tError c .badRxState)
                | some s =>
                  match (tDecode E s p e'.junk).2 with
                  | none => .ok (tError { c with rx := some (tDecode E s p e'.junk).1 } .packetDecodeFailed)
                  | some d => .ok ({ c with rx := some (tDecode E s p e'.junk).1 }, [.rx d]) := by
            unfold tRecv
            dsimp only
            rw [if_neg hs, hp]
            rfl
          refine Triple.lend0 (P := isTCtx a c) (by frame) fun h1 hh => ?_
          obtain ⟨rx, tx, l, rm, pd, g1, g2, -, -, -, g3⟩ := tctx_has (has_of hh)
          have r4 : Reads (keep h1) (field (some a) 4) pd := field_view g1 rfl
          have r0 : Reads (keep h1) (field (some a) 0) rx := field_view g1 rfl
          have e4 : pd.isSome = c.pending.isSome := by
            generalize c.pending = x at g3
            cases pd <;> cases x <;> first | rfl | exact g3.elim
          have e0 : rx.isSome = c.rx.isSome := by
            generalize c.rx = x at g2
            cases rx <;> cases x <;> first | rfl | exact g2.elim
          sread r4
          sread tpkt_scal_reads q p
          dsimp only
          sread r0
          refine Triple.giveBack0 hh (F := isTPkt q p ∗ keep h) (by ac_rfl) ?_
          have hcond : ((pd.isSome || c.status == .fresh) && hdrIsHandshake p.hdr) = (tCanHandshake c && isHandshakePkt p) := by
            rw [e4]; rfl
          rw [hcond]
          refine fin _ ?_
          by_cases hc : (tCanHandshake c && isHandshakePkt p) = true
          · rw [if_pos hc, hval, if_pos hc]
            rw [Bool.and_eq_true] at hc
            refine Triple.conseq (hTProcessHs_spec (G := GotIn E (some d)) hE hk hl f1 h a q c p e e' (hi.oom hf1) hc.1 (ho p hp) hr (fun ch hch => ⟨p, hp, hch⟩) he hv) (fun _ h => h) ?_
            intro ss f' s _ hs
            obtain ⟨p', z, hz⟩ := hs
            refine ⟨p', z, ?_⟩
            refine Asrt.star_mono_r (fun _ => Asrt.star_mono_r fun _ => Asrt.star_mono_r (junk_mono fun h => h.imp_right fun ⟨v, g1, g2⟩ => ⟨p, v, hp, hc.1, hc.2, g1, g2⟩)) hz
          · rw [if_neg hc, hval, if_neg hc]
            cases rx with
            | none =>
              cases hx : c.rx with
              | some _ => rw [hx] at e0; cases e0
              | none =>
                dsimp only
                refine Triple.conseq (Triple.tFail (F := isTPkt q p ∗ keep h) (G := emp) (ψ := RecvLeaks E c (some d) e') .badRxState (by rw [Asrt.star_emp]) junk_emp (fun _ => rfl) (hi.oom hf1)) (fun _ h => h)
                  fun ss f' s _ hs => ⟨p, rPost_of id hs⟩
            | some rx =>
              cases hx : c.rx with
              | none => rw [hx] at e0; cases e0
              | some v =>
                dsimp only
                refine Triple.tail ?_
                sstep hTData_spec hE f1 a q c p v e (hi.oom hf1) hx
                intro ss f2 hf2
                rw [he.2.2.1]
                refine Triple.ret fun y hy => ⟨p, rPost_of (ψ := False) (fun h => h.elim) ?_⟩
                unfold tPost at hy ⊢
                rw [Asrt.ex_star] at hy
                obtain ⟨z, hz⟩ := hy
                refine ⟨z, ?_⟩
                revert hz; revert y; sentail

end Wickr
