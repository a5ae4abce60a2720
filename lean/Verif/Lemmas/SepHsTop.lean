import Verif.Lemmas.SepHsResp
/-
Handshakes in memory: the calls.
-/
namespace Wickr
open Asrt Spec

theorem tpkt_scal_reads (a : Addr) (v : Packet) : Reads (isTPkt a v) (scal (some a)) (.tpkt v.hdr) := by
  refine Reads.owned fun h hx => ?_
  have := has_of hx
  obtain ⟨hd, b, m, n⟩ := v
  sview this isTPkt
  exact scal_view (by assumption)

/-! ### Processing a packet -/

/-- What a call to process a packet leaves: the handshake, the packet, a packet to send, a chain handed to the callback. -/
def isProcessed (a b : Addr) (r : Ptr × Ptr) (z : Handshake × Packet × Option Packet × Option Chain) : Asrt :=
  isHs a z.1 ∗ isTPkt b z.2.1 ∗ optRep isTPkt r.1 z.2.2.1 ∗ optRep isChain r.2 z.2.2.2

/-- transport_handshake.c:711-737. -/
def procEnd (h : Handshake) (q : Option Packet) : Handshake × HsOut :=
  if h.status = .failed then (h, ⟨none, none⟩)
  else if h.status = .pendingVerification then ({ h with pendingPkt := q }, ⟨none, h.remote.bind chainCopy⟩)
  else (h, ⟨q, none⟩)

/-- What the end of the call does. -/
def EndOutcome (v : Handshake) (q : Option Packet) (f : Bool) (w : Handshake) (o : Option Packet) (ask : Option Chain) : Prop :=
  (f = false → procEnd v q = (w, ⟨o, ask⟩)) ∧
  (v.status = .failed ∧ w = v ∧ o = none ∧ ask = none ∨
    v.status = .pendingVerification ∧ w = { v with pendingPkt := q } ∧ o = none ∧ (ask = none → f = true) ∧
      (∀ c, ask = some c → ∃ ch, v.remote = some ch ∧ chainLoss ch c) ∨
    v.status ≠ .failed ∧ v.status ≠ .pendingVerification ∧ w = v ∧ o = q ∧ ask = none)

theorem hProcessEnd_spec (f : Bool) (a b : Addr) (v : Handshake) (p : Packet) (x : Ptr) (q : Option Packet)
    (h1 : v.status = .failed → q = none) (h2 : v.status = .pendingVerification → v.pendingPkt = none ∧ v.remote ≠ none) :
    Triple laxest f (isHs a v ∗ isTPkt b p ∗ optRep isTPkt x q) (hProcessEnd (some a) x)
      (fun r f' => Asrt.ex fun z => ⌜EndOutcome v q f' z.1 z.2.2.1 z.2.2.2 ∧ z.2.1 = p⌝ ∗ isProcessed a b r z) := by
  have fin : ∀ (f : Bool) (A : Asrt) (r : Ptr × Ptr) (w : Handshake) (o : Option Packet) (c : Option Chain),
      (∀ y, A y → (isHs a w ∗ isTPkt b p ∗ optRep isTPkt r.1 o ∗ optRep isChain r.2 c) y) → EndOutcome v q f w o c →
      Triple laxest f A (Pure.pure r) (fun r f' => Asrt.ex fun z => ⌜EndOutcome v q f' z.1 z.2.2.1 z.2.2.2 ∧ z.2.1 = p⌝ ∗ isProcessed a b r z) := by
    intro f A r w o c hA hw
    refine Triple.ret fun z hz => ⟨(w, p, o, c), Asrt.pure_star.2 ⟨⟨hw, rfl⟩, ?_⟩⟩
    exact hA z hz
  unfold hProcessEnd
  sread hs_scal_reads a v
  dsimp only
  have rest : v.status ≠ .failed → v.status ≠ .pendingVerification →
      Triple laxest f (isHs a v ∗ isTPkt b p ∗ optRep isTPkt x q) (Pure.pure (x, none))
        (fun r f' => Asrt.ex fun z => ⌜EndOutcome v q f' z.1 z.2.2.1 z.2.2.2 ∧ z.2.1 = p⌝ ∗ isProcessed a b r z) := by
    intro n1 n2
    refine fin f _ (x, none) v q none (by simp only [optRep_null]; sentail) ⟨fun _ => ?_, Or.inr (Or.inr ⟨n1, n2, rfl, rfl, rfl⟩)⟩
    unfold procEnd
    rw [if_neg n1, if_neg n2]
  cases hs : v.status with
  | failed =>
    dsimp only
    have hq := h1 hs
    subst hq
    cases x with
    | some x => dsimp only [optRep]; sabsurd
    | none =>
      refine fin f _ (none, none) v none none (by simp only [optRep_null]; sentail) ⟨fun _ => ?_, Or.inl ⟨hs, rfl, rfl, rfl⟩⟩
      unfold procEnd
      rw [if_pos hs]
  | pendingVerification =>
    dsimp only
    have h3 := h2 hs
    sstep hs_setPending_spec laxest f a v x q h3.1
    intro _ f1 hf1
    let v1 : Handshake := { v with pendingPkt := q }
    refine Triple.lend0 (P := isHs a v1) (by frame) fun h hh => ?_
    obtain ⟨rm, r1, hrm⟩ := hs_remote_view (has_of hh)
    change HasOpt isChain h rm v.remote at hrm
    sread r1
    cases hr : v.remote with
    | none => exact (h3.2 hr).elim
    | some ch =>
      rw [hr] at hrm
      cases rm with
      | none => exact hrm.elim
      | some rm =>
        sstep hChainCopy_view laxest f1 trivial h rm ch (fun _ _ => trivial) hrm
        intro cp f2 hf2
        refine Triple.giveBack0 hh (by frame) ?_
        cases cp with
        | none =>
          dsimp only [freshL]
          sintro
          rename_i hf
          refine fin f2 _ (none, none) v1 none none (by simp only [optRep_null]; sentail) ⟨fun hn => ?_, Or.inr (Or.inl ⟨hs, rfl, rfl, fun _ => hf, fun c hc => by cases hc⟩)⟩
          rw [hf] at hn; cases hn
        | some cp =>
          dsimp only [freshL]
          sintro
          rename_i c hc
          refine fin f2 _ (none, some cp) v1 none (some c) (by simp only [optRep_null]; dsimp only [optRep]; sentail) ⟨fun hn => ?_, Or.inr (Or.inl ⟨hs, rfl, rfl, fun h => (by cases h), fun c' hc' => ?_⟩)⟩
          · unfold procEnd
            have hb : v.remote.bind chainCopy = some ch := by rw [hr]; exact chainCopy_has hrm
            rw [if_neg (by rw [hs]; decide), if_pos hs, hb, hc.2 hn]
          · cases hc'
            exact ⟨ch, hr, hc.1⟩
  | unknown => exact Triple.conseq (rest (by rw [hs]; decide) (by rw [hs]; decide)) (by sentail) (fun _ _ _ _ h => h)
  | inProgress => exact Triple.conseq (rest (by rw [hs]; decide) (by rw [hs]; decide)) (by sentail) (fun _ _ _ _ h => h)
  | pendingFinalization => exact Triple.conseq (rest (by rw [hs]; decide) (by rw [hs]; decide)) (by sentail) (fun _ _ _ _ h => h)
  | complete => exact Triple.conseq (rest (by rw [hs]; decide) (by rw [hs]; decide)) (by sentail) (fun _ _ _ _ h => h)

theorem hHsProcess_spec (hE : E.Fits) (f : Bool) (a b : Addr) (v : Handshake) (p : Packet) (r : HsRand) (hr : SaneRand r) (hw : HsWf v)
    (hp : ¬ WrongCase v p) :
    Triple laxest f (isHs a v ∗ isTPkt b p) (hHsProcess E (some a) (some b) r)
      (fun q f' => Asrt.ex fun z => ⌜ProcOutcome E v p r f' z.1 z.2.1 z.2.2.1 z.2.2.2⌝ ∗ isProcessed a b q z ∗ junk (f' = true ∨ ProcLeaks E v p r)) := by
  have bad : ∀ (f : Bool), hsProcess E v (some p) r = .ok (hsFail v, ⟨none, none⟩) →
      Triple laxest f (isHs a v ∗ isTPkt b p) (do hHsFail (some a); Pure.pure (none, none))
        (fun q f' => Asrt.ex fun z => ⌜ProcOutcome E v p r f' z.1 z.2.1 z.2.2.1 z.2.2.2⌝ ∗ isProcessed a b q z ∗ junk (f' = true ∨ ProcLeaks E v p r)) := by
    intro f he
    sstep hHsFail_spec laxest f a v
    intro _ f1 hf1
    exact Triple.doneJ (V := Handshake × Packet × Option Packet × Option Chain) (φ := fun _ f' z => ProcOutcome E v p r f' z.1 z.2.1 z.2.2.1 z.2.2.2)
      (ψ := fun _ f' _ => f' = true ∨ ProcLeaks E v p r) (P := fun q z => isProcessed a b q z) (hsFail v, p, none, none)
      (by unfold isProcessed; simp only [optRep_null]; frame) junk_emp ⟨fun _ => he, ⟨rfl, rfl, rfl, rfl⟩, Or.inl rfl, Or.inl ⟨rfl, rfl, rfl⟩⟩
  unfold hHsProcess
  dsimp only
  sread tpkt_scal_reads b p
  dsimp only
  change Triple laxest f _ (if pktVersionByte p ≠ hsVersion then _ else _) _
  by_cases hv : pktVersionByte p ≠ hsVersion
  · rw [if_pos hv]
    refine Triple.conseq (bad f ?_) (by sentail) (fun _ _ _ _ h => h)
    unfold hsProcess
    dsimp only
    rw [if_pos hv]
  · rw [if_neg hv]
    sread hs_scal_reads a v
    dsimp only
    have hval : hsProcess E v (some p) r = (match v.status with
        | .unknown => hsProcessInitial E v p r
        | .inProgress => (hsProcessResponse E v p).bind fun h => .ok (h, none)
        | _ => .ok (hsFail v, none)).bind fun (h, q) => .ok (procEnd h q) := by
      unfold hsProcess
      dsimp only
      rw [if_neg hv]
      congr 1
      funext x
      obtain ⟨h, q⟩ := x
      unfold procEnd
      dsimp only
      split
      · rfl
      · split <;> rfl
    have other : v.status ≠ .unknown → v.status ≠ .inProgress → Triple laxest f (isHs a v ∗ isTPkt b p) (do hHsFail (some a); Pure.pure (none, none))
        (fun q f' => Asrt.ex fun z => ⌜ProcOutcome E v p r f' z.1 z.2.1 z.2.2.1 z.2.2.2⌝ ∗ isProcessed a b q z ∗ junk (f' = true ∨ ProcLeaks E v p r)) := by
      intro n1 n2
      refine bad f ?_
      rw [hval]
      cases hs : v.status with
      | unknown => exact (n1 hs).elim
      | inProgress => exact (n2 hs).elim
      | _ => rfl
    cases hs : v.status with
    | unknown =>
      dsimp only
      rw [hs] at hval
      have hwk := hw.2 (Or.inl hs)
      sstep hProcessInitial_spec hE f a b v p r hr hs hwk.1 (fun m hm => hp (Or.inl ⟨hs, m, hm⟩))
      intro q f1 hf1
      sintro
      rename_i z hz
      obtain ⟨v1, p', o⟩ := z
      obtain ⟨z1, z2, z3, z4, z5⟩ := hz
      dsimp only at z1 z2 z3 z4 z5
      have hacc : v1.status ≠ .failed → ∃ o', o = some o' ∧ ∃ s, handshakeFromPacket p = some (.seed s) ∧ Accepted E v p s.idChain f1 v1 p' ∧
          v1.rootKey = some ⟨r.secret, defaultCipher, v.evo, v.evo⟩ ∧ ∃ eph enc m, SentBy E v.self (.response ⟨some eph, some enc, m⟩) r.nonce f1 o' := by
        intro hn
        cases ho : o with
        | none => exact (hn (z4 ho)).elim
        | some o' => exact ⟨o', rfl, z5 o' ho⟩
      unfold isAnswered
      refine Triple.tail ?_
      sstep hProcessEnd_spec f1 a b v1 p' q o ?_ ?_
      · intro hf
        cases ho : o with
        | none => rfl
        | some o' =>
          obtain ⟨s, -, ⟨ch, ch', h1, -⟩, -⟩ := z5 o' ho
          rcases h1 with h1 | h1
          · rw [h1.2] at hf; cases hf
          · rw [h1.2.2] at hf; cases hf
      · intro hf
        obtain ⟨o', -, s, -, ⟨ch, ch', -, h2, -⟩, -⟩ := hacc (by rw [hf]; decide)
        exact ⟨z2.2.2.2.2.trans hwk.2, by rw [h2]; simp⟩
      intro u f2 hf2
      sintro
      rename_i z hz
      obtain ⟨w, p'', o2, ask⟩ := z
      obtain ⟨⟨y1, y2⟩, y3⟩ := hz
      dsimp only at y1 y2 y3
      subst y3
      refine Triple.doneJ (V := Handshake × Packet × Option Packet × Option Chain) (φ := fun _ f' z => ProcOutcome E v p r f' z.1 z.2.1 z.2.2.1 z.2.2.2)
        (ψ := fun _ f' _ => f' = true ∨ ProcLeaks E v p r) (P := fun q z => isProcessed a b q z) (w, p'', o2, ask) (by frame)
        (junk_mono (Or.imp hf2 fun h => Or.inl ⟨hs, h⟩)) ⟨fun hn => ?_, ?_, z3, ?_⟩
      · rw [hval]
        dsimp only
        rw [z1 (oom_back hf2 hn)]
        show Res.ok (procEnd v1 o) = _
        rw [y1 hn]
      · rcases y2 with h | h | h
        · rw [h.2.1]; exact ⟨z2.1, z2.2.1, z2.2.2.1, z2.2.2.2.1⟩
        · rw [h.2.1]; exact ⟨z2.1, z2.2.1, z2.2.2.1, z2.2.2.2.1⟩
        · rw [h.2.2.1]; exact ⟨z2.1, z2.2.1, z2.2.2.1, z2.2.2.2.1⟩
      · have hpres : ∀ s, handshakeFromPacket p = some (.seed s) → presented v p = s.idChain := by
          intro s h
          unfold presented
          rw [hs, h]
        rcases y2 with h | h | h
        · exact Or.inl ⟨by rw [h.2.1]; exact h.1, h.2.2.1, h.2.2.2⟩
        · obtain ⟨o', ho, s, hm, ⟨ch, ch', a1, a2, a3⟩, hk, hsent⟩ := hacc (by rw [h.1]; decide)
          obtain ⟨b1, b2, b3, b4, b5⟩ := h
          refine Or.inr ⟨Or.inl hs, ⟨ch, ch', ?_, by rw [b2]; exact a2, a3.mono hf2⟩, by rw [b2, hk]; rfl, fun _ => ⟨b3, b4, fun c hc => ?_⟩, fun hf => ?_, fun o3 ho3 => ⟨hs, ?_⟩⟩
          · rw [hpres s hm, b2]
            exact a1
          · obtain ⟨ch2, c1, c2⟩ := b5 c hc
            exact ⟨ch2, by rw [b2]; exact c1, c2⟩
          · rw [b2] at hf
            dsimp only at hf
            rw [b1] at hf; cases hf
          · obtain ⟨eph, enc, m, hsb⟩ := hsent
            rw [b3, b2, ho] at ho3
            rcases ho3 with h | h
            · cases h
            · cases h
              exact ⟨eph, enc, m, hsb.mono hf2⟩
        · obtain ⟨b1, b2, b3, b4, b5⟩ := h
          obtain ⟨o', ho, s, hm, ⟨ch, ch', a1, a2, a3⟩, hk, hsent⟩ := hacc b1
          refine Or.inr ⟨Or.inl hs, ⟨ch, ch', ?_, by rw [b3]; exact a2, a3.mono hf2⟩, by rw [b3, hk]; rfl, fun hf => ?_, fun hf => ⟨b5, ?_⟩, fun o3 ho3 => ⟨hs, ?_⟩⟩
          · rw [hpres s hm, b3]
            exact a1
          · rw [b3] at hf; exact (b2 hf).elim
          · rw [b3]; exact z2.2.2.2.2.trans hwk.2
          · obtain ⟨eph, enc, m, hsb⟩ := hsent
            rw [b3, b4, ho, z2.2.2.2.2, hwk.2] at ho3
            rcases ho3 with h | h
            · cases h
              exact ⟨eph, enc, m, hsb.mono hf2⟩
            · cases h
    | inProgress =>
      dsimp only
      rw [hs] at hval
      have hwk := hw.2 (Or.inr hs)
      sstep hProcessResponse_spec hE f a b v p hs hwk.1 (fun m hm => hp (Or.inr ⟨hs, m, hm⟩))
      intro _ f1 hf1
      sintro
      rename_i z hz
      obtain ⟨v1, p'⟩ := z
      obtain ⟨z1, z2, z3, z4⟩ := hz
      dsimp only at z1 z2 z3 z4
      unfold isSeen
      refine Triple.tail ?_
      have h0 := hProcessEnd_spec f1 a b v1 p' none none (fun _ => rfl) (by
        intro hf
        obtain ⟨s, -, ⟨ch, ch', -, h2, -⟩, -⟩ := z4.resolve_left (by rw [hf]; decide)
        exact ⟨z2.2.2.2.2.trans hwk.2, by rw [h2]; simp⟩)
      rw [optRep_null, Asrt.star_emp] at h0
      sstep h0
      intro u f2 hf2
      sintro
      rename_i z hz
      obtain ⟨w, p'', o2, ask⟩ := z
      obtain ⟨⟨y1, y2⟩, y3⟩ := hz
      dsimp only at y1 y2 y3
      subst y3
      have hnp := z2.2.2.2.2.trans hwk.2
      refine Triple.doneJ (V := Handshake × Packet × Option Packet × Option Chain) (φ := fun _ f' z => ProcOutcome E v p r f' z.1 z.2.1 z.2.2.1 z.2.2.2)
        (ψ := fun _ f' _ => f' = true ∨ ProcLeaks E v p r) (P := fun q z => isProcessed a b q z) (w, p'', o2, ask) (by frame)
        (junk_mono (Or.imp hf2 fun h => Or.inr ⟨hs, h⟩)) ⟨fun hn => ?_, ?_, z3, ?_⟩
      · rw [hval]
        dsimp only
        rw [z1 (oom_back hf2 hn)]
        show Res.ok (procEnd v1 none) = _
        rw [y1 hn]
      · rcases y2 with h | h | h
        · rw [h.2.1]; exact ⟨z2.1, z2.2.1, z2.2.2.1, z2.2.2.2.1⟩
        · rw [h.2.1]; exact ⟨z2.1, z2.2.1, z2.2.2.1, z2.2.2.2.1⟩
        · rw [h.2.2.1]; exact ⟨z2.1, z2.2.1, z2.2.2.1, z2.2.2.2.1⟩
      · have hpres : ∀ s, handshakeFromPacket p = some (.response s) → presented v p = s.idChain := by
          intro s h
          unfold presented
          rw [hs, h]
        rcases y2 with h | h | h
        · exact Or.inl ⟨by rw [h.2.1]; exact h.1, h.2.2.1, h.2.2.2⟩
        · obtain ⟨s, hm, ⟨ch, ch', a1, a2, a3⟩, hk⟩ := z4.resolve_left (by rw [h.1]; decide)
          obtain ⟨b1, b2, b3, b4, b5⟩ := h
          refine Or.inr ⟨Or.inr hs, ⟨ch, ch', ?_, by rw [b2]; exact a2, a3.mono hf2⟩, by rw [b2]; exact hk, fun _ => ⟨b3, b4, fun c hc => ?_⟩, fun hf => ?_, fun o3 ho3 => ?_⟩
          · rw [hpres s hm, b2]
            exact a1
          · obtain ⟨ch2, c1, c2⟩ := b5 c hc
            exact ⟨ch2, by rw [b2]; exact c1, c2⟩
          · rw [b2] at hf
            dsimp only at hf
            rw [b1] at hf; cases hf
          · rw [b3, b2] at ho3
            rcases ho3 with h | h <;> cases h
        · obtain ⟨b1, b2, b3, b4, b5⟩ := h
          obtain ⟨s, hm, ⟨ch, ch', a1, a2, a3⟩, hk⟩ := z4.resolve_left b1
          refine Or.inr ⟨Or.inr hs, ⟨ch, ch', ?_, by rw [b3]; exact a2, a3.mono hf2⟩, by rw [b3]; exact hk, fun hf => ?_, fun hf => ⟨b5, ?_⟩, fun o3 ho3 => ?_⟩
          · rw [hpres s hm, b3]
            exact a1
          · rw [b3] at hf; exact (b2 hf).elim
          · rw [b3]; exact hnp
          · rw [b3, b4, hnp] at ho3
            rcases ho3 with h | h <;> cases h
    | failed => exact Triple.conseq (other (by rw [hs]; decide) (by rw [hs]; decide)) (by sentail) (fun _ _ _ _ h => h)
    | pendingVerification => exact Triple.conseq (other (by rw [hs]; decide) (by rw [hs]; decide)) (by sentail) (fun _ _ _ _ h => h)
    | pendingFinalization => exact Triple.conseq (other (by rw [hs]; decide) (by rw [hs]; decide)) (by sentail) (fun _ _ _ _ h => h)
    | complete => exact Triple.conseq (other (by rw [hs]; decide) (by rw [hs]; decide)) (by sentail) (fun _ _ _ _ h => h)

end Wickr
