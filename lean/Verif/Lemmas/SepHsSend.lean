import Verif.Lemmas.SepHsKey
/-
Handshakes in memory: sending.
-/
namespace Wickr
open Asrt Spec

theorem SignOutcome.mono {E : Engine} {p p' : Packet} {ch : Chain} {nonce : Bytes} {ok f f' : Bool} (h : SignOutcome E p ch nonce ok f p')
    (hf : f = true → f' = true) : SignOutcome E p ch nonce ok f' p' := by
  obtain ⟨h1, h2, h3⟩ := h
  refine ⟨fun ho => ?_, h2, fun hn => h3 (oom_back hf hn)⟩
  obtain ⟨d, s, w, sb, net, a1, a2, a3, a4, a5⟩ := h1 ho
  exact ⟨d, s, w, sb, net, a1, a2, a3, a4.imp_right fun h => ⟨hf h.1, h.2⟩, a5⟩

theorem CheckOutcome.mono {E : Engine} {p p' : Packet} {ch ch' : Chain} {ok f f' : Bool} (h : CheckOutcome E p ch ok f p' ch')
    (hf : f = true → f' = true) : CheckOutcome E p ch ok f' p' ch' :=
  ⟨h.1, h.2.1, h.2.2.1, fun hn => h.2.2.2 (oom_back hf hn)⟩

theorem IdOutcome.mono {E : Engine} {v w : Handshake} {p p' : Packet} {m : Option PChain} {ok f f' : Bool} (h : IdOutcome E v p m ok f w p')
    (hf : f = true → f' = true) : IdOutcome E v p m ok f' w p' := by
  rcases h with ⟨ch, ch', a, b, c⟩ | ⟨a, b, c, d, e⟩ | ⟨ch, ch', a, b, c, d⟩
  · exact Or.inl ⟨ch, ch', a, b, c.mono hf⟩
  · exact Or.inr (Or.inl ⟨a, b, c, d, e.imp_left hf⟩)
  · exact Or.inr (Or.inr ⟨ch, ch', a, b, c, d.mono hf⟩)

theorem Recorded.mono {v w : Handshake} {s : Bool} {n : Option Bytes} {f f' : Bool} (h : Recorded v s n f w) (hf : f = true → f' = true) :
    Recorded v s n f' w := h.imp_right fun h => ⟨hf h.1, h.2⟩

theorem SentBy.mono {E : Engine} {self : Chain} {m : PHandshake} {nonce : Bytes} {f f' : Bool} {p : Packet} (h : SentBy E self m nonce f p)
    (hf : f = true → f' = true) : SentBy E self m nonce f' p := by
  obtain ⟨p0, a, b⟩ := h
  exact ⟨p0, a, b.mono hf⟩

/-- What sending a message does. -/
def BuildOutcome (E : Engine) (v : Handshake) (m : PHandshake) (nonce : Bytes) (second f : Bool) (w : Handshake) (q : Option Packet) : Prop :=
  (q = none → w = hsFail v) ∧ (∀ p, q = some p → SentBy E v.self m nonce f p ∧ Recorded v second p.network f w) ∧
    (f = false → hsBuildSigned E v m nonce second = (w, q))

theorem BuildOutcome.mono {E : Engine} {v w : Handshake} {m : PHandshake} {nonce : Bytes} {second f f' : Bool} {q : Option Packet}
    (h : BuildOutcome E v m nonce second f w q) (hf : f = true → f' = true) : BuildOutcome E v m nonce second f' w q :=
  ⟨h.1, fun p hp => ⟨(h.2.1 p hp).1.mono hf, (h.2.1 p hp).2.mono hf⟩, fun hn => h.2.2 (oom_back hf hn)⟩

/-- What a handshake and a packet look like after a call. -/
def isSent (a : Addr) (r : Ptr) (x : Handshake × Option Packet) : Asrt := isHs a x.1 ∗ optRep isTPkt r x.2

theorem hBuildSigned_spec (hE : E.Fits) (f : Bool) (h : Heap) (S : Asrt) (a : Addr) (v : Handshake) (read : H PHandshake) (m : PHandshake)
    (nonce : Bytes) (second : Bool) (hh : isHs a v h) (hr : Reads (S ∗ keep h) read m) :
    Triple laxest f (keep h ∗ S) (hBuildSigned E (some a) read nonce (if second then 1 else 0))
      (fun r f' => Asrt.ex fun x => ⌜BuildOutcome E v m nonce second f' x.1 x.2⌝ ∗ (isSent a r x ∗ S) ∗ junk (f' = true ∨ SignRefused E v.self m nonce)) := by
  unfold hBuildSigned
  refine Triple.onNullG (hToPacket_spec f (S ∗ keep h) read m hr) (F := emp) (by frame) ?_ ?_
  · intro f1 _ hf
    refine Triple.giveBack0 hh (by frame) ?_
    sstep hHsFail_spec laxest f1 a v
    intro _ f2 hf2
    refine Triple.doneJ (V := Handshake × Option Packet) (φ := fun _ f' x => BuildOutcome E v m nonce second f' x.1 x.2) (ψ := fun _ f' _ => f' = true ∨ SignRefused E v.self m nonce)
      (P := fun r x => isSent a r x ∗ S) (hsFail v, none) (by unfold isSent; simp only [optRep_null]; frame) junk_emp ⟨fun _ => rfl, fun p hp => (by cases hp), fun hn => ?_⟩
    rcases hf with hf | hf
    · rw [hf2 hf] at hn; cases hn
    · unfold hsBuildSigned; rw [hf]
  · intro x f1 p hf1 hp
    obtain ⟨s, r1, hs⟩ := hs_self_view (has_of hh)
    sread r1
    have hpe : p.mac = none ∧ p.network = none := by
      unfold handshakeToPacket at hp
      obtain ⟨b, -, rfl⟩ := Option.map_eq_some_iff.1 hp
      exact ⟨rfl, rfl⟩
    sstep hTPktSign_view hE laxest f1 trivial h x s p v.self nonce hpe.1 hpe.2 trivial (fun _ _ => ⟨trivial, fun _ _ => trivial⟩) hs
    intro ok f2 hf2
    sintro
    rename_i p' hp'
    refine Triple.giveBack0 hh (by frame) ?_
    cases ok with
    | false =>
      simp only [Bool.false_eq_true, ↓reduceIte]
      sstep hHsFail_spec laxest f2 a v
      intro _ f3 hf3
      refine Triple.doneJ (V := Handshake × Option Packet) (φ := fun _ f' x => BuildOutcome E v m nonce second f' x.1 x.2) (ψ := fun _ f' _ => f' = true ∨ SignRefused E v.self m nonce)
        (P := fun r x => isSent a r x ∗ S) (hsFail v, none) (by unfold isSent; simp only [optRep_null]; frame) (le_junk ?_)
        ⟨fun _ => rfl, fun p hp => (by cases hp), fun hn => ?_⟩
      · cases f2 with
        | true => exact Or.inl (hf3 rfl)
        | false => exact Or.inr ⟨p, hp, by rw [← hp'.2.2 rfl]⟩
      · unfold hsBuildSigned
        rw [hp]
        dsimp only
        rw [← hp'.2.2 (oom_back hf3 hn)]
    | true =>
      simp only [↓reduceIte]
      refine Triple.lend0 (P := isTPkt x p') (by frame) fun h1 hh1 => ?_
      sstep hHsRecord_spec f2 h1 a x v p' second (has_of hh1)
      intro _ f3 hf3
      sintro
      rename_i w hw
      refine Triple.giveBack0 hh1 (by frame) ?_
      refine Triple.doneJ (V := Handshake × Option Packet) (φ := fun _ f' x => BuildOutcome E v m nonce second f' x.1 x.2) (ψ := fun _ f' _ => f' = true ∨ SignRefused E v.self m nonce)
        (P := fun r x => isSent a r x ∗ S) (w, some p') (by unfold isSent; dsimp only [optRep]; frame) junk_emp
        ⟨fun h => (by cases h), fun q hq => ?_, fun hn => ?_⟩
      · cases hq
        exact ⟨⟨p, hp, hp'.mono hf3⟩, hw⟩
      · unfold hsBuildSigned
        rw [hp]
        dsimp only
        rw [← hp'.2.2 (oom_back hf3 hn)]
        rcases hw with hw | ⟨hf, -⟩
        · rw [hw]
        · rw [hn] at hf; cases hf

theorem hsFail_fail (v : Handshake) : hsFail (hsFail v) = hsFail v := rfl

theorem Reads.frame {P P' F : Asrt} {m : H α} {v : α} (hm : Reads P m v) (hA : P' = P ∗ F) : Reads P' m v :=
  fun c f => Triple.tail (Triple.read hm hA (Reads.ret v c f))

theorem isSent_null (a : Addr) (v : Handshake) (q : Option Packet) : isSent a none (v, q) = ⌜q = none⌝ ∗ isHs a v := by
  unfold isSent
  cases q with
  | none =>
    rw [show optRep isTPkt none none = emp from rfl, Asrt.star_comm]
    funext h
    exact propext ⟨fun hh => Asrt.pure_star.2 ⟨rfl, by rw [Asrt.emp_star] at hh; exact hh⟩, fun hh => by rw [Asrt.emp_star]; exact (Asrt.pure_star.1 hh).2⟩
  | some q =>
    funext h
    refine propext ⟨fun hh => ?_, fun hh => ?_⟩
    · rw [Asrt.star_comm] at hh
      exact (Asrt.pure_star.1 hh).1.elim
    · have := (Asrt.pure_star.1 hh).1
      cases this

theorem isSent_some (a x : Addr) (v : Handshake) (q : Option Packet) : isSent a (some x) (v, q) = Asrt.ex fun p => ⌜q = some p⌝ ∗ isHs a v ∗ isTPkt x p := by
  unfold isSent
  cases q with
  | none =>
    funext h
    refine propext ⟨fun hh => ?_, fun ⟨p, hh⟩ => ?_⟩
    · rw [Asrt.star_comm] at hh
      exact (Asrt.pure_star.1 hh).1.elim
    · have := (Asrt.pure_star.1 hh).1
      cases this
  | some q =>
    funext h
    refine propext ⟨fun hh => ⟨q, Asrt.pure_star.2 ⟨rfl, hh⟩⟩, fun ⟨p, hh⟩ => ?_⟩
    obtain ⟨he, hh⟩ := Asrt.pure_star.1 hh
    cases he
    exact hh

theorem hHsSendSeed_spec (hE : E.Fits) (f : Bool) (a x : Addr) (v : Handshake) (m : PChain) (eph : Bytes) (needs : Bool) (nonce : Bytes)
    (hw : chainWrites v.self false m) :
    Triple laxest f (isHs a v ∗ isSeed x m eph) (hHsSendSeed E (some a) (some x) needs nonce)
      (fun r f' => Asrt.ex fun z => ⌜BuildOutcome E v (.seed ⟨some m, some eph, some needs⟩) nonce false f' z.1 z.2⌝ ∗ isSent a r z ∗
        junk (f' = true ∨ SignRefused E v.self (.seed ⟨some m, some eph, some needs⟩) nonce)) := by
  unfold hHsSendSeed
  refine Triple.onNullK (hWrap_spec (isSeed x m eph) laxest f x) (by frame) ?_ ?_
  · intro f1 _ hf
    sstep hSeedFree_spec f1 x v.self m eph hw
    intro _ f2 hf2
    sstep hHsFail_spec laxest f2 a v
    intro _ f3 hf3
    have ht := hf3 (hf2 hf)
    exact Triple.doneJ (V := Handshake × Option Packet) (φ := fun _ f' z => BuildOutcome E v _ nonce false f' z.1 z.2) (ψ := fun _ f' _ => f' = true ∨ SignRefused E v.self _ nonce)
      (P := fun r z => isSent a r z) (hsFail v, none) (by unfold isSent; simp only [optRep_null]; frame) junk_emp
      ⟨fun _ => rfl, fun p hp => (by cases hp), fun hn => by rw [ht] at hn; cases hn⟩
  · intro y f1 hf1
    refine Triple.lend0 (P := isHs a v) (by frame) fun h hh => ?_
    obtain ⟨s, r1, hs⟩ := hs_self_view (has_of hh)
    sread r1
    have hrd : Reads ((isWrap x y ∗ isSeed x m eph) ∗ keep h) (do let t ← field (some y) 0; hSeedRead (some s) t needs) (.seed ⟨some m, some eph, some needs⟩) :=
      Reads.bind (wrap_field x y) (by frame) (Reads.frame (hSeedRead_view hs hw) (by frame))
    sstep hBuildSigned_spec hE f1 h (isWrap x y ∗ isSeed x m eph) a v _ _ nonce false hh hrd
    intro q f2 hf2
    sintro
    rename_i z hz
    sstep hUnwrap_spec f2 x y (fun f => hSeedFree_spec f x v.self m eph hw)
    intro _ f3 hf3
    obtain ⟨w, o⟩ := z
    cases q with
    | none =>
      rw [isSent_null]
      sintro
      rename_i ho
      cases ho
      show Triple laxest f3 _ (do hHsFail (some a); Pure.pure none) _
      sstep hHsFail_spec laxest f3 a w
      intro _ f4 hf4
      have hwf := hz.1 rfl
      dsimp only at hwf
      subst hwf
      exact Triple.doneJ (V := Handshake × Option Packet) (φ := fun _ f' z => BuildOutcome E v _ nonce false f' z.1 z.2) (ψ := fun _ f' _ => f' = true ∨ SignRefused E v.self _ nonce)
        (P := fun r z => isSent a r z) (hsFail v, none) (by rw [hsFail_fail]; unfold isSent; simp only [optRep_null]; frame)
        (junk_mono (oom_or fun h => hf4 (hf3 h))) (hz.mono fun h => hf4 (hf3 h))
    | some q =>
      rw [isSent_some]
      sintro
      rename_i p ho
      cases ho
      exact Triple.doneJ (V := Handshake × Option Packet) (φ := fun _ f' z => BuildOutcome E v _ nonce false f' z.1 z.2) (ψ := fun _ f' _ => f' = true ∨ SignRefused E v.self _ nonce)
        (P := fun r z => isSent a r z) (w, some p) (by unfold isSent; dsimp only [optRep]; frame)
        (junk_mono (oom_or hf3)) (hz.mono hf3)

/-! ### Starting -/

theorem hHsStart_spec (hE : E.Fits) (f : Bool) (a : Addr) (v : Handshake) (r : HsRand) (d : Bytes) (hd : r.eph.pri = some d)
    (h1 : ValidBuf r.eph.pub) (h2 : ValidBuf d) (hn : v.status = .unknown → v.eph = none) :
    Triple laxest f (isHs a v) (hHsStart E (some a) r)
      (fun q f' => Asrt.ex fun z => ⌜StartOutcome E v r f' z.1 z.2⌝ ∗ isSent a q z ∗ junk (f' = true ∨ StartLeaks E v r)) := by
  have fin : ∀ (f : Bool) (A G : Asrt) (w : Handshake), A = isHs a w ∗ G → StartOutcome E v r f w none → Asrt.le G (junk (f = true ∨ StartLeaks E v r)) →
      Triple laxest f A (Pure.pure none) (fun q f' => Asrt.ex fun z => ⌜StartOutcome E v r f' z.1 z.2⌝ ∗ isSent a q z ∗ junk (f' = true ∨ StartLeaks E v r)) := by
    intro f A G w hA hw hG
    exact Triple.doneJ (V := Handshake × Option Packet) (φ := fun _ f' z => StartOutcome E v r f' z.1 z.2) (ψ := fun _ f' _ => f' = true ∨ StartLeaks E v r)
      (P := fun r z => isSent a r z) (w, none) (by rw [hA]; unfold isSent; simp only [optRep_null, Asrt.star_emp]) hG hw
  unfold hHsStart
  dsimp only
  sread hs_scal_reads a v
  dsimp only
  by_cases hs : v.status = .unknown
  · rw [if_neg (fun h => h hs)]
    sstep hs_setScal_spec laxest f a v .inProgress true
    intro _ f1 hf1
    sstep hRandKey_spec laxest f1 trivial r.eph.curve r.eph.pub (optBytes r.eph.pri) h1 (by rw [hd]; exact h2)
    intro k f2 hf2
    have hst : hsStart E v r = (let h : Handshake := { v with isInitiator := true, status := .inProgress, eph := some r.eph }
        match seedCreate h.self r.eph.pub h.remote.isNone with
        | none => (hsFail h, none)
        | some seed => hsBuildSigned E h (.seed seed) r.nonce false) := by
      unfold hsStart
      rw [if_neg (fun h => h hs)]
      rfl
    cases k with
    | none =>
      dsimp only [fresh]
      sintro
      rename_i hf
      have h0 := hs_setEph_spec laxest f2 a { v with status := .inProgress, isInitiator := true } none none (hn hs)
      rw [optRep_null, Asrt.star_emp] at h0
      sstep h0
      intro _ f3 hf3
      sstep hHsFail_spec laxest f3 a _
      intro _ f4 hf4
      refine fin f4 _ emp (hsFail { v with status := .inProgress, isInitiator := true, eph := none }) (by frame) ⟨fun hn => ?_, ⟨rfl, rfl, rfl, rfl, rfl, rfl⟩, fun _ => rfl, fun p hp => by cases hp⟩ junk_emp
      rw [hf4 (hf3 hf)] at hn; cases hn
    | some k =>
      dsimp only [fresh]
      have hke : (⟨r.eph.curve, r.eph.pub, some (optBytes r.eph.pri)⟩ : EcKey) = r.eph := by
        cases hr : r.eph with | mk c p q => rw [hr] at hd; cases hd; rfl
      rw [hke]
      have h0 := hs_setEph_spec laxest f2 a { v with status := .inProgress, isInitiator := true } (some k) (some r.eph) (hn hs)
      dsimp only [optRep] at h0
      sstep h0
      intro _ f3 hf3
      let v1 : Handshake := { v with isInitiator := true, status := .inProgress, eph := some r.eph }
      refine Triple.lend0 (P := isHs a v1) (by frame) fun h hh => ?_
      obtain ⟨rm, r1, hrm⟩ := hs_remote_view (has_of hh)
      obtain ⟨s, r2, hs'⟩ := hs_self_view (has_of hh)
      obtain ⟨e, r3, he⟩ := hs_eph_view (has_of hh)
      have hrn : rm.isNone = v.remote.isNone := by
        change HasOpt isChain h rm v.remote at hrm
        cases rm with
        | none => cases hv : v.remote with | none => rfl | some c => rw [hv] at hrm; exact hrm.elim
        | some c => cases hv : v.remote with | none => rw [hv] at hrm; exact hrm.elim | some c => rfl
      sread r1
      sread r2
      sread r3
      cases e with
      | none => exact he.elim
      | some e =>
      obtain ⟨pb, r4, hpb⟩ := key_pub_view he
      sread r4
      rw [hrn]
      unfold onNull
      sstep hSeedCreate_view f3 h s pb v1.self r.eph.pub hs' hpb
      intro sd f4 hf4
      refine Triple.giveBack0 hh (by frame) ?_
      cases sd with
      | none =>
        dsimp only [seeded]
        sintro
        rename_i hf
        sstep hHsFail_spec laxest f4 a v1
        intro _ f5 hf5
        refine fin f5 _ Asrt.any (hsFail v1) (by frame) ⟨fun hn => ?_, ⟨rfl, rfl, rfl, rfl, rfl, rfl⟩, fun _ => rfl, fun p hp => by cases hp⟩
          (le_junk (hf.imp hf5 fun h => ⟨hs, Or.inl h⟩))
        rcases hf with hf | hf
        · rw [hf5 hf] at hn; cases hn
        · rw [hst]
          dsimp only
          unfold seedCreate
          rw [show chainBuildProto v.self false = none from hf]
          rfl
      | some sd =>
        dsimp only [seeded]
        sintro
        rename_i m hm
        refine Triple.tail ?_
        sstep hHsSendSeed_spec hE f4 a sd v1 m r.eph.pub v.remote.isNone r.nonce hm.1
        intro q f5 hf5
        sintro
        rename_i z hz
        obtain ⟨w, o⟩ := z
        refine Triple.doneJ (V := Handshake × Option Packet) (φ := fun _ f' z => StartOutcome E v r f' z.1 z.2) (ψ := fun _ f' _ => f' = true ∨ StartLeaks E v r)
          (P := fun r z => isSent a r z) (w, o) (by frame) (junk_mono ?_) ?_
        · rintro (h | h)
          · exact Or.inl h
          · cases f4 with
            | true => exact Or.inl (hf5 rfl)
            | false => exact Or.inr ⟨hs, Or.inr ⟨m, hm.2 rfl, h⟩⟩
        · obtain ⟨z1, z2, z3⟩ := hz
          dsimp only at z1 z2 z3
          have hsame : (w.self = v.self ∧ w.remote = v.remote ∧ w.evo = v.evo ∧ w.rootKey = v.rootKey ∧ w.pendingPkt = v.pendingPkt ∧ w.pkt1 = v.pkt1) := by
            cases o with
            | none => rw [z1 rfl]; exact ⟨rfl, rfl, rfl, rfl, rfl, rfl⟩
            | some p =>
              rcases (z2 p rfl).2 with h | ⟨-, h⟩ <;> rw [h] <;> exact ⟨rfl, rfl, rfl, rfl, rfl, rfl⟩
          refine ⟨fun hn => ?_, hsame, fun ho => by rw [z1 ho]; rfl, fun p hp => ?_⟩
          · rw [hst, ← z3 hn]
            dsimp only
            unfold seedCreate
            rw [show chainBuildProto v.self false = some m from hm.2 (oom_back hf5 hn)]
            rfl
          · obtain ⟨y1, y2⟩ := z2 p hp
            refine ⟨hs, ?_, ?_, ?_, ?_, m, hm.1, y1⟩
            · rcases y2 with h | ⟨-, h⟩ <;> rw [h] <;> rfl
            · rcases y2 with h | ⟨-, h⟩ <;> rw [h] <;> rfl
            · rcases y2 with h | ⟨-, h⟩ <;> rw [h] <;> rfl
            · rcases y2 with h | ⟨hf, h⟩
              · exact Or.inl (by rw [h]; rfl)
              · exact Or.inr ⟨hf, by rw [h]⟩
  · rw [if_pos hs]
    sstep hHsFail_spec laxest f a v
    intro _ f1 hf1
    refine fin f1 _ emp (hsFail v) (by frame) ⟨fun hn => ?_, ⟨rfl, rfl, rfl, rfl, rfl, rfl⟩, fun _ => rfl, fun p hp => by cases hp⟩ junk_emp
    unfold hsStart
    rw [if_pos hs]

end Wickr
