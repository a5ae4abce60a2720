import Verif.Lemmas.SepHsProc
/-
Handshakes in memory: the response.
-/
namespace Wickr
open Asrt Spec

/-- transport_handshake.c:493-503. -/
def respKept (h : Handshake) (rk : RootKey) : Handshake :=
  { h with rootKey := some rk, status := if h.status = .inProgress then .pendingFinalization else h.status }

theorem hRespDone_spec (f : Bool) (a : Addr) (v : Handshake) (p : Ptr) (k : Option RootKey) (hk : v.rootKey = none) :
    Triple laxest f (isHs a v ∗ optRep isTRoot p k) (hRespDone (some a) p)
      (fun _ _ => isHs a (match k with | none => hsFail v | some k => respKept v k)) := by
  unfold hRespDone
  cases p with
  | none =>
    cases k with
    | some k => dsimp only [optRep]; sabsurd
    | none =>
      rw [optRep_null, Asrt.star_emp]
      exact hHsFail_spec laxest f a v
  | some p =>
    cases k with
    | none => dsimp only [optRep]; sabsurd
    | some k =>
      have h0 := hs_setRoot_spec laxest f a v (some p) (some k) hk
      sstep h0
      intro _ f1 hf1
      sread hs_scal_reads a _
      dsimp only
      by_cases hs : v.status = .inProgress
      · rw [if_pos hs]
        refine Triple.tail ?_
        sstep hHsStatus_spec laxest f1 a _ .pendingFinalization
        intro _ f2 hf2
        refine Triple.ret ?_
        unfold respKept
        rw [if_pos hs]
        sentail
      · rw [if_neg hs]
        refine Triple.ret ?_
        unfold respKept
        rw [if_neg hs]
        sentail

/-- What a response does. -/
def RespOutcome (E : Engine) (v : Handshake) (p : Packet) (f : Bool) (w : Handshake) (p' : Packet) : Prop :=
  (f = false → hsProcessResponse E v p = .ok w) ∧
  (w.self = v.self ∧ w.evo = v.evo ∧ w.isInitiator = v.isInitiator ∧ w.eph = v.eph ∧ w.pendingPkt = v.pendingPkt) ∧ PktSeen p p' ∧
  (w.status = .failed ∨ ∃ r, handshakeFromPacket p = some (.response r) ∧ Accepted E v p r.idChain f w p' ∧ w.rootKey.isSome = true)

/-- A handshake and the packet it was given after a call. -/
def isSeen (a b : Addr) (x : Handshake × Packet) : Asrt := isHs a x.1 ∗ isTPkt b x.2

theorem hProcessResponse_spec (hE : E.Fits) (f : Bool) (a b : Addr) (v : Handshake) (p : Packet)
    (hst : v.status = .inProgress) (hk : v.rootKey = none) (hp : ∀ m, handshakeFromPacket p ≠ some (.seed m)) :
    Triple laxest f (isHs a v ∗ isTPkt b p) (hProcessResponse E (some a) (some b))
      (fun _ f' => Asrt.ex fun z => ⌜RespOutcome E v p f' z.1 z.2⌝ ∗ isSeen a b z ∗ junk (f' = true ∨ RespLeaks E v p)) := by
  have fin : ∀ (f : Bool) (A G : Asrt) (w : Handshake) (p' : Packet), A = (isHs a w ∗ isTPkt b p') ∗ G → RespOutcome E v p f w p' →
      Asrt.le G (junk (f = true ∨ RespLeaks E v p)) →
      Triple laxest f A (Pure.pure ()) (fun _ f' => Asrt.ex fun z => ⌜RespOutcome E v p f' z.1 z.2⌝ ∗ isSeen a b z ∗ junk (f' = true ∨ RespLeaks E v p)) := by
    intro f A G w p' hA hw hG
    exact Triple.doneJ (V := Handshake × Packet) (φ := fun _ f' z => RespOutcome E v p f' z.1 z.2) (ψ := fun _ f' _ => f' = true ∨ RespLeaks E v p)
      (P := fun _ z => isSeen a b z) (w, p') (by rw [hA]; unfold isSeen; rfl) hG hw
  unfold hProcessResponse
  refine Triple.lend0 (P := isTPkt b p) (by frame) fun h hh => ?_
  sstep hHsRecord_spec f h a b v p true (has_of hh)
  intro _ f1 hf1
  sintro
  rename_i v1 hv1
  sstep hFromPacket_view f1 h b p (has_of hh)
  intro m f2 hf2
  refine Triple.giveBack0 hh (by frame) ?_
  have hs1 := hv1.same
  have e1 : f1 = false → v1 = hsSetSlot v true p.network := fun h => hv1.resolve_right fun h' => by rw [h] at h'; cases h'.1
  have hsame : (hsFail v1).self = v.self ∧ (hsFail v1).evo = v.evo ∧ (hsFail v1).isInitiator = v.isInitiator ∧ (hsFail v1).eph = v.eph ∧
      (hsFail v1).pendingPkt = v.pendingPkt := ⟨hs1.1, hs1.2.1, hs1.2.2.1, hs1.2.2.2.1, hs1.2.2.2.2.1⟩
  cases m with
  | none =>
    dsimp only [fromPkt]
    sintro
    rename_i hf
    refine Triple.tail ?_
    sstep hHsFail_spec laxest f2 a v1
    intro _ f3 hf3
    refine fin f3 _ emp (hsFail v1) p (by frame) ⟨fun hn => ?_, hsame, Or.inl rfl, Or.inl rfl⟩ junk_emp
    rcases hf with hf | hf
    · rw [hf3 hf] at hn; cases hn
    · unfold hsProcessResponse
      rw [hf, e1 (oom_back hf2 (oom_back hf3 hn))]
  | some mx =>
    obtain ⟨m, x⟩ := mx
    dsimp only [fromPkt]
    sintro
    rename_i xa hm
    obtain ⟨hm, rfl⟩ := hm
    cases m with
    | seed m => exact (hp m hm).elim
    | unset =>
      dsimp only
      sstep hHsFail_spec laxest f2 a v1
      intro _ f3 hf3
      sdestroy hFreeUnpacked_spec laxest xa _ (fun _ _ => trivial)
      intro f4 hf4
      refine fin f4 _ emp (hsFail v1) p (by frame) ⟨fun hn => ?_, hsame, Or.inl rfl, Or.inl rfl⟩ junk_emp
      unfold hsProcessResponse
      rw [hm, e1 (oom_back hf2 (oom_back hf3 (oom_back hf4 hn)))]
    | response r =>
      dsimp only
      refine Triple.lend0 (P := isHs a v1) (by frame) fun h1 hh1 => ?_
      obtain ⟨rm, r1, hrm⟩ := hs_remote_view (has_of hh1)
      sread r1
      refine Triple.giveBack0 hh1 (by frame) ?_
      have hrn : rm.isNone = v1.remote.isNone := by
        cases rm with
        | none => cases hv : v1.remote with | none => rfl | some c => rw [hv] at hrm; exact hrm.elim
        | some c => cases hv : v1.remote with | none => rw [hv] at hrm; exact hrm.elim | some c => rfl
      rw [hrn]
      by_cases hinc : r.encData.isNone = true ∨ r.ephPub.isNone = true ∨ v1.remote.isNone = true ∧ r.idChain.isNone = true
      · rw [if_pos hinc]
        sstep hHsFail_spec laxest f2 a v1
        intro _ f3 hf3
        sdestroy hFreeUnpacked_spec laxest xa _ (fun _ _ => trivial)
        intro f4 hf4
        refine fin f4 _ emp (hsFail v1) p (by frame) ⟨fun hn => ?_, hsame, Or.inl rfl, Or.inl rfl⟩ junk_emp
        unfold hsProcessResponse
        rw [hm, ← e1 (oom_back hf2 (oom_back hf3 (oom_back hf4 hn)))]
        dsimp only
        rcases hinc with h | h | h
        · rw [Option.isNone_iff_eq_none.1 h]
        · rw [Option.isNone_iff_eq_none.1 h]; cases r.encData <;> rfl
        · cases r.encData with
          | none => rfl
          | some _ => cases r.ephPub with
            | none => rfl
            | some _ => dsimp only; rw [if_pos h]
      · rw [if_neg hinc]
        cases hed : r.encData with
        | none => exact (hinc (Or.inl (by rw [hed]; rfl))).elim
        | some ed =>
        cases hep : r.ephPub with
        | none => exact (hinc (Or.inr (Or.inl (by rw [hep]; rfl)))).elim
        | some ep =>
        have hparts : (PHandshake.response r).parts = chainParts r.idChain ++ [ep, ed] := by
          show chainParts r.idChain ++ [_, _] = _
          rw [hep, hed]; rfl
        rw [hparts]
        have hval : hsProcessResponse E v p = .ok (match (dup ed).bind cipherResultFromBuffer, v.eph.bind ecKeyCopy, (dup ep).bind (E.ecImport · false) with
            | some enc, some own, some peer => match hsRemoteIdentity E (hsSetSlot v true p.network) p r.idChain with
              | (h, false) => hsFail h
              | (h, true) => match hsOpenResponse E h own peer enc with
                | none => hsFail h
                | some rk => respKept h rk
            | _, _, _ => hsFail (hsSetSlot v true p.network)) := by
          unfold hsProcessResponse
          rw [hm]
          dsimp only
          rw [hed, hep]
          dsimp only
          have hr : (hsSetSlot v true p.network).remote = v1.remote := hs1.2.2.2.2.2.2.1.symm
          rw [hr, if_neg (fun h => hinc (Or.inr (Or.inr h)))]
          rw [show (hsSetSlot v true p.network).eph = v.eph from rfl]
          cases (dup ed).bind cipherResultFromBuffer with
          | none => rfl
          | some enc =>
            cases v.eph.bind ecKeyCopy with
            | none => rfl
            | some own =>
              cases (dup ep).bind (E.ecImport · false) with
              | none => rfl
              | some peer =>
                dsimp only
                rcases hsRemoteIdentity E (hsSetSlot v true p.network) p r.idChain with ⟨h, ok⟩
                cases ok with
                | false => rfl
                | true =>
                  dsimp only
                  cases hsOpenResponse E h own peer enc <;> rfl
        unfold hRespHandle
        refine Triple.lend0 (P := isHs a v1 ∗ isProto xa (chainParts r.idChain ++ [ep, ed])) (by frame) fun h2 hh2 => ?_
        have hh2' := hh2
        rw [Asrt.star_comm] at hh2'
        sstep hRespKeys_view hE f2 h2 a xa v1 r.idChain ep ed (has_l hh2) (has_l hh2')
        intro ks f3 hf3
        refine Triple.giveBack0 hh2 (by frame) ?_
        cases ks with
        | none =>
          dsimp only [respKeys]
          sintro
          rename_i hf
          sstep hHsFail_spec laxest f3 a v1
          intro _ f4 hf4
          sdestroy hFreeUnpacked_spec laxest xa _ (fun _ _ => trivial)
          intro f5 hf5
          refine fin f5 _ emp (hsFail v1) p (by frame) ⟨fun hn => ?_, hsame, Or.inl rfl, Or.inl rfl⟩ junk_emp
          have hn3 := oom_back hf4 (oom_back hf5 hn)
          subst hn3
          rw [hval, ← e1 (oom_back hf2 (oom_back hf3 rfl))]
          rw [hs1.2.2.2.1] at hf
          rcases hf with hf | hf | hf | hf
          · cases hf
          · rw [hf]
          · rw [hf]; cases (dup ed).bind cipherResultFromBuffer <;> rfl
          · rw [hf]; cases (dup ed).bind cipherResultFromBuffer <;> cases v.eph.bind ecKeyCopy <;> rfl
        | some ks =>
          obtain ⟨k1, k2, k3⟩ := ks
          dsimp only [respKeys]
          sintro
          rename_i z y hy
          obtain ⟨enc, own, peer⟩ := z
          obtain ⟨q1, q2, q3⟩ := y
          obtain ⟨⟨y1, y2, y3⟩, y4, y5, y6, y7⟩ := hy
          dsimp only at y1 y2 y3 y4 y5 y6 y7
          subst y1 y2 y3
          rw [hs1.2.2.2.1] at y5
          dsimp only
          refine Triple.lend0 (P := isProto xa (chainParts r.idChain ++ [ep, ed])) (by frame) fun h3 hh3 => ?_
          sstep hHsRemoteIdentity_view hE f3 h3 a b xa v1 p r.idChain [ep, ed] (has_of hh3)
          intro ok f4 hf4
          sintro
          rename_i y hi
          obtain ⟨v2, p'⟩ := y
          dsimp only at hi
          have hs2 := hi.same
          refine Triple.giveBack0 hh3 (by frame) ?_
          have hsame2 : v2.self = v.self ∧ v2.evo = v.evo ∧ v2.isInitiator = v.isInitiator ∧ v2.eph = v.eph ∧ v2.pendingPkt = v.pendingPkt :=
            ⟨hs2.1.trans hs1.1, hs2.2.1.trans hs1.2.1, hs2.2.2.1.trans hs1.2.2.1, hs2.2.2.2.1.trans hs1.2.2.2.1, hs2.2.2.2.2.1.trans hs1.2.2.2.2.1⟩
          cases ok with
          | false =>
            simp only [Bool.false_eq_true, ↓reduceIte]
            sdestroy hEcdhDestroy_spec laxest q2 _
            intro f5 hf5
            sdestroy hCResDestroy_spec (fun _ _ => trivial)
            intro f6 hf6
            sdestroy hFreeUnpacked_spec laxest xa _ (fun _ _ => trivial)
            intro f7 hf7
            sdestroy hKeyDestroy_spec laxest q3 _
            intro f8 hf8
            refine Triple.tail ?_
            sstep hHsFail_spec laxest f8 a v2
            intro _ f9 hf9
            refine fin f9 _ emp (hsFail v2) p' (by frame) ⟨fun hn => ?_, hsame2, hi.seen, Or.inl rfl⟩ junk_emp
            have hn4 := oom_back hf5 (oom_back hf6 (oom_back hf7 (oom_back hf8 (oom_back hf9 hn))))
            subst hn4
            rw [hval, y4, y5, y7, ← e1 (oom_back hf2 (oom_back hf3 (oom_back hf4 rfl)))]
            dsimp only
            rw [hi.exact]
          | true =>
            simp only [↓reduceIte]
            sdestroy hFreeUnpacked_spec laxest xa _ (fun _ _ => trivial)
            intro f5 hf5
            refine Triple.lend0 (P := isHs a v2) (by frame) fun h4 hh4 => ?_
            sstep hRespOpen_view hE f5 h4 a q1 q2 q3 v2 own peer enc (has_of hh4) (hs2.2.2.2.1.trans y6)
            intro rk f6 hf6
            refine Triple.giveBack0 hh4 (by frame) ?_
            refine Triple.tail ?_
            cases rk with
            | none =>
              dsimp only [opened]
              sintro
              rename_i hf
              have h0 := hRespDone_spec f6 a v2 none none (hs2.2.2.2.2.2.1.trans (hs1.2.2.2.2.2.1.trans hk))
              rw [optRep_null, Asrt.star_emp] at h0
              sstep h0
              intro _ f7 hf7
              refine fin f7 _ _ (hsFail v2) p' (by frame) ⟨fun hn => ?_, hsame2, hi.seen, Or.inl rfl⟩ (junk_mono ?_)
              · have hn4 := oom_back hf5 (oom_back hf6 (oom_back hf7 hn))
                subst hn4
                rw [hval, y4, y5, y7, ← e1 (oom_back hf2 (oom_back hf3 (oom_back hf4 rfl)))]
                dsimp only
                rw [hi.exact]
                dsimp only
                rw [hf.resolve_left (by rw [oom_back hf7 hn]; decide)]
              · rintro (h | h)
                · exact Or.inl (hf7 h)
                · cases f4 with
                  | true => exact Or.inl (hf7 (hf6 (hf5 rfl)))
                  | false =>
                    refine Or.inr ⟨r, ep, ed, enc, own, peer, v2, hm, hep, hed, y4, y5, y7, ?_, h⟩
                    rw [← e1 (oom_back hf2 (oom_back hf3 (oom_back hf4 rfl)))]
                    exact hi.exact
            | some rk =>
              dsimp only [opened]
              sintro
              rename_i k hkv
              have h0 := hRespDone_spec f6 a v2 (some rk) (some k) (hs2.2.2.2.2.2.1.trans (hs1.2.2.2.2.2.1.trans hk))
              dsimp only [optRep] at h0
              sstep h0
              intro _ f7 hf7
              refine fin f7 _ _ (respKept v2 k) p' (by frame) ⟨fun hn => ?_, hsame2, hi.seen, Or.inr ⟨r, hm, ?_, rfl⟩⟩ (junk_mono fun h => Or.inl (hf7 h))
              · have hn4 := oom_back hf5 (oom_back hf6 (oom_back hf7 hn))
                subst hn4
                rw [hval, y4, y5, y7, ← e1 (oom_back hf2 (oom_back hf3 (oom_back hf4 rfl)))]
                dsimp only
                rw [hi.exact]
                dsimp only
                rw [hkv (oom_back hf7 hn)]
              · have hm7 := fun h => hf7 (hf6 (hf5 h))
                rcases hi with ⟨ch, ch', i1, i2, i3⟩ | ⟨i1, i2, i3, i4, i5⟩ | ⟨ch, ch', i1, i2, i3, i4⟩
                · refine ⟨ch, ch', Or.inl ⟨by rw [← i1, hs1.2.2.2.2.2.2.1], ?_⟩, by rw [i2]; rfl, i3.mono hm7⟩
                  rw [i2]
                  unfold respKept
                  dsimp only
                  rw [if_pos (hs1.2.2.2.2.2.2.2.trans hst)]
                · cases i2
                · refine ⟨ch, ch', Or.inr ⟨by rw [← i1, hs1.2.2.2.2.2.2.1], i2, ?_⟩, by rw [i3]; rfl, i4.mono hm7⟩
                  rw [i3]
                  rfl

end Wickr
