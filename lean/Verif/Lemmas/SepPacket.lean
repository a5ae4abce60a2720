import Verif.Lemmas.SepCtx
import Verif.Lemmas.SepStream
import Verif.Lemmas.SepArr
import Verif.Model.HeapPacket
import Verif.Spec.ReleasesMsg
/-
Payloads, key exchanges and packets on the heap.
-/
set_option linter.unusedVariables false
namespace Wickr
open Asrt Spec

variable {E : Engine}

/-! ### Signatures -/

theorem hBufCreate_valid_spec (c : Rules) (f : Bool) (b : Bytes) (hv : ValidBuf b) :
    Triple c f emp (hBufCreate b) (fun r f' => fresh isBuf b r f') := by
  refine Triple.conseq (hBufCreate_spec c f b) (fun _ h => h) ?_
  intro r f' h _ hh
  cases r with
  | none => exact ⟨hh.1.resolve_right (fun hn => hn hv), hh.2⟩
  | some q => exact hh

theorem ecdsaFromBuffer_valid {b : Bytes} {s : EcdsaResult} (h : ecdsaFromBuffer b = some s) : ValidBuf s.sig := by
  unfold ecdsaFromBuffer at h
  split at h
  · cases h
  · split at h
    · split at h
      · split at h
        · cases h
        · obtain ⟨k, hk, rfl⟩ := Option.map_eq_some_iff.1 h
          exact copySection_valid hk
      · cases h
    · cases h

theorem hSigFromBytes_spec (c : Rules) (f : Bool) (hc : c.crash) (b : Bytes) :
    Triple c f emp (hSigFromBytes b) (fun r f' => emp ∗ gives isSig (ecdsaFromBuffer b) r f') := by
  unfold hSigFromBytes
  cases he : ecdsaFromBuffer b with
  | none => vgo
  | some s =>
    have hv := ecdsaFromBuffer_valid he
    dsimp only
    unfold onNull
    sstep hBufCreate_valid_spec c f s.sig hv
    intro r f1 _
    cases r with
    | none => dsimp only [fresh]; sintro; vgo
    | some q => dsimp only [fresh]; vgo

theorem hZeroBuf_spec (c : Rules) (f : Bool) (n : Nat) :
    Triple c f emp (hZeroBuf n) (fun r f' => emp ∗ gives isBuf (zeroBuf n) r f') := by
  unfold hZeroBuf
  cases h : zeroBuf n with
  | none => vgo
  | some b =>
    have hv : ValidBuf b := by
      unfold zeroBuf at h
      split at h
      · cases h
        rename_i h
        unfold ValidBuf
        simpa using h
      · cases h
    vgo

theorem sigSize_le (cv : Curve) : cv.sigSize ≤ 143 := by cases cv <;> decide

theorem concatMulti_sig {r : EcdsaResult} (h : ¬ r.curve.sigSize < r.sig.length + 2) (a b : UInt8) (z : Option Bytes)
    (hz : (optBytes z).length ≤ 255) : concatMulti [some [a], some [b], z, some r.sig] = some (a :: b :: (optBytes z ++ r.sig)) := by
  have hs := sigSize_le r.curve
  rw [concatMulti_some]
  refine ⟨by simp [optBytes], ?_⟩
  unfold ValidBuf maxBuffer
  simp only [List.length_cons, List.length_append]
  omega

theorem zeroBuf_some {n : Nat} {b : Bytes} (h : zeroBuf n = some b) : b = List.replicate n 0 ∧ 0 < n := by
  unfold zeroBuf at h
  split at h
  · cases h
    rename_i h
    exact ⟨rfl, h.1⟩
  · cases h

theorem zeroBuf_wiped {n : Nat} {b : Bytes} (h : zeroBuf n = some b) : Wiped b := by
  rw [(zeroBuf_some h).1]
  intro x hx
  exact (List.mem_replicate.1 hx).2

theorem zeroBuf_optLen (n : UInt8) : (optBytes (zeroBuf n.toNat)).length ≤ 255 := by
  have := n.toNat_lt
  cases h : zeroBuf n.toNat with
  | none => simp [optBytes]
  | some b =>
    rw [(zeroBuf_some h).1]
    simp only [optBytes, List.length_replicate]
    omega

theorem give_lossy {V : Type} {R : Addr → V → Asrt} {L : V → V → Prop} {v v' : V} {c : Rules} {f : Bool} {a : Addr} {h : Heap}
    (hL : L v v') (hf : f = false → v' = v) :
    Triple c f (R a v' ∗ keep h) (Pure.pure (some a)) (fun x f' => keep h ∗ givesL R L (some v) x f') := by
  refine Triple.ret fun x hx => ?_
  rw [Asrt.star_comm] at hx
  exact Asrt.star_mono_r (fun y hy => ⟨v, v', Asrt.pure_star.2 ⟨⟨rfl, hL, hf⟩, hy⟩⟩) hx

theorem hSigSerialize_view (c : Rules) (f : Bool) (h : Heap) (a : Addr) (r : EcdsaResult) (ha : Has isSig h a r) :
    Triple c f (keep h) (hSigSerialize (some a)) (fun x f' => keep h ∗ givesL isBuf (sigLoss r) (ecdsaSerialize r) x f') := by
  unfold hSigSerialize
  by_cases hs : r.curve.sigSize < r.sig.length + 2
  · have e : ecdsaSerialize r = none := by unfold ecdsaSerialize; simp only [hs, if_true]
    rw [e]
    vgo
  · have hl := zeroBuf_optLen (UInt8.ofNat (r.curve.sigSize - r.sig.length - 2))
    have e : ecdsaSerialize r = concatMulti [some [(r.curve.id <<< 4) ||| r.digest.id],
        some [UInt8.ofNat (r.curve.sigSize - r.sig.length - 2)],
        zeroBuf (UInt8.ofNat (r.curve.sigSize - r.sig.length - 2)).toNat, some r.sig] := by
      unfold ecdsaSerialize
      simp only [hs, if_false]
    rw [e]
    have eb : ecdsaBare r = some (((r.curve.id <<< 4) ||| r.digest.id) :: UInt8.ofNat (r.curve.sigSize - r.sig.length - 2) ::
      ([] ++ r.sig)) := concatMulti_sig hs _ _ none (by simp [optBytes])
    have en := concatMulti_sig hs ((r.curve.id <<< 4) ||| r.digest.id) (UInt8.ofNat (r.curve.sigSize - r.sig.length - 2)) none
      (by simp [optBytes])
    have hn := concatMulti_valid en
    sread readSig_view ha
    simp only [hs, if_false]
    cases hz : zeroBuf (UInt8.ofNat (r.curve.sigSize - r.sig.length - 2)).toNat with
    | none =>
      rw [en]
      have hq := hZeroBuf_spec c f (UInt8.ofNat (r.curve.sigSize - r.sig.length - 2)).toNat
      rw [hz] at hq
      refine Triple.seq hq (F := keep h) (by frame) fun x f1 _ => ?_
      cases x with
      | some q =>
        dsimp only [gives]
        sintro
        simp at *
      | none =>
        dsimp only [gives]
        sintro
        sread readOpt_view (HasOpt.null)
        unfold hConcatMulti
        rw [en]
        dsimp only
        vgo
        try dsimp only [fresh]
        exact (give_lossy (L := sigLoss r) (Or.inl rfl) (fun _ => rfl))
    | some z =>
      have hw : Wiped z := zeroBuf_wiped hz
      have ec := concatMulti_sig hs ((r.curve.id <<< 4) ||| r.digest.id) (UInt8.ofNat (r.curve.sigSize - r.sig.length - 2)) (some z)
        (by rw [← hz]; exact hl)
      have hv := concatMulti_valid ec
      rw [ec]
      have hq := hZeroBuf_spec c f (UInt8.ofNat (r.curve.sigSize - r.sig.length - 2)).toNat
      rw [hz] at hq
      refine Triple.seq hq (F := keep h) (by frame) fun x f1 _ => ?_
      cases x with
      | some q =>
        dsimp only [gives]
        sintro
        rename_i z' hz'
        cases hz'
        unfold hConcatMulti
        slend1
        rw [ec]
        dsimp only
        vgo
        try dsimp only [fresh]
        exact (give_lossy (L := sigLoss r) (Or.inl rfl) (fun _ => rfl))
      | none =>
        dsimp only [gives]
        sintro
        sread readOpt_view (HasOpt.null)
        unfold hConcatMulti
        rw [en]
        dsimp only
        vgo
        dsimp only [fresh]
        refine give_lossy (L := sigLoss r) (Or.inr eb) fun hf => ?_
        have : f1 = true := (‹f1 = true ∨ some z = none›).resolve_right (by simp)
        have := ‹f1 = true → _› this
        simp_all

/-! ### Payloads -/

theorem hPayloadSerialize_view (c : Rules) (f : Bool) (h : Heap) (a : Addr) (v : Payload) (ha : Has isPayload h a v) :
    Triple c f (keep h) (hPayloadSerialize (some a)) (fun r f' => keep h ∗ gives isBuf (payloadSerialize v) r f') := by
  unfold hPayloadSerialize payloadSerialize
  obtain ⟨⟨ttl, bor, tag, ct⟩, b⟩ := v
  sview ha isPayload
  sviews isInfo
  iterate 6 sgo1
  generalize (payloadToProto ⟨⟨ttl, bor, tag, ct⟩, b⟩).pack = m
  vgo

theorem hPayloadFromProto_spec (c : Rules) (f : Bool) (hc : c.crash) (x : Addr) (m : PPayload)
    (hp : ∀ b ∈ m.parts, c.pub b) :
    Triple c f (isProto x m.parts) (hPayloadFromProto (some x) m) (fun r f' => emp ∗ gives isPayload (payloadFromProto m) r f') := by
  unfold hPayloadFromProto payloadFromProto
  simp only [PPayload.parts] at *
  have h1 : ∀ v, dup (optBytes m.hdr.channelTag) = some v → c.pub v := fun v hv => (dup_eq_some.1 hv).2 ▸ hp _ (by simp)
  have h2 : ∀ v, dup m.body = some v → c.pub v := fun v hv => (dup_eq_some.1 hv).2 ▸ hp _ (by simp)
  vgo

theorem hPayloadFromBuffer_view (c : Rules) (f : Bool) (hc : c.crash) (h : Heap) (a : Addr) (b : Bytes)
    (hp : ∀ x ∈ payloadParts b, c.pub x) (hb : Has isBuf h a b) :
    Triple c f (keep h) (hPayloadFromBuffer (some a)) (fun r f' => keep h ∗ gives isPayload (payloadFromBuffer b) r f') := by
  unfold hPayloadFromBuffer payloadFromBuffer
  unfold payloadParts at hp
  sread readBuf_view hb
  cases hm : (fieldsDec b).bind PPayload.unpack with
  | none => dsimp only [Option.bind_none]; vgo
  | some m =>
    simp only [hm, Option.toList_some, List.flatMap_cons, List.flatMap_nil, List.append_nil] at hp
    dsimp only [Option.bind_some]
    clear hm
    vgo

theorem hPayloadEncrypt_view (hE : E.Fits) (c : Rules) (f : Bool) (hc : c.crash) (h : Heap) (a p : Addr) (v : Payload)
    (k : CipherKey) (iv : Bytes) (hp : ∀ b, payloadSerialize v = some b → ∀ r, E.encrypt b none k iv = some r → ∀ x ∈ r.publics, c.pub x)
    (ha : Has isPayload h a v) (hk : Has isCKey h p k) :
    Triple c f (keep h) (hPayloadEncrypt E (some a) (some p) iv) (fun r f' => keep h ∗ gives isCRes (payloadEncrypt E v k iv) r f') := by
  unfold hPayloadEncrypt payloadEncrypt
  have hq := hPayloadSerialize_view c f h a v ha
  revert hp hq
  generalize payloadSerialize v = m
  intro hp hq
  dsimp only
  unfold onNull
  refine Triple.seq hq (F := emp) (Asrt.star_emp _).symm fun x f1 _ => ?_
  rw [Asrt.star_emp]
  clear ha hq
  cases m with
  | none =>
    cases x with
    | none => dsimp only [gives]; sintro; vgo
    | some x => dsimp only [gives]; sintro; simp_all
  | some m =>
    have hp' := hp m rfl
    clear hp
    cases x with
    | none => dsimp only [gives]; sintro; simp only [Option.bind_some]; vgo
    | some x =>
      dsimp only [gives]
      sintro
      rename_i w hw
      cases hw
      simp only [Option.bind_some]
      vgo

theorem hPayloadFromCipher_view (hE : E.Fits) (c : Rules) (f : Bool) (hc : c.crash) (h : Heap) (a p : Addr) (r : CipherResult)
    (k : CipherKey) (hp : ∀ b, E.decrypt r none k true = some b → ∀ x ∈ payloadParts b, c.pub x)
    (ha : Has isCRes h a r) (hk : Has isCKey h p k) :
    Triple c f (keep h) (hPayloadFromCipher E (some a) (some p)) (fun x f' => keep h ∗ gives isPayload (payloadFromCipher E (some r) k) x f') := by
  unfold hPayloadFromCipher payloadFromCipher
  simp only [Option.bind_some]
  vgo

end Wickr
