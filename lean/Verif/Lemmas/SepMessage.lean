import Verif.Lemmas.SepExchange
/-
Packets: making, reading and writing them.
-/
set_option linter.unusedVariables false
namespace Wickr
open Asrt Spec

theorem Triple.readBufNil {c : Rules} {f : Bool} {A : Asrt} {k : Bytes → H β} {R : β → Bool → Asrt} (hc : c.crash) (hf : f = true) :
    Triple c f A (readBuf none >>= k) R := by
  subst hf
  intro B s F hf hp
  exact ⟨hc, hf, fun b hb => Or.inl hb⟩

theorem hPacketCreateWith_view (hE : E.Fits) (c : Rules) (f : Bool) (hc : c.crash) (h : Heap) (a p q : Addr) (hd pl : CipherResult) (k : EcKey)
    (v : UInt8) (nonce : Bytes) (r : Option Msg) (hr : msgCreateWithComponents E hd pl k v nonce = Res.ofOption r)
    (hp : ∀ b ∈ packetPubs E hd pl k nonce, c.pub b)
    (ha : Has isCRes h a hd) (hb : Has isCRes h p pl) (hk : Has isKey h q k) :
    Triple c f (keep h) (hPacketCreateWith E (some a) (some p) (some q) v nonce) (fun x f' => keep h ∗ gives isPacket r x f') := by
  unfold hPacketCreateWith
  unfold msgCreateWithComponents at hr
  unfold packetPubs packetContent at hp
  cases hs1 : cipherResultSerialize hd with
  | none =>
    rw [hs1] at hr
    have : r = none := by cases r <;> simp_all [Res.ofOption]
    subst this
    clear hp hr
    have hk' := hk
    obtain ⟨cv, pub, pri⟩ := k
    sview hk' isKey
    vgo
    all_goals first | (exfalso; simp_all; done) | exact Triple.readBufNil hc (by simp_all)
  | some hb1 =>
    rw [hs1] at hr
    dsimp only at hr
    cases hs2 : cipherResultSerialize pl with
    | none => rw [hs2] at hr; cases r <;> simp [Res.ofOption] at hr
    | some pb1 =>
      rw [hs2] at hr
      dsimp only at hr
      simp only [hs1, hs2, Option.bind_some, Option.toList_some, List.mem_append, List.mem_singleton, or_imp, forall_and, forall_eq] at hp
      obtain ⟨⟨hp1, hp2⟩, hp3⟩ := hp
      revert hr hp3
      generalize hpk : protoPack (PPacket.pack ⟨hb1, pb1⟩) = o
      intro hr hp3
      cases o with
      | none =>
        have : r = none := by cases r <;> simp_all [Res.ofOption]
        subst this
        clear hp3 hr
        have hk' := hk
        obtain ⟨cv, pub, pri⟩ := k
        sview hk' isKey
        vgo
        all_goals first | (exfalso; simp_all; done) | exact Triple.readBufNil hc (by simp_all)
      | some o =>
        dsimp only at hr
        simp only [Option.toList_some, List.flatMap_cons, List.flatMap_nil, List.append_nil, List.mem_cons, or_imp, forall_and,
          forall_eq, List.mem_map, Option.mem_toList, forall_exists_index, and_imp, forall_apply_eq_imp_iff₂] at hp3
        obtain ⟨hp3, hp4⟩ := hp3
        have hr' : r = (E.sign k o (digestMatchingCurve k.curve) nonce).map fun s => ⟨v, o, s⟩ := by
          cases hs : E.sign k o (digestMatchingCurve k.curve) nonce <;> cases r <;> simp_all [Res.ofOption]
        subst hr'
        clear hr
        have hk' := hk
        obtain ⟨cv, pub, pri⟩ := k
        dsimp only at *
        sview hk' isKey
        vgo
        all_goals first | (exfalso; simp_all; done) | exact Triple.readBufNil hc (by simp_all) | skip

/-- What reading a packet may leave behind. -/
def stray (b : Bytes) : Asrt := fun h => SigKind b → emp h

theorem emp_le_stray (b : Bytes) : Asrt.le emp (stray b) := fun _ h _ => h

theorem gives_stray {V : Type} {F : Asrt} {R : Addr → V → Asrt} {x : Option V} {r : Ptr} {f : Bool} {b : Bytes} :
    Asrt.le (F ∗ gives R x r f) (F ∗ gives R x r f ∗ stray b) := by
  intro h hh
  refine Asrt.star_mono_r (fun y hy => ?_) hh
  rw [← Asrt.star_emp (gives R x r f)] at hy
  exact Asrt.star_mono_r (emp_le_stray b) hy

theorem Triple.noStray {V : Type} {c : Rules} {f : Bool} {P F : Asrt} {m : H Ptr} {R : Addr → V → Asrt} {x : Option V} {b : Bytes}
    (h : Triple c f P m (fun r f' => F ∗ gives R x r f')) : Triple c f P m (fun r f' => F ∗ gives R x r f' ∗ stray b) :=
  Triple.conseq h (fun _ h => h) fun _ _ y _ hy => gives_stray y hy

theorem hPacketTake_view (c : Rules) (f : Bool) (h : Heap) (p : Addr) (b : Bytes) (v : UInt8) (cv : Curve) (s : EcdsaResult)
    (hp : c.pub s.sig) (hp2 : ∀ x, copySection b 2 (b.length - cv.sigSize - 2) = some x → c.pub x) (hb : packetSig b = some (cv, s)) :
    Triple c f (keep h ∗ isSig p s) (hPacketTake b v cv (some p))
      (fun r f' => keep h ∗ gives isPacket (if s.digest.id ≠ (digestMatchingCurve cv).id ∨ s.curve.id ≠ cv.id then none
        else (copySection b 2 (b.length - cv.sigSize - 2)).map fun c => ⟨v, c, s⟩) r f' ∗ stray b) := by
  unfold hPacketTake
  obtain ⟨sc, sd, ss⟩ := s
  dsimp only at *
  have hsc : Reads (isSig p ⟨sc, sd, ss⟩) (scal (some p)) (.sig sc sd) := by
    refine Reads.owned fun x hx => ?_
    have hx' := has_of hx
    sview hx' isSig
    exact scal_view (by assumption)
  sread hsc
  dsimp only
  by_cases hk : sd.id ≠ (digestMatchingCurve cv).id ∨ sc.id ≠ cv.id
  · rw [if_pos hk, if_pos hk]
    refine Triple.ret fun y hy => ?_
    have hs : Asrt.le (isSig p ⟨sc, sd, ss⟩) (gives isPacket none none f ∗ stray b) := fun z hz => by
      refine Asrt.pure_star.2 ⟨Or.inr rfl, fun hz => ?_⟩
      have := hz cv _ hb
      exact absurd hk (by rw [this.1, this.2]; simp)
    exact Asrt.star_mono_r hs hy
  · rw [if_neg hk, if_neg hk]
    refine Triple.noStray ?_
    cases hs : copySection b 2 (b.length - cv.sigSize - 2) with
    | none => dsimp only [Option.map_none]; vgo
    | some ct =>
      have hv := copySection_valid hs
      have hp3 := hp2 ct hs
      clear hp2 hs hb hk
      dsimp only [Option.map_some]
      unfold onNull
      sstep hBufCreate_valid_spec c f ct hv
      intro r f1 _
      cases r with
      | none => dsimp only [fresh]; sintro; vgo
      | some q => dsimp only [fresh]; vgo

theorem msgFromBuffer_sig (b : Bytes) : msgFromBuffer b = (packetSig b).bind fun x =>
    if x.2.digest.id ≠ (digestMatchingCurve x.1).id ∨ x.2.curve.id ≠ x.1.id then none
    else (copySection b 2 (b.length - x.1.sigSize - 2)).map fun c => ⟨b.headD 0, c, x.2⟩ := by
  unfold msgFromBuffer packetSig
  by_cases h2 : b.length ≤ 2
  · simp only [h2, if_true]
    rfl
  · simp only [h2, if_false]
    rcases b with _ | ⟨v, _ | ⟨b1, t⟩⟩
    · rfl
    · rfl
    · dsimp only
      split
      · rfl
      · cases Curve.find (msgSigType v b1) with
        | none => rfl
        | some cv =>
          dsimp only [Option.bind_some]
          split
          · rfl
          · cases ecdsaFromBuffer _ <;> rfl

/-- Reading a packet, whatever it is: only a signature of another kind is left behind. -/
theorem hPacketFromBuffer_any (c : Rules) (f : Bool) (hc : c.crash) (h : Heap) (a : Addr) (b : Bytes)
    (hp : ∀ x ∈ packetParts b, c.pub x) (hb : Has isBuf h a b) :
    Triple c f (keep h) (hPacketFromBuffer (some a)) (fun r f' => keep h ∗ gives isPacket (msgFromBuffer b) r f' ∗ stray b) := by
  unfold hPacketFromBuffer
  sread readBuf_view hb
  rw [msgFromBuffer_sig]
  have stop : ∀ f, Triple c f (keep h) (Pure.pure none) (fun r f' => keep h ∗ gives isPacket none r f' ∗ stray b) := fun f =>
    Triple.ret fun y hy => gives_stray y (keep_fact (Or.inr rfl) hy)
  unfold packetParts at hp
  by_cases h2 : b.length ≤ 2
  · rw [if_pos h2]
    have : packetSig b = none := by unfold packetSig; rw [if_pos h2]
    rw [this]
    exact stop f
  rw [if_neg h2]
  rcases b with _ | ⟨v, _ | ⟨b1, t⟩⟩
  · simp at h2
  · simp at h2
  have hps : packetSig (v :: b1 :: t) = if v > 4 ∨ v < 2 then none
      else (Curve.find (msgSigType v b1)).bind fun cv =>
        if (v :: b1 :: t).length ≤ 2 + cv.sigSize then none
        else (ecdsaFromBuffer (((v :: b1 :: t).drop ((v :: b1 :: t).length - cv.sigSize)).take cv.sigSize)).map fun s => (cv, s) := by
    conv => lhs; unfold packetSig
    rw [if_neg h2]
  dsimp only
  have hh : (v :: b1 :: t).headD 0 = v := rfl
  generalize v :: b1 :: t = b at *
  by_cases hv : v > 4 ∨ v < 2
  · rw [if_pos hv] at hps ⊢
    rw [hps]
    exact stop f
  rw [if_neg hv] at hps ⊢
  cases hcv : Curve.find (msgSigType v b1) with
  | none =>
    rw [hcv] at hps
    rw [hps]
    exact stop f
  | some cv =>
    rw [hcv, Option.bind_some] at hps
    dsimp only
    by_cases hl : b.length ≤ 2 + cv.sigSize
    · rw [if_pos hl] at hps ⊢
      rw [hps]
      exact stop f
    rw [if_neg hl] at hps ⊢
    generalize List.take cv.sigSize (List.drop (b.length - cv.sigSize) b) = e at hps ⊢
    have hs := hSigFromBytes_spec c f hc e
    generalize ecdsaFromBuffer e = s at hps hs
    refine Triple.seq hs (F := keep h) (Asrt.emp_star _).symm fun r f1 _ => ?_
    cases r with
    | none =>
      unfold hPacketTake
      rw [show gives isSig s none f1 = Asrt.pure (f1 = true ∨ s = none) from rfl]
      sintro
      rename_i hh
      refine Triple.ret fun y hy => gives_stray y (keep_fact (hh.imp id fun h => ?_) ?_)
      · subst h
        rw [hps]
        rfl
      · exact hy
    | some p =>
      dsimp only [gives]
      sintro
      rename_i sv hsv
      subst hsv
      rw [Option.map_some] at hps
      rw [hps] at hp ⊢
      simp only [Option.toList_some, List.flatMap_cons, List.flatMap_nil, List.append_nil, List.mem_cons, or_imp, forall_and,
          forall_eq, Option.mem_toList] at hp
      rw [Option.bind_some, hh]
      refine Triple.conseq (hPacketTake_view c f1 h p b v cv sv hp.1 hp.2 hps) ?_ (fun _ _ _ _ h => h)
      sentail

theorem hPacketFromBuffer_view (c : Rules) (f : Bool) (hc : c.crash) (h : Heap) (a : Addr) (b : Bytes) (hk : SigKind b)
    (hp : ∀ x ∈ packetParts b, c.pub x) (hb : Has isBuf h a b) :
    Triple c f (keep h) (hPacketFromBuffer (some a)) (fun r f' => keep h ∗ gives isPacket (msgFromBuffer b) r f') := by
  refine Triple.conseq (hPacketFromBuffer_any c f hc h a b hp hb) (fun _ h => h) fun r f' y _ hy => ?_
  refine Asrt.star_mono_r (fun z hz => ?_) hy
  rw [← Asrt.star_emp (gives _ _ _ _)]
  exact Asrt.star_mono_r (fun w hw => hw hk) hz

/-! ### Writing packets -/

theorem ecdsaSerialize_some {r : EcdsaResult} {v : Bytes} (h : ecdsaSerialize r = some v) :
    v.length = r.curve.sigSize ∧ (∀ w, ecdsaBare r = some w → w.length = r.curve.sigSize → w = v) := by
  by_cases hs : r.curve.sigSize < r.sig.length + 2
  · unfold ecdsaSerialize at h
    rw [if_pos hs] at h
    cases h
  have hl := sigSize_le r.curve
  have hn : (UInt8.ofNat (r.curve.sigSize - r.sig.length - 2)).toNat = r.curve.sigSize - r.sig.length - 2 := by
    rw [UInt8.toNat_ofNat']; omega
  have eb : ecdsaBare r = some (((r.curve.id <<< 4) ||| r.digest.id) :: UInt8.ofNat (r.curve.sigSize - r.sig.length - 2) ::
    ([] ++ r.sig)) := concatMulti_sig hs _ _ none (by simp [optBytes])
  have ec := concatMulti_sig hs ((r.curve.id <<< 4) ||| r.digest.id) (UInt8.ofNat (r.curve.sigSize - r.sig.length - 2))
    (zeroBuf (UInt8.ofNat (r.curve.sigSize - r.sig.length - 2)).toNat) (zeroBuf_optLen _)
  have hz : (optBytes (zeroBuf (UInt8.ofNat (r.curve.sigSize - r.sig.length - 2)).toNat)).length = r.curve.sigSize - r.sig.length - 2 := by
    rw [hn]
    unfold zeroBuf
    by_cases h0 : 0 < r.curve.sigSize - r.sig.length - 2
    · rw [if_pos ⟨h0, by unfold maxBuffer; omega⟩]
      simp [optBytes]
    · rw [if_neg (by omega)]
      simp only [optBytes, List.length_nil]
      omega
  unfold ecdsaSerialize at h
  rw [if_neg hs] at h
  dsimp only at h
  rw [ec] at h
  cases h
  constructor
  · simp only [List.length_cons, List.length_append, hz]
    omega
  · intro w hw hwl
    rw [eb] at hw
    cases hw
    simp only [List.length_cons, List.nil_append] at hwl
    have h0 : r.curve.sigSize - r.sig.length - 2 = 0 := by omega
    rw [List.eq_nil_of_length_eq_zero (hz.trans h0)]

theorem hPacketSerialize_view (c : Rules) (f : Bool) (h : Heap) (a : Addr) (m : Msg)
    (hp : ∀ x, ecdsaSerialize m.sig = some x → c.pub x) (ha : Has isPacket h a m) :
    Triple c f (keep h) (hPacketSerialize (some a)) (fun r f' => keep h ∗ givesN isBuf (msgSerialize m) r f') := by
  obtain ⟨v, ct, s⟩ := m
  dsimp only at hp
  unfold hPacketSerialize
  sview ha isPacket
  rename_i p q hc hb hs
  sread scal_view hc
  sread field_view hc (by rfl)
  have hsc : Has isSig h q s := hs
  sview hs isSig
  rename_i q2 hc2 hb2
  sread scal_view hc2
  dsimp only
  unfold onNull
  sstep hSigSerialize_view c f h q s hsc
  intro r f1 _
  cases r with
  | none =>
    dsimp only [givesL]
    sintro
    unfold msgSerialize
    vgo
  | some sd =>
    dsimp only [givesL]
    sintro
    rename_i w w' hw
    obtain ⟨e, hl, hx⟩ := hw
    have hes := ecdsaSerialize_some e
    have hpw := hp w e
    have em : msgSerialize ⟨v, ct, s⟩ = concatMulti [some [v], some [s.curve.id], some ct, some w] := by
      unfold msgSerialize
      dsimp only
      rw [e, Option.bind_some, if_neg (by rw [hes.1]; simp)]
    rw [em]
    have hr : Reads (isBuf sd w') (readBuf (some sd)) w' := Reads.owned fun x hx => readBuf_view (has_of hx)
    sread hr
    by_cases hq : w'.length = s.curve.sigSize
    · have : w' = w := hl.elim id fun hb => hes.2 _ hb hq
      subst this
      rw [if_neg (by simpa using hq)]
      clear hes hl hx hp e em
      vgo
    · rw [if_pos (by simpa using hq)]
      have hf1 : f1 = true := by
        cases f1 with
        | true => rfl
        | false => exact absurd (by rw [hx rfl]; exact hes.1) hq
      subst hf1
      refine Triple.ret fun y hy => ?_
      rw [Asrt.star_comm] at hy
      refine Asrt.star_mono_r (fun z hz => ?_) hy
      exact Asrt.pure_star.2 ⟨Or.inl rfl, trivial⟩

end Wickr
