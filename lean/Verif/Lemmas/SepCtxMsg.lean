import Verif.Lemmas.SepParse
import Verif.Lemmas.SepCtx
import Verif.Lemmas.SepMessage
import Verif.Spec.ReprCtxPacket
/-
Encoding and reading packets with a context.
-/
namespace Wickr
open Asrt Spec

variable {E : Engine}

theorem hCtxPacketCreate_spec (c : Rules) (f : Bool) (p q r : Addr) (m : Msg) (s : Chain) (v : ParseResult) :
    Triple c f (isPacket p m ∗ isChain q s ∗ isParse r v) (hCtxPacketCreate (some p) (some q) (some r))
      (fun x f' => orKeep (isPacket p m ∗ isChain q s ∗ isParse r v) isCtxPacket ⟨m, s, v⟩ x f') := by
  unfold hCtxPacketCreate
  sgo

theorem hCtxPacketDestroy_spec {c : Rules} {a : Addr} {v : CtxPacket} (hp : ∀ b ∈ v.publics, c.pub b) :
    Destroys c (isCtxPacket a v) (hCtxPacketDestroy (some a)) := by
  intro f
  unfold hCtxPacketDestroy
  obtain ⟨m, s, r⟩ := v
  simp only [CtxPacket.publics, List.mem_append, or_imp, forall_and] at hp
  obtain ⟨⟨hp1, hp2⟩, hp3⟩ := hp
  sopen isCtxPacket
  sgo

theorem parseShort_publics {v v' : ParseResult} (h : parseShort v v') : ∀ b ∈ v'.publics, b ∈ v.publics := by
  intro b hb
  rcases h with rfl | ⟨_, rfl | rfl⟩ | ⟨x, x', h1, h2, rfl⟩
  · exact hb
  · cases hb
  · cases hb
  · unfold ParseResult.publics at hb ⊢
    dsimp only at hb
    rw [h1]
    rw [List.mem_append] at hb ⊢
    exact hb.imp id (exLoss_publics h2 b)

theorem parseFromPacket_null {m : Msg} {i : Option Bytes} {g : Cipher → Chain → Option CipherKey} {s : Option Chain}
    (h : parseFromPacket E m i g s = .null) : False := by
  unfold parseFromPacket at h
  split at h
  · cases h
  split at h
  · cases h
  split at h
  · cases h
  unfold parseContent at h
  split at h
  · cases h
  split at h
  · cases h
  split at h
  · cases h
  dsimp only at h
  repeat' split at h
  all_goals cases h

theorem givesA_fail {V : Type} {R : Addr → V → Asrt} {L : V → V → Prop} {x : Option V} {h : Heap} {f0 f : Bool} (h0 : f0 = true → f = true)
    (hf : f = true) : Asrt.le (keep h ∗ spill f0) (keep h ∗ givesA R L x none f) := fun _ hy =>
  Asrt.star_mono_r (fun z hz => Asrt.pure_star.2 ⟨Or.inl hf, Asrt.spill_le h0 (Asrt.emp_le_spill f) z (by rwa [Asrt.star_emp])⟩) hy

theorem hReadPacket_view (hE : E.Fits) (c : Rules) (f : Bool) (hc : c.crash) (h : Heap) (a q : Addr) (n : Ptr) (b : Bytes)
    (i : Option Bytes) (s : Chain) (z : Option CtxPacket) (hk : SigKind b)
    (hz : readPacket E b i (some s) = Res.ofOption z) (hp : ∀ x ∈ readPubs E b i s, c.pub x)
    (hb : Has isBuf h a b) (hn : HasOpt isBuf h n i) (hq : Has isChain h q s) :
    Triple c f (keep h) (hReadPacket E (some a) n (some q)) (fun r f' => keep h ∗ givesA isCtxPacket readShort z r f') := by
  unfold hReadPacket
  unfold readPacket at hz
  unfold readPubs at hp
  simp only [List.mem_append, or_imp, forall_and] at hp
  obtain ⟨⟨hp1, hp2⟩, hp3⟩ := hp
  unfold onNull
  have hst := hPacketFromBuffer_view c f hc h a b hk hp1 hb
  revert hst hp3 hz
  generalize msgFromBuffer b = m
  intro hz hp3 hst
  dsimp only
  sstep hst
  intro w f1 hf1
  cases w with
  | none =>
    dsimp only [gives]
    sintro
    rename_i hh
    refine Triple.ret fun y hy => ?_
    refine Asrt.star_mono_r (P := keep h) (fun x hx => Asrt.pure_star.2 ⟨hh.imp id fun h => ?_, Asrt.emp_le_spill f1 x hx⟩) (by rwa [Asrt.star_emp])
    subst h
    cases z <;> first | rfl | cases hz
  | some w =>
    dsimp only [gives]
    sintro
    rename_i m hm
    subst hm
    simp only [Option.toList_some, List.flatMap_cons, List.flatMap_nil, List.append_nil, List.mem_append, or_imp, forall_and] at hp3
    obtain ⟨⟨p3, p4⟩, p5⟩ := hp3
    dsimp only at hz
    rw [Option.bind_some, chainCopy_has hq] at hz
    cases hv : parseFromPacket E m i (genHeaderKey E) (some s) with
    | null => exact (parseFromPacket_null hv).elim
    | ub => rw [hv] at hz; cases z <;> cases hz
    | ok v =>
      rw [hv] at hz p5
      have : z = some ⟨m, s, v⟩ := by cases z <;> cases hz; rfl
      subst this
      clear hz
      refine Triple.lend (h := h) (P := isPacket w m) (F := emp) (by frame) fun t1 h' ht1 e s1 s2 => ?_
      rw [Asrt.star_emp]
      have hn' : HasOpt isBuf h' n i := by
        exact HasOpt.sub hn s1
      sstep hParseFromPacket_view hE c f1 hc h' w q n m i s v hv p4 (Has.sub (has_of ht1) s2) hn' (Has.sub hq s1)
      intro r f2 hf2
      refine Triple.giveBack e ht1 (by frame) ?_
      cases r with
      | none =>
        dsimp only [givesA]
        sintro
        rename_i hh
        refine Triple.destroy (hPacketDestroy_spec p3) (by frame) fun f3 hf3 => ?_
        refine Triple.ret fun y hy => ?_
        have hh : f2 = true := hh.elim id fun h => by cases h
        exact givesA_fail (R := isCtxPacket) (L := readShort) hf3 (hf3 hh) y hy
      | some r =>
        dsimp only [givesA]
        sintro
        rename_i v1 v' hv'
        obtain ⟨hv1, hl, hv'⟩ := hv'
        cases hv1
        have p5' : ∀ b ∈ v'.publics, c.pub b := fun b hb => p5 b (parseShort_publics hl b hb)
        sstep hChainCopy_view c f2 hc h q s hp2 hq
        intro x f3 hf3
        cases x with
        | none =>
          dsimp only [freshL]
          sintro
          rename_i hh
          refine Triple.destroy (hPacketDestroy_spec p3) (by frame) fun f4 hf4 => ?_
          refine Triple.destroy (hParseDestroy_spec p5') (by frame) fun f5 hf5 => ?_
          refine Triple.ret fun y hy => givesA_fail (R := isCtxPacket) (L := readShort) (f0 := f2) (fun h => hf5 (hf4 (hf3 h))) (hf5 (hf4 hh)) y ?_
          revert hy
          revert y
          sentail
        | some x =>
          dsimp only [freshL]
          sintro
          rename_i s' hs'
          obtain ⟨hs1, hs2⟩ := hs'
          have p2' : ∀ b ∈ s'.publics, c.pub b := fun b hb => hp2 b (chainLoss_publics hs1 b hb)
          sstep hCtxPacketCreate_spec c f3 w x r m s' v'
          intro y f4 hf4
          cases y with
          | some y =>
            dsimp only [orKeep]
            refine Triple.ret fun t ht => ?_
            have ht : (keep h ∗ isCtxPacket y ⟨m, s', v'⟩ ∗ spill f2) t := by
              revert ht
              revert t
              sentail
            refine Asrt.star_mono_r (fun u hu => ⟨⟨m, s, v⟩, ⟨m, s', v'⟩, Asrt.pure_star.2 ⟨⟨rfl, ⟨rfl, hs1, hl⟩, fun hf => ?_⟩, ?_⟩⟩) ht
            · have h3 : f3 = false := by cases f3 <;> simp_all
              have h2 : f2 = false := by cases f2 <;> simp_all
              rw [hs2 h3, hv' h2]
            · refine Asrt.star_mono_r (fun w hw => ?_) hu
              exact Asrt.spill_le (fun h => hf4 (hf3 h)) (Asrt.emp_le_spill f4) w (by rwa [Asrt.star_emp])
          | none =>
            dsimp only [orKeep]
            sintro
            rename_i hh
            refine Triple.destroy (hChainDestroy_spec p2') (by frame) fun f5 hf5 => ?_
            refine Triple.destroy (hPacketDestroy_spec p3) (by frame) fun f6 hf6 => ?_
            refine Triple.destroy (hParseDestroy_spec p5') (by frame) fun f7 hf7 => ?_
            refine Triple.ret fun y hy => givesA_fail (R := isCtxPacket) (L := readShort) (f0 := f2) (fun h => hf7 (hf6 (hf5 (hf4 (hf3 h))))) (hf7 (hf6 (hf5 hh))) y ?_
            revert hy
            revert y
            sentail

theorem hReadPacket_none (c : Rules) (f : Bool) (hc : c.crash) (h : Heap) (a : Addr) (n : Ptr) (b : Bytes) (hk : SigKind b)
    (hp : ∀ x ∈ packetParts b ++ (msgFromBuffer b).toList.flatMap Msg.publics, c.pub x) (hb : Has isBuf h a b) :
    Triple c f (keep h) (hReadPacket E (some a) n none) (fun r f' => keep h ∗ gives isCtxPacket none r f') := by
  unfold hReadPacket onNull
  have hst := hPacketFromBuffer_view c f hc h a b hk (fun x hx => hp x (List.mem_append.2 (Or.inl hx))) hb
  have hp' : ∀ m, msgFromBuffer b = some m → ∀ x ∈ m.publics, c.pub x := fun m hm x hx =>
    hp x (List.mem_append.2 (Or.inr (List.mem_flatMap.2 ⟨m, Option.mem_toList.2 hm, hx⟩)))
  revert hst hp'
  generalize msgFromBuffer b = m
  intro hst hp'
  dsimp only
  sstep hst
  intro w f1 hf1
  cases w with
  | none =>
    dsimp only [gives]
    sintro
    exact Triple.ret fun y hy => keep_fact (Or.inr rfl) hy
  | some w =>
    dsimp only [gives]
    sintro
    rename_i m hm
    subst hm
    have p3 := hp' m rfl
    rw [show hParseFromPacket E (some w) n none = hParseFailure .unknown .invalidInput from rfl]
    sstep hParseFailure_spec c f1 .unknown .invalidInput
    intro r f2 hf2
    cases r with
    | none =>
      dsimp only [fresh]
      sintro
      refine Triple.destroy (hPacketDestroy_spec p3) (by frame) fun f3 hf3 => ?_
      exact Triple.ret fun y hy => keep_fact (Or.inr rfl) hy
    | some r =>
      dsimp only [fresh]
      rw [show hChainCopy none = Pure.pure none from rfl]
      sgo1
      refine Triple.destroy (hPacketDestroy_spec p3) (by frame) fun f3 hf3 => ?_
      refine Triple.destroy (hParseDestroy_spec (v := parseFailure .unknown .invalidInput) (by intro b hb; cases hb)) (by frame) fun f4 hf4 => ?_
      exact Triple.ret fun y hy => keep_fact (Or.inr rfl) hy

theorem ident_view {h : Heap} {a : Addr} {v : Ctx} (ha : Has isCtx h a v) :
    ∃ p q r, Reads (keep h) (field (some a) 1) (some p) ∧ Reads (keep h) (field (some p) 1) (some q) ∧
      Reads (keep h) (field (some q) 0) (some r) ∧ Has isBuf h r v.chain.node.identifier := by
  obtain ⟨dv, ch, st, hk, ver⟩ := v
  obtain ⟨ro, no, cs, ca⟩ := ch
  obtain ⟨ty, i, k, sg⟩ := no
  sview ha isCtx
  have hch := ‹Has isChain h _ ⟨ro, ⟨ty, i, k, sg⟩, cs, ca⟩›
  sview hch isChain
  have hno := ‹Has isId h _ ⟨ty, i, k, sg⟩›
  sview hno isId
  exact ⟨_, _, _, field_view (by assumption) (by rfl), field_view (by assumption) (by rfl), field_view (by assumption) (by rfl), by assumption⟩

theorem hCtxParse_view (hE : E.Fits) (c : Rules) (f : Bool) (hc : c.crash) (h : Heap) (p a q : Addr) (x : Ctx) (b : Bytes)
    (s : Chain) (z : Option CtxPacket) (hk : SigKind b)
    (hz : ctxParse E x b (some s) = Res.ofOption z) (hp : ∀ y ∈ readPubs E b (some x.chain.node.identifier) s, c.pub y)
    (hx : Has isCtx h p x) (hb : Has isBuf h a b) (hq : Has isChain h q s) :
    Triple c f (keep h) (hCtxParse E (some p) (some a) (some q)) (fun r f' => keep h ∗ givesA isCtxPacket readShort z r f') := by
  unfold hCtxParse
  obtain ⟨w1, w2, w3, r1, r2, r3, hi⟩ := ident_view hx
  sread r1
  sread r2
  sread r3
  exact hReadPacket_view hE c f hc h a q (some w3) b _ s z hk hz hp hb hi hq

theorem hCtxDecode_view (hE : E.Fits) (c : Rules) (f : Bool) (hc : c.crash) (hl : c.lax) (h : Heap) (p q k : Addr) (x : Ctx) (m : CtxPacket)
    (key : EcKey) (z : Option DecodeResult) (hz : ctxDecode E x m (some key) = Res.ofOption z)
    (hp : ∀ v ∈ decodePubs E m.packet.version m.parse x.dev.msgProtoId key x.chain m.sender, c.pub v)
    (hx : Has isCtx h p x) (hm : Has isCtxPacket h q m) (hk : Has isKey h k key) :
    Triple c f (keep h) (hCtxDecode E (some p) (some q) (some k)) (fun z' f' => keep h ∗ givesA isDec decodeShort z z' f') := by
  unfold hCtxDecode
  unfold ctxDecode at hz
  unfold decodePubs at hp
  simp only [List.mem_append, or_imp, forall_and, List.mem_cons, forall_eq, Option.mem_toList] at hp
  obtain ⟨⟨hp1, hp2⟩, hp3⟩ := hp
  obtain ⟨dv, ch, st, hk', ver⟩ := x
  obtain ⟨d1, d2, d3, d4⟩ := dv
  obtain ⟨pk, se, pr⟩ := m
  sview hx isCtx
  sview hm isCtxPacket
  have hd := ‹Has isDev h _ ⟨d1, d2, d3, d4⟩›
  sview hd isDev
  sread field_view (by assumption) (by rfl)
  dsimp only
  sread field_view (by assumption) (by rfl)
  sread field_view (by assumption) (by rfl)
  sread field_view (by assumption) (by rfl)
  sread field_view (by assumption) (by rfl)
  sread field_view (by assumption) (by rfl)
  exact hDecodeFromParse_view hE c f hc hl h _ _ _ k _ _ pk pr d3 key ch se z hz hp2 hp1 hp3 (by assumption) (by assumption) (by assumption) hk
    (by assumption) (by assumption)

/-- What encoding does to the recipients: what verifying them does, or nothing if there is no memory for the keys. -/
def SendOutcome (E : Engine) (f : Bool) (ns : List (Option Node)) (ok : Bool) (ns' : List (Option Node)) : Prop :=
  RecOutcome E f ns ok ns' ∨ (f = true ∧ ok = false ∧ ns' = ns)

theorem hCtxEncode_spec (hE : E.Fits) (c : Rules) (f : Bool) (hc : c.crash) (hl : c.lax) (h : Heap) (a y p : Addr) (x : Ctx) (pl : Payload)
    (ns : List (Option Node)) (pk : CipherKey) (cv : Curve) (pub pri : Bytes) (rnd : MsgRand) (r : Option Msg)
    (hv1 : ValidBuf pk.key) (hv2 : pk.key.length = pk.cipher.keyLen) (hv3 : ValidBuf pub) (hv4 : ValidBuf pri)
    (hs : ∀ n, some n ∈ ns → n.Shown E c)
    (hr : (∃ ns', RecOutcome E true ns true ns') → msgMade E x.headerKey pk ⟨cv, pub, some pri⟩ pl ns x.chain x.version rnd = Res.ofOption r)
    (hp : ∀ b ∈ msgPubs E x.headerKey pk ⟨cv, pub, some pri⟩ pl ns x.chain x.version rnd, c.pub b)
    (hp' : ∀ m, r = some m → ∀ b ∈ m.publics, c.pub b)
    (ha : Has isCtx h a x) (hy : Has isPayload h y pl) :
    Triple c f (keep h ∗ isArr isNode p ns) (hCtxEncode E (some a) (some y) (some p) pk cv pub pri rnd)
      (fun z f' => keep h ∗ ex fun (w : List (Option Node) × Bool) => ⌜SendOutcome E f' ns w.2 w.1⌝ ∗ isArr isNode p w.1 ∗
        givesN isEnc (if w.2 then r.map (⟨pk, ·⟩) else none) z f') := by
  unfold hCtxEncode
  obtain ⟨dv, ch, st, hk, ver⟩ := x
  dsimp only at *
  sview ha isCtx
  have hch := ‹Has isChain h _ ch›
  have hhk := ‹Has isCKey h _ hk›
  unfold onNull
  sstep hRandCKey_spec c f hc pk hv1 hv2
  intro k f1 hf1
  cases k with
  | none =>
    dsimp only [fresh]
    sintro
    rename_i hh
    refine Triple.ret fun t ht => Asrt.star_mono_r (P := keep h) (fun u hu => ⟨(ns, false), Asrt.pure_star.2 ⟨Or.inr ⟨hh, rfl, rfl⟩, ?_⟩⟩) ht
    exact Asrt.star_mono_r (fun w hw => Asrt.pure_star.2 ⟨Or.inl hh, Asrt.emp_le_spill f1 w hw⟩) (by rwa [Asrt.star_emp])
  | some k =>
    dsimp only [fresh]
    sstep hRandKey_spec c f1 hc cv pub pri hv3 hv4
    intro e f2 hf2
    cases e with
    | none =>
      dsimp only [fresh]
      sintro
      rename_i hh
      refine Triple.destroy (hCKeyDestroy_spec c k pk) (by frame) fun f3 hf3 => ?_
      refine Triple.ret fun t ht => Asrt.star_mono_r (P := keep h) (fun u hu => ⟨(ns, false), Asrt.pure_star.2 ⟨Or.inr ⟨hf3 hh, rfl, rfl⟩, ?_⟩⟩) ht
      exact Asrt.star_mono_r (fun w hw => Asrt.pure_star.2 ⟨Or.inl (hf3 hh), Asrt.emp_le_spill f3 w hw⟩) (by rwa [Asrt.star_emp])
    | some e =>
      dsimp only [fresh]
      sread field_view (by assumption) (by rfl)
      sread field_view (by assumption) (by rfl)
      sread scal_view (by assumption)
      dsimp only
      refine Triple.lend (h := h) (P := isCKey k pk) (F := isKey e ⟨cv, pub, some pri⟩ ∗ isArr isNode p ns) (by frame) fun t1 h1 ht1 e1 s1 s2 => ?_
      refine Triple.lend (h := h1) (P := isKey e ⟨cv, pub, some pri⟩) (F := isArr isNode p ns) (by frame) fun t2 h2 ht2 e2 s3 s4 => ?_
      sstep hMsgCreate_spec hE c f2 hc hl h2 _ k e y p _ hk pk ⟨cv, pub, some pri⟩ pl ns ch ver rnd r hs hr hp (Has.sub (Has.sub hhk s1) s3)
        (Has.sub (Has.sub (has_of ht1) s2) s3) (Has.sub (has_of ht2) s4) (Has.sub (Has.sub hy s1) s3) (Has.sub (Has.sub hch s1) s3)
      intro m f3 hf3
      sintro
      rename_i w hw
      obtain ⟨ns', ok⟩ := w
      dsimp only at hw ⊢
      refine Triple.giveBack e2 ht2 (by frame) ?_
      refine Triple.giveBack e1 ht1 (by frame) ?_
      refine Triple.destroy (hKeyDestroy_spec c e _) (by frame) fun f4 hf4 => ?_
      have hw' := fun f hf => RecOutcome.mono (f := f3) (f' := f) hf hw
      cases m with
      | none =>
        dsimp only [givesN]
        sintro
        rename_i hh
        rw [show hEncCreate (some k) none = Pure.pure none from rfl]
        sgo1
        refine Triple.destroy (hCKeyDestroy_spec c k pk) (by frame) fun f5 hf5 => ?_
        rw [show hPacketDestroy none = Pure.pure none from rfl]
        sgo1
        refine Triple.ret fun t ht => ?_
        have ht : (keep h ∗ isArr isNode p ns' ∗ spill f3) t := by
          revert ht
          revert t
          sentail
        refine Asrt.star_mono_r (fun u hu => ⟨(ns', ok), Asrt.pure_star.2 ⟨Or.inl (hw' f5 fun h => hf5 (hf4 h)), ?_⟩⟩) ht
        refine Asrt.star_mono_r (fun w hw => Asrt.pure_star.2 ⟨hh.imp (fun h => hf5 (hf4 h)) fun h => ?_, ?_⟩) hu
        · cases ok with
          | false => rfl
          | true => simp only [if_true] at h ⊢; rw [h]; rfl
        · exact Asrt.spill_le (fun h => hf5 (hf4 h)) (Asrt.emp_le_spill f5) w (by rwa [Asrt.star_emp])
      | some m =>
        dsimp only [givesN]
        sintro
        rename_i mv hmv
        have hok : ok = true := by cases ok with
          | true => rfl
          | false => simp at hmv
        subst hok
        simp only [if_true] at hmv
        subst hmv
        sstep hEncCreate_spec c f4 k m pk mv
        intro z f5 hf5
        cases z with
        | some z =>
          dsimp only [orKeep]
          refine Triple.ret fun t ht => ?_
          have ht : (keep h ∗ isArr isNode p ns' ∗ isEnc z ⟨pk, mv⟩) t := by
            revert ht
            revert t
            sentail
          refine Asrt.star_mono_r (fun u hu => ⟨(ns', true), Asrt.pure_star.2 ⟨Or.inl (hw' f5 fun h => hf5 (hf4 h)), ?_⟩⟩) ht
          exact Asrt.star_mono_r (fun w hw => ⟨_, Asrt.pure_star.2 ⟨rfl, hw⟩⟩) hu
        | none =>
          dsimp only [orKeep]
          sintro
          rename_i hh
          refine Triple.destroy (hCKeyDestroy_spec c k pk) (by frame) fun f6 hf6 => ?_
          refine Triple.destroy (hPacketDestroy_spec (hp' mv rfl)) (by frame) fun f7 hf7 => ?_
          refine Triple.ret fun t ht => ?_
          have ht : (keep h ∗ isArr isNode p ns') t := by
            revert ht
            revert t
            sentail
          refine Asrt.star_mono_r (fun u hu => ⟨(ns', true), Asrt.pure_star.2 ⟨Or.inl (hw' f7 fun h => hf7 (hf6 (hf5 (hf4 h)))), ?_⟩⟩) ht
          exact Asrt.star_mono_r (fun w hw => Asrt.pure_star.2 ⟨Or.inl (hf7 (hf6 hh)), Asrt.emp_le_spill f7 w hw⟩) (by rwa [Asrt.star_emp])

end Wickr
