import Verif.Lemmas.SepCtxMsg
import Verif.Props.VerifyMem
import Verif.Lemmas.ViewSpecsMessage
import Verif.Lemmas.Scene
import Verif.Spec.Send
/-
C93: sending in memory.  A packet is made only for genuine recipients, whatever the allocator does.
-/
namespace Wickr
open Asrt Spec

variable {E : Engine}

/-! ### What verifying recipients does -/

theorem chainOutcome_value (ch : Chain) : ChainOutcome E ch (chainValidate E ch).2 false (chainValidate E ch).1 := by
  refine ⟨?_, fun _ => rfl⟩
  unfold chainValidate
  split
  · rename_i h
    exact Or.inl ⟨h, rfl, rfl⟩
  · exact Or.inr ⟨rfl, _, rfl, Or.inr rfl⟩

theorem nodeOutcome_value (n : Node) : NodeOutcome E n (nodeVerify E n).2 false (nodeVerify E n).1 := by
  refine ⟨?_, fun _ => rfl⟩
  have hc := (chainOutcome_value (E := E) n.chain).weaken
  unfold nodeVerify
  generalize chainValidate E n.chain = r at hc ⊢
  obtain ⟨ch, ok⟩ := r
  split
  · rename_i h
    exact Or.inl ⟨h, rfl, rfl⟩
  · refine Or.inr ⟨ch, ok, ?_⟩
    have hn := hc.node
    cases ok with
    | false => exact ⟨_, hc, rfl, Or.inr rfl, rfl⟩
    | true =>
      dsimp only at hn ⊢
      rw [hn]
      refine ⟨_, hc, rfl, Or.inr rfl, ?_⟩
      cases ephVerifyOwner E n.eph n.chain.node <;> rfl

theorem recOutcome_value : ∀ ns : List (Option Node), RecOutcome E false ns (recipientsValidate E ns).2 (recipientsValidate E ns).1
  | [] => ⟨rfl, rfl⟩
  | none :: _ => ⟨rfl, rfl⟩
  | some n :: ns => by
    refine ⟨_, _, nodeOutcome_value n, ?_⟩
    unfold recipientsValidate
    dsimp only
    cases e : (nodeVerify E n).2 with
    | false => exact Or.inl ⟨rfl, rfl, rfl⟩
    | true => exact Or.inr ⟨rfl, _, recOutcome_value ns, rfl⟩

theorem RecOutcome.value : ∀ {ns : List (Option Node)} {ok : Bool} {ns' : List (Option Node)},
    RecOutcome E false ns ok ns' → (ns', ok) = recipientsValidate E ns
  | [], _, _, h => by rw [h.1, h.2]; rfl
  | none :: _, _, _, h => by rw [h.1, h.2]; rfl
  | some n :: ns, ok, ns', ⟨b, n', hn, h⟩ => by
    have e := hn.2 rfl
    unfold recipientsValidate
    rw [← e]
    rcases h with ⟨rfl, rfl, rfl⟩ | ⟨rfl, ns'', h, rfl⟩
    · rfl
    · dsimp only
      rw [if_pos rfl, ← RecOutcome.value h]

theorem sameNodes_refl : ∀ ns : List (Option Node), SameNodes ns ns
  | [] => trivial
  | none :: ns => sameNodes_refl ns
  | some _ :: ns => ⟨⟨rfl, rfl⟩, rfl, rfl, sameNodes_refl ns⟩

theorem AllGenuine.cons {n : Node} {ns : List (Option Node)} : AllGenuine E (some n :: ns) ↔ NodeGenuine E n ∧ AllGenuine E ns := by
  unfold AllGenuine
  simp

theorem AllHonest.cons {n : Node} {ns : List (Option Node)} : AllHonest E (some n :: ns) ↔ NodeHonest E n ∧ AllHonest E ns := by
  unfold AllHonest
  simp

theorem outcome_rec {f : Bool} : ∀ {ns : List (Option Node)} {ok : Bool} {ns' : List (Option Node)}, AllHonest E ns →
    RecOutcome E f ns ok ns' → (ok = true ↔ AllGenuine E ns) ∧ SameNodes ns ns' ∧ AllHonest E ns'
  | [], _, _, _, h => by
    obtain ⟨rfl, rfl⟩ := h
    simp [AllGenuine, AllHonest, SameNodes]
  | none :: ns, _, _, hh, h => by
    obtain ⟨rfl, rfl⟩ := h
    refine ⟨?_, sameNodes_refl _, hh⟩
    simp [AllGenuine]
  | some n :: ns, ok, ns', hh, ⟨b, n', hn, h⟩ => by
    obtain ⟨h1, h2⟩ := AllHonest.cons.1 hh
    obtain ⟨g, a1, a2, a3, a4⟩ := outcome_node h1 hn
    rcases h with ⟨rfl, rfl, rfl⟩ | ⟨rfl, ns'', h, rfl⟩
    · refine ⟨?_, ⟨a2, a3, a4, sameNodes_refl _⟩, AllHonest.cons.2 ⟨a1, h2⟩⟩
      rw [AllGenuine.cons, ← g]
      simp
    · obtain ⟨b1, b2, b3⟩ := outcome_rec h2 h
      refine ⟨?_, ⟨a2, a3, a4, b2⟩, AllHonest.cons.2 ⟨a1, b3⟩⟩
      rw [AllGenuine.cons, ← g, b1]
      simp

theorem isArr_fits {V : Type} {R : Addr → V → Asrt} {a : Addr} {xs : List (Option V)} {F : Asrt} {h : Heap} (hh : (isArr R a xs ∗ F) h) :
    arrayFits xs.length = true := by
  have h8 : 8 * xs.length ≤ maxBuffer := by
    unfold isArr at hh
    rw [Asrt.ex_star] at hh
    obtain ⟨ps, hh⟩ := hh
    unfold isSlots at hh
    rw [Asrt.star_assoc, Asrt.ex_star] at hh
    obtain ⟨st, hh⟩ := hh
    cases st with
    | none =>
      unfold isStore at hh
      rw [Asrt.star_assoc, Asrt.left_comm] at hh
      have := (Asrt.pure_star.1 hh).1.1
      rw [this]
      decide
    | some st =>
      unfold isStore at hh
      rw [Asrt.star_assoc, Asrt.left_comm, Asrt.ex_star] at hh
      obtain ⟨b, hh⟩ := hh
      rw [Asrt.star_assoc] at hh
      exact (Asrt.pure_star.1 hh).1.2.1
  unfold arrayFits
  exact decide_eq_true h8

/-- With recipients that are verified the packet is the one of the value model. -/
theorem msgCreate_made {ns : List (Option Node)} (hf : arrayFits ns.length = true) (hk pk : CipherKey) (exKey : EcKey) (pl : Payload) (s : Chain)
    (v : UInt8) (rnd : MsgRand) :
    (msgCreate E hk pk exKey pl ns s v rnd).1 = (recipientsValidate E ns).1 ∧
    (msgCreate E hk pk exKey pl ns s v rnd).2 = if (recipientsValidate E ns).2 then msgMade E hk pk exKey pl ns s v rnd else .null := by
  cases ns with
  | nil => exact ⟨rfl, rfl⟩
  | cons n ns =>
    have hm := (recOutcome_value (E := E) (n :: ns)).made hk pk exKey pl s v rnd
    rw [← hm.1]
    unfold msgCreate
    rw [if_neg (by simp)]
    dsimp only
    generalize recipientsValidate E (n :: ns) = r
    obtain ⟨ns', ok⟩ := r
    cases ok with
    | false => exact ⟨rfl, rfl⟩
    | true =>
      simp only [Bool.not_true, Bool.false_eq_true, if_false, hf, not_true_eq_false]
      rw [if_pos trivial]
      refine ⟨trivial, ?_⟩
      unfold msgMade msgHeader
      cases exchangesCreate E s exKey pk v rnd.exIv ns' 0 with
      | none => rfl
      | some xs =>
        dsimp only [Option.bind]
        cases exchangeSetEncrypt E ⟨exKey, xs.map some⟩ hk rnd.hdrIv <;> dsimp only
        cases payloadEncrypt E pl pk rnd.payIv <;> dsimp only

/-- Nothing is asked of what is released, even when memory runs out. -/
abbrev laxRules : Rules := { pub := fun _ => True, crash := True, lax := True }

theorem lax_shown (n : Node) : n.Shown E laxRules :=
  ⟨⟨fun _ _ _ => trivial, fun _ _ => trivial, fun _ _ => trivial⟩, fun _ _ _ _ => trivial, fun _ _ => trivial, fun _ _ => trivial⟩

theorem digestInput_mem {ch : Chain} {st : Status} {b : Bytes} (h : { ch with status := st }.digestInput = some b) : b ∈ chainShown E ch := by
  refine List.mem_append_right _ (List.mem_flatMap.2 ⟨st, by cases st <;> simp, ?_⟩)
  rw [h]
  exact List.mem_singleton.2 rfl

theorem nodeInput_mem {n : Node} {ch : Chain} {st : Status} {b : Bytes} (h : { n with chain := ch, status := st }.digestInput = some b) :
    b ∈ nodeShown E n := by
  refine List.mem_append_right _ ?_
  unfold Node.digestInput at h
  dsimp only at h
  cases e : n.eph with
  | none => simp [e] at h
  | some k =>
    cases e1 : k.sig with
    | none => cases e2 : ch.cache <;> simp [e, e1, e2] at h
    | some s =>
      cases e2 : ch.cache with
      | none => simp [e, e2] at h
      | some d =>
        simp only [e, e1, e2] at h
        have h := (concatMulti_some.1 h).1
        simp only [List.flatMap_cons, List.flatMap_nil, optBytes, List.append_nil] at h
        subst h
        simp only [Option.toList, List.flatMap_cons, List.flatMap_nil, List.append_nil, e1]
        refine List.mem_map.2 ⟨st, by cases st <;> simp, by simp⟩

theorem shown_of {n : Node} {c : Rules} (h : ∀ b ∈ nodeShown E n, c.pub b) : n.Shown E c := by
  have hc : ∀ b ∈ chainShown E n.chain, c.pub b := fun b hb => h b (List.mem_append_left _ (List.mem_append_left _ (List.mem_append_left _ hb)))
  refine ⟨⟨fun st b hb => hc b (digestInput_mem hb), fun b hb => hc b ?_, fun b hb => hc b ?_⟩, fun ch st b hb => h b (nodeInput_mem hb),
    fun b hb => h b ?_, fun b hb => h b ?_⟩
  all_goals simp [chainShown, nodeShown, hb]

/-- Sending, for any rules. -/
def SendSpec {V : Type} (E : Engine) (c : Rules) (args : Heap → Prop) (p : Addr) (ns : List (Option Node)) (R : Addr → V → Asrt) (r : Option V)
    (m : H Ptr) : Prop :=
  ∀ f h, args h → Triple c f (keep h ∗ isArr isNode p ns) m (fun z f' => keep h ∗ ex fun (w : List (Option Node) × Bool) =>
    ⌜SendOutcome E f' ns w.2 w.1⌝ ∗ isArr isNode p w.1 ∗ givesN R (if w.2 then r else none) z f')

theorem Sends.of {V : Type} {c : Rules} {args : Heap → Prop} {p : Addr} {ns : List (Option Node)} {R : Addr → V → Asrt} {r : Option V} {m : H Ptr}
    (hn : AllHonest E ns) (hm : arrayFits ns.length = true → SendSpec E c args p ns R r m) :
    Sends E args p ns (recipientsValidate E ns).1 R (if (recipientsValidate E ns).2 then r else none) m := by
  intro A s h ha hh
  have hg := (outcome_rec hn (recOutcome_value ns)).1
  have := hm (isArr_fits hh) s.oom h ha A s emp rfl (by rwa [Asrt.star_emp, Asrt.star_comm])
  revert this
  cases m A s with
  | ub => exact id
  | crash s' => exact fun h => h.2.1
  | ret z s' =>
    rintro ⟨hq, -, -⟩
    rw [Asrt.star_emp, Asrt.star_comm, Asrt.ex_star] at hq
    obtain ⟨⟨ns', ok⟩, hq⟩ := hq
    rw [Asrt.star_assoc] at hq
    obtain ⟨ho, hq⟩ := Asrt.pure_star.1 hq
    dsimp only at ho hq
    have key : (ok = true → AllGenuine E ns) ∧ SameNodes ns ns' ∧ AllHonest E ns' ∧ (s'.oom = false → (ns', ok) = recipientsValidate E ns) := by
      rcases ho with ho | ⟨h1, rfl, rfl⟩
      · obtain ⟨h1, h2, h3⟩ := outcome_rec hn ho
        exact ⟨h1.1, h2, h3, fun h => by rw [h] at ho; exact ho.value⟩
      · exact ⟨fun h => (nomatch h), sameNodes_refl _, hn, fun h => by rw [h1] at h; exact nomatch h⟩
    obtain ⟨k1, k2, k3, k4⟩ := key
    refine ⟨ns', k2, k3, fun h => by rw [← k4 h], ?_⟩
    cases z with
    | none =>
      dsimp only [givesN] at hq ⊢
      rw [Asrt.star_assoc, Asrt.left_comm, Asrt.star_assoc] at hq
      obtain ⟨hx, hq⟩ := Asrt.pure_star.1 hq
      rw [Asrt.left_comm] at hq
      refine ⟨?_, ?_, ?_⟩
      · cases e : s'.oom with
        | true => exact Or.inl rfl
        | false =>
          rw [← k4 e]
          exact Or.inr (hx.resolve_left (by rw [e]; exact fun h => nomatch h))
      · refine Asrt.star_mono_r (fun t ht => ?_) hq
        rw [Asrt.star_comm] at ht
        exact Asrt.star_mono_r (fun _ _ => trivial) ht
      · intro e
        rw [e] at hq
        refine Asrt.star_mono_r (fun t ht => ?_) hq
        have : spill false = emp := rfl
        rwa [this, Asrt.emp_star] at ht
    | some b =>
      dsimp only [givesN] at hq ⊢
      rw [Asrt.star_assoc, Asrt.left_comm, Asrt.ex_star] at hq
      obtain ⟨v, hq⟩ := hq
      rw [Asrt.star_assoc] at hq
      obtain ⟨hx, hv⟩ := Asrt.pure_star.1 hq
      have hok : ok = true := by
        cases ok with
        | true => rfl
        | false => simp at hx
      subst hok
      have hg' := k1 rfl
      rw [hg.2 hg']
      exact ⟨hg', v, hx, hv⟩

theorem SendsDiscreetly.of {V : Type} {pubs : List Bytes} {args : Heap → Prop} {p : Addr} {ns : List (Option Node)} {R : Addr → V → Asrt}
    {r : Option V} {m : H Ptr} (hm : arrayFits ns.length = true → SendSpec E (onlyLax pubs) args p ns R r m) : SendsDiscreetly args p ns pubs m := by
  intro A s h ha hh z s' e ho
  have := hm (isArr_fits hh) s.oom h ha A s emp rfl (by rwa [Asrt.star_emp, Asrt.star_comm])
  rw [e] at this ⊢
  intro b hb
  rcases this.2.2 b hb with h | h | h | h
  · exact Or.inl h
  · exact Or.inr (Or.inl h)
  · exact Or.inr (Or.inr h)
  · rw [ho] at h
    exact nomatch h.1

/-- The packet if there is one. -/
theorem made_of {ns : List (Option Node)} (hn : AllHonest E ns) (hf : arrayFits ns.length = true) {hk pk : CipherKey} {exKey : EcKey} {pl : Payload}
    {s : Chain} {v : UInt8} {rnd : MsgRand} {x : Option Msg} (hx : (msgCreate E hk pk exKey pl ns s v rnd).2 = Res.ofOption x) :
    ((∃ ns', RecOutcome E true ns true ns') → msgMade E hk pk exKey pl ns s v rnd = Res.ofOption x) ∧
      (if (recipientsValidate E ns).2 then x else none) = x := by
  rw [(msgCreate_made hf hk pk exKey pl s v rnd).2] at hx
  refine ⟨fun ⟨ns', h⟩ => ?_, ?_⟩
  · rw [if_pos ((outcome_rec hn (recOutcome_value ns)).1.2 ((outcome_rec hn h).1.1 rfl))] at hx
    exact hx
  · split at hx
    · rename_i h; rw [if_pos h]
    · rename_i h; rw [if_neg h, ofOption_null hx]

theorem encode_made {x : Ctx} {pl : Payload} {ns : List (Option Node)} {pk : CipherKey} {exKey : EcKey} {rnd : MsgRand} {z : Option Encoded}
    (hz : (ctxEncode E x pl ns pk exKey rnd).2 = Res.ofOption z) :
    ∃ m, (msgCreate E x.headerKey pk exKey pl ns x.chain x.version rnd).2 = Res.ofOption m ∧ z = m.map (Encoded.mk pk) := by
  unfold ctxEncode at hz
  dsimp only at hz
  cases e : (msgCreate E x.headerKey pk exKey pl ns x.chain x.version rnd).2 with
  | ub => rw [e] at hz; cases z <;> exact nomatch hz
  | null => rw [e] at hz; exact ⟨none, rfl, ofOption_null hz⟩
  | ok m =>
    rw [e] at hz
    refine ⟨some m, rfl, ?_⟩
    cases z with
    | none => exact nomatch hz
    | some z => cases hz; rfl

theorem sendSpec_of {V : Type} {c : Rules} {f : Bool} {h : Heap} {p : Addr} {ns : List (Option Node)} {R : Addr → V → Asrt} {r : Option V} {m : H Ptr}
    (hm : Triple c f (keep h ∗ isArr isNode p ns) m (fun z f' => keep h ∗ ex fun (w : List (Option Node) × Bool) =>
      ⌜RecOutcome E f' ns w.2 w.1⌝ ∗ isArr isNode p w.1 ∗ givesN R (if w.2 then r else none) z f')) :
    Triple c f (keep h ∗ isArr isNode p ns) m (fun z f' => keep h ∗ ex fun (w : List (Option Node) × Bool) =>
      ⌜SendOutcome E f' ns w.2 w.1⌝ ∗ isArr isNode p w.1 ∗ givesN R (if w.2 then r else none) z f') :=
  Triple.conseq hm (fun _ h => h) fun _ _ _ _ ht => Asrt.star_mono_r (fun _ ⟨w, hu⟩ => ⟨w, Asrt.pure_star.2 ⟨Or.inl (Asrt.pure_star.1 hu).1, (Asrt.pure_star.1 hu).2⟩⟩) ht

/-! ### Sending -/

/-- `wickr_packet_create_from_components`, whatever the allocator does, for recipients whose stored results tell the truth: a packet is made
only if every one of them is genuine, and is then the one of the value model. -/
theorem C93_msg_create (hE : E.Fits) (q d x y p a : Addr) (hk pk : CipherKey) (exKey : EcKey) (pl : Payload) (ns : List (Option Node)) (s : Chain)
    (v : UInt8) (rnd : MsgRand) (z : Option Msg) (hn : AllHonest E ns) (hz : (msgCreate E hk pk exKey pl ns s v rnd).2 = Res.ofOption z) :
    Sends E (fun h => Has isCKey h q hk ∧ Has isCKey h d pk ∧ Has isKey h x exKey ∧ Has isPayload h y pl ∧ Has isChain h a s) p ns
      (msgCreate E hk pk exKey pl ns s v rnd).1 isPacket z (hMsgCreate E (some q) (some d) (some x) (some y) (some p) (some a) v rnd) := by
  by_cases hf : arrayFits ns.length = true
  · rw [(msgCreate_made hf hk pk exKey pl s v rnd).1]
    obtain ⟨hr, hi⟩ := made_of hn hf hz
    have := Sends.of hn fun _ => (fun f h ⟨h1, h2, h3, h4, h5⟩ =>
      sendSpec_of (hMsgCreate_spec hE laxRules f trivial trivial h q d x y p a hk pk exKey pl ns s v rnd z (fun n _ => lax_shown n) hr (fun _ _ => trivial)
        h1 h2 h3 h4 h5) :
      SendSpec E laxRules (fun h => Has isCKey h q hk ∧ Has isCKey h d pk ∧ Has isKey h x exKey ∧ Has isPayload h y pl ∧ Has isChain h a s) p ns isPacket z _)
    rwa [hi] at this
  · exact fun A s h _ hh => (hf (isArr_fits hh)).elim

/-- Unless an allocation fails it releases only what is in the packet, what is public and digests of public values unwiped. -/
theorem C93_msg_create_wipes (hE : E.Fits) (q d x y p a : Addr) (hk pk : CipherKey) (exKey : EcKey) (pl : Payload) (ns : List (Option Node)) (s : Chain)
    (v : UInt8) (rnd : MsgRand) (z : Option Msg) (hn : AllHonest E ns) (hz : (msgCreate E hk pk exKey pl ns s v rnd).2 = Res.ofOption z) :
    SendsDiscreetly (fun h => Has isCKey h q hk ∧ Has isCKey h d pk ∧ Has isKey h x exKey ∧ Has isPayload h y pl ∧ Has isChain h a s) p ns
      (sendPubs E hk pk exKey pl ns s v rnd) (hMsgCreate E (some q) (some d) (some x) (some y) (some p) (some a) v rnd) := by
  refine SendsDiscreetly.of (E := E) (R := isPacket) (r := z) fun hf f h ⟨h1, h2, h3, h4, h5⟩ => ?_
  obtain ⟨hr, -⟩ := made_of hn hf hz
  refine sendSpec_of (hMsgCreate_spec hE (onlyLax _) f trivial trivial h q d x y p a hk pk exKey pl ns s v rnd z
    (fun n hn => shown_of fun b hb => List.mem_append_left _ (List.mem_flatMap.2 ⟨some n, hn, List.mem_flatMap.2 ⟨n, by simp, hb⟩⟩)) hr
    (fun b hb => List.mem_append_right _ hb) h1 h2 h3 h4 h5)

/-- `wickr_ctx_encode_packet`, in the same way; `pk` and the key pair are the ones drawn. -/
theorem C93_ctx_encode (hE : E.Fits) (a y p : Addr) (x : Ctx) (pl : Payload) (ns : List (Option Node)) (pk : CipherKey) (cv : Curve)
    (pub pri : Bytes) (rnd : MsgRand) (z : Option Encoded) (hn : AllHonest E ns)
    (hv1 : ValidBuf pk.key) (hv2 : pk.key.length = pk.cipher.keyLen) (hv3 : ValidBuf pub) (hv4 : ValidBuf pri)
    (hz : (ctxEncode E x pl ns pk ⟨cv, pub, some pri⟩ rnd).2 = Res.ofOption z) :
    Sends E (fun h => Has isCtx h a x ∧ Has isPayload h y pl) p ns (ctxEncode E x pl ns pk ⟨cv, pub, some pri⟩ rnd).1 isEnc z
      (hCtxEncode E (some a) (some y) (some p) pk cv pub pri rnd) := by
  by_cases hf : arrayFits ns.length = true
  · obtain ⟨m, hm, rfl⟩ := encode_made hz
    have e1 : (ctxEncode E x pl ns pk ⟨cv, pub, some pri⟩ rnd).1 = (recipientsValidate E ns).1 := (msgCreate_made hf _ _ _ _ _ _ _).1
    rw [e1]
    obtain ⟨hr, hi⟩ := made_of hn hf hm
    have := Sends.of hn fun _ => (fun f h ⟨h1, h2⟩ =>
      hCtxEncode_spec hE laxRules f trivial trivial h a y p x pl ns pk cv pub pri rnd m hv1 hv2 hv3 hv4 (fun n _ => lax_shown n) hr
        (fun _ _ => trivial) (fun _ _ _ _ => trivial) h1 h2 :
      SendSpec E laxRules (fun h => Has isCtx h a x ∧ Has isPayload h y pl) p ns isEnc (m.map (⟨pk, ·⟩)) _)
    have hi' : (if (recipientsValidate E ns).2 = true then m.map (Encoded.mk pk) else none) = m.map (Encoded.mk pk) := by
      cases e : (recipientsValidate E ns).2 with
      | true => rfl
      | false => rw [e] at hi; rw [← hi]; rfl
    rwa [hi'] at this
  · exact fun A s h _ hh => (hf (isArr_fits hh)).elim

/-- Unless an allocation fails the keys drawn are wiped, and so is everything else that is not public. -/
theorem C93_ctx_encode_wipes (hE : E.Fits) (a y p : Addr) (x : Ctx) (pl : Payload) (ns : List (Option Node)) (pk : CipherKey) (cv : Curve)
    (pub pri : Bytes) (rnd : MsgRand) (z : Option Encoded) (hn : AllHonest E ns)
    (hv1 : ValidBuf pk.key) (hv2 : pk.key.length = pk.cipher.keyLen) (hv3 : ValidBuf pub) (hv4 : ValidBuf pri)
    (hz : (ctxEncode E x pl ns pk ⟨cv, pub, some pri⟩ rnd).2 = Res.ofOption z) :
    SendsDiscreetly (fun h => Has isCtx h a x ∧ Has isPayload h y pl) p ns
      (sendPubs E x.headerKey pk ⟨cv, pub, some pri⟩ pl ns x.chain x.version rnd ++ z.toList.flatMap fun e => e.packet.publics)
      (hCtxEncode E (some a) (some y) (some p) pk cv pub pri rnd) := by
  obtain ⟨m, hm, rfl⟩ := encode_made hz
  refine SendsDiscreetly.of (E := E) (R := isEnc) (r := m.map (⟨pk, ·⟩)) fun hf f h ⟨h1, h2⟩ => ?_
  obtain ⟨hr, -⟩ := made_of hn hf hm
  exact hCtxEncode_spec hE _ f trivial trivial h a y p x pl ns pk cv pub pri rnd m hv1 hv2 hv3 hv4
    (fun n hn => shown_of fun b hb => List.mem_append_left _ (List.mem_append_left _ (List.mem_flatMap.2 ⟨some n, hn, List.mem_flatMap.2 ⟨n, by simp, hb⟩⟩)))
    hr (fun b hb => List.mem_append_left _ (List.mem_append_right _ hb)) (by intro m e b hb; subst e; simp [hb]) h1 h2

theorem grown {p a : Addr} {ns : List (Option Node)} {h t : Heap} {R : Asrt} {x : Ctx} (hh : (isArr isNode p ns ∗ keep h ∗ R) t) (ha : Has isCtx h a x) :
    ∃ h', (isArr isNode p ns ∗ keep h') t ∧ (∀ q w, Has isPayload h q w → Has isPayload h' q w) ∧ Has isCtx h' a x := by
  obtain ⟨t1, t2, e, d, h1, h2⟩ := hh
  refine ⟨t2, ⟨t1, t2, e, d, h1, rfl⟩, fun q w hw => ?_, ?_⟩
  · exact Asrt.star_mono (fun u hu => by cases hu; exact hw) h2 |> fun h => by
      unfold Has
      rw [Asrt.star_assoc] at h
      exact Asrt.star_mono_r (fun _ _ => trivial) h
  · exact Asrt.star_mono (fun u hu => by cases hu; exact ha) h2 |> fun h => by
      unfold Has
      rw [Asrt.star_assoc] at h
      exact Asrt.star_mono_r (fun _ _ => trivial) h

theorem Spec.SameNodes.bare : ∀ {ns ns' : List (Option Node)}, SameNodes ns ns' → ns'.map (Option.map Node.bare) = ns.map (Option.map Node.bare)
  | [], [], _ => rfl
  | none :: ns, none :: ns', h => by
    simp only [List.map_cons, Option.map_none]
    rw [SameNodes.bare (ns := ns) (ns' := ns') h]
  | some n :: ns, some n' :: ns', h => by
    obtain ⟨⟨h1, h2⟩, h3, h4, h5⟩ := h
    simp only [List.map_cons, Option.map_some]
    rw [SameNodes.bare h5]
    obtain ⟨d, ⟨r, n, s, ca⟩, e, st, c⟩ := n
    obtain ⟨d', ⟨r', n', s', ca'⟩, e', st', c'⟩ := n'
    simp only at h1 h2 h3 h4
    subst h1 h2 h3 h4
    rfl
  | [], none :: _, h => h.elim
  | [], some _ :: _, h => h.elim
  | none :: _, [], h => h.elim
  | none :: _, some _ :: _, h => h.elim
  | some _ :: _, [], h => h.elim
  | some _ :: _, none :: _, h => h.elim

theorem Spec.SameNodes.length {ns ns' : List (Option Node)} (h : SameNodes ns ns') : ns'.length = ns.length := by
  have := congrArg List.length h.bare
  simpa using this

theorem Spec.SameNodes.genuine : ∀ {ns ns' : List (Option Node)}, SameNodes ns ns' → (AllGenuine E ns' ↔ AllGenuine E ns)
  | [], [], _ => Iff.rfl
  | none :: _, none :: _, _ => by simp [AllGenuine]
  | some n :: ns, some n' :: ns', h => by
    obtain ⟨h1, h2, -, h3⟩ := h
    rw [AllGenuine.cons, AllGenuine.cons, nodeGenuine_same h1 h2, SameNodes.genuine h3]
  | [], none :: _, h => h.elim
  | [], some _ :: _, h => h.elim
  | none :: _, [], h => h.elim
  | none :: _, some _ :: _, h => h.elim
  | some _ :: _, [], h => h.elim
  | some _ :: _, none :: _, h => h.elim

theorem Spec.SameNodes.safe {ns ns' : List (Option Node)} (h : SameNodes ns ns') (hn : AllHonest E ns) (hn' : AllHonest E ns')
    (hf : arrayFits ns.length = true) {x : Ctx} {pl : Payload} {pk : CipherKey} {exKey : EcKey} {rnd : MsgRand}
    (hs : (ctxEncode E x pl ns pk exKey rnd).2 ≠ .ub) : (ctxEncode E x pl ns' pk exKey rnd).2 ≠ .ub := by
  have e : (recipientsValidate E ns').2 = (recipientsValidate E ns).2 := by
    rw [Bool.eq_iff_iff, (outcome_rec hn (recOutcome_value ns)).1, (outcome_rec hn' (recOutcome_value ns')).1, h.genuine]
  have e2 : (msgCreate E x.headerKey pk exKey pl ns' x.chain x.version rnd).2 = (msgCreate E x.headerKey pk exKey pl ns x.chain x.version rnd).2 := by
    rw [(msgCreate_made hf _ _ _ _ _ _ _).2, (msgCreate_made (by rw [h.length]; exact hf) _ _ _ _ _ _ _).2, e, ← msgMade_bare (ns := ns'), h.bare, msgMade_bare]
  unfold ctxEncode at hs ⊢
  dsimp only at hs ⊢
  rw [e2]
  exact hs

/-- Any number of packets to the same recipients, each with its own payload, keys and allocator: if there is a packet at all, every
recipient is genuine. -/
theorem C93_history (hE : E.Fits) (a p : Addr) (x : Ctx) (ns : List (Option Node)) (cs : List SendCall) (s : St) (h : Heap) (hn : AllHonest E ns)
    (ha : Has isCtx h a x) (hc : ∀ c ∈ cs, c.Ok E x ns h) (hs : (isArr isNode p ns ∗ keep h) s.heap) (rs : List Ptr) (s' : St)
    (hr : sendMany E a p cs s = some (rs, s')) : rs.length = cs.length ∧ ∀ b, some b ∈ rs → AllGenuine E ns := by
  induction cs generalizing s ns h rs s' with
  | nil => simp [sendMany] at hr; simp [hr.1]
  | cons c cs ih =>
    have ho := hc c (by simp)
    obtain ⟨z, hz⟩ : ∃ z, (ctxEncode E x c.payload ns c.key ⟨c.curve, c.pub, some c.pri⟩ c.rnd).2 = Res.ofOption z := by
      have := ho.safe
      cases e : (ctxEncode E x c.payload ns c.key ⟨c.curve, c.pub, some c.pri⟩ c.rnd).2 with
      | ub => exact (this e).elim
      | null => exact ⟨none, rfl⟩
      | ok m => exact ⟨some m, rfl⟩
    have := C93_ctx_encode hE a c.y p x c.payload ns c.key c.curve c.pub c.pri c.rnd z hn ho.key ho.len ho.pub ho.pri hz c.A s h ⟨ha, ho.payload⟩ hs
    unfold sendMany at hr
    cases e : hCtxEncode E (some a) (some c.y) (some p) c.key c.curve c.pub c.pri c.rnd c.A s with
    | ub => simp [e] at hr
    | crash s1 => simp [e] at hr
    | ret r s1 =>
      simp only [e] at hr this
      simp only [Option.map_eq_some_iff] at hr
      obtain ⟨⟨rs', s2⟩, hr, he⟩ := hr
      simp at he
      obtain ⟨rfl, rfl⟩ := he
      obtain ⟨ns', h1, h2, -, h3⟩ := this
      have hf := isArr_fits hs
      have next : ∀ h', (∀ q w, Has isPayload h q w → Has isPayload h' q w) → Has isCtx h' a x → (isArr isNode p ns' ∗ keep h') s1.heap →
          rs'.length = cs.length ∧ ∀ b, some b ∈ rs' → AllGenuine E ns := by
        intro h' hp hx hs'
        have := ih ns' s1 h' h2 hx (fun c hcm => by
          have hk := hc c (by simp [hcm])
          exact ⟨hk.key, hk.len, hk.pub, hk.pri, hp _ _ hk.payload, h1.safe hn h2 hf hk.safe⟩) hs' rs' s2 hr
        exact ⟨this.1, fun b hb => h1.genuine.1 (this.2 b hb)⟩
      cases r with
      | none =>
        dsimp only at h3
        obtain ⟨h', hs1, hp, hx⟩ : ∃ h', (isArr isNode p ns' ∗ keep h') s1.heap ∧ (∀ q w, Has isPayload h q w → Has isPayload h' q w) ∧ Has isCtx h' a x :=
          grown h3.2.1 ha
        have := next h' hp hx hs1
        exact ⟨by simp [this.1], fun b hb => this.2 b (by simpa using hb)⟩
      | some b =>
        dsimp only at h3
        obtain ⟨hg, v, -, h3⟩ := h3
        obtain ⟨h', hs1, hp, hx⟩ : ∃ h', (isArr isNode p ns' ∗ keep h') s1.heap ∧ (∀ q w, Has isPayload h q w → Has isPayload h' q w) ∧ Has isCtx h' a x :=
          grown (R := isEnc b v) (by rw [Asrt.star_comm, Asrt.star_assoc] at h3; exact h3) ha
        have := next h' hp hx hs1
        exact ⟨by simp [this.1], fun _ _ => hg⟩

/-- A packet that was parsed is released entirely. -/
theorem C79_ctx_packet_destroy : DestroySafe isCtxPacket (fun _ => True) hCtxPacketDestroy :=
  DestroySafe.of (pubs := fun v => v.publics) fun _ _ _ => hCtxPacketDestroy_spec fun _ h => h

/-- What is not wiped then is public. -/
theorem C83_ctx_packet_destroy : Wipes isCtxPacket (fun _ => True) CtxPacket.publics hCtxPacketDestroy :=
  Wipes.ofDestroy fun _ _ _ => hCtxPacketDestroy_spec fun _ h => h

/-! ### There are such objects -/

structure Sd where
  ctx : Addr
  payload : Addr
  nodes : Addr

def isSd (a : Addr) (_ : Unit) : Asrt := Asrt.ex fun (p1 : Addr) => Asrt.ex fun (p2 : Addr) => Asrt.ex fun (p3 : Addr) =>
  isArr isNode p3 [some toyPeerNode] ∗ (a ↦ .obj .plain [some p1, some p2, some p3]) ∗ isCtx p1 (toyCtx 4) ∗ isPayload p2 toyPayload

def mkSd : H Ptr := do
  let a ← litSenderCtx
  let b ← litToyPayload
  let n ← litPeerNode
  let c ← litArr n
  onNull (alloc (.obj .plain [a, b, c])) (do store none (Cell.raw 0); Pure.pure none) fun p => Pure.pure p

theorem mkSd_spec (c : Rules) (f : Bool) (hc : c.crash) : Triple c f emp mkSd (fun r _ => made isSd () r) := by
  unfold mkSd
  sgo

def Heap.sd (h : Heap) (a : Addr) : Option Sd :=
  match h a with
  | some (.obj .plain [some p1, some p2, some p3]) => some ⟨p1, p2, p3⟩
  | _ => none

/-- A context, a payload and an array with one recipient. -/
def Sd.In (x : Sd) (t : Heap) : Prop :=
  ∃ h, (isArr isNode x.nodes [some toyPeerNode] ∗ keep h) t ∧ Has isCtx h x.ctx (toyCtx 4) ∧ Has isPayload h x.payload toyPayload

def sdScene : Scene Sd where
  prog := mkSd
  find := Heap.sd
  In := Sd.In
  ok a s x hb hx := by
    obtain ⟨h1, h2⟩ := built_has (mkSd_spec _ _ trivial) hb
    refine ⟨h1, ?_⟩
    generalize s.heap = t at h2 hx
    unfold Has isSd at h2
    rw [Asrt.ex_star] at h2
    obtain ⟨p1, h2⟩ := h2
    rw [Asrt.ex_star] at h2
    obtain ⟨p2, h2⟩ := h2
    rw [Asrt.ex_star] at h2
    obtain ⟨p3, h2⟩ := h2
    rw [Asrt.star_assoc] at h2
    have ha : t a = some (.obj .plain [some p1, some p2, some p3]) := by
      refine view_cell (Asrt.star_mono_r (F := isArr isNode p3 [some toyPeerNode] ∗ (isCtx p1 (toyCtx 4) ∗ isPayload p2 toyPayload) ∗ any)
        (fun _ _ => trivial) ?_)
      revert h2
      clear hx
      revert t
      sentail
    obtain ⟨t1, t2, d, e, g1, g2⟩ := h2
    have hc : Has isCtx t2 p1 (toyCtx 4) := by
      unfold Has
      refine Asrt.star_mono_r (F := (a ↦ .obj .plain [some p1, some p2, some p3]) ∗ isPayload p2 toyPayload ∗ any) (fun _ _ => trivial) ?_
      revert g2
      clear d e
      revert t2
      sentail
    have hp : Has isPayload t2 p2 toyPayload := by
      unfold Has
      refine Asrt.star_mono_r (F := (a ↦ .obj .plain [some p1, some p2, some p3]) ∗ isCtx p1 (toyCtx 4) ∗ any) (fun _ _ => trivial) ?_
      revert g2
      clear d e hc
      revert t2
      sentail
    simp only [Heap.sd, ha, Option.some.injEq] at hx
    subst hx
    exact ⟨t2, ⟨t1, t2, d, e, g1, rfl⟩, hc, hp⟩

abbrev sdProg (x : Sd) : H Ptr := hCtxEncode toyEngine (some x.ctx) (some x.payload) (some x.nodes) toyPk .p521 (toyKey 41).pub
  ((toyKey 41).pri.getD []) toyRnd

abbrev sdArgs (x : Sd) (h : Heap) : Prop := Has isCtx h x.ctx (toyCtx 4) ∧ Has isPayload h x.payload toyPayload

example : ∃ (s : St) (x : Sd) (h : Heap), s.oom = false ∧ sdArgs x h ∧ (isArr isNode x.nodes [some toyPeerNode] ∗ keep h) s.heap := by
  obtain ⟨x, s, h1, ⟨h, h2, h3⟩, -⟩ := sdScene.run (P := fun _ _ => true) (by decide +kernel)
  exact ⟨s, x, h, h1, h3, h2⟩

example : AllHonest toyEngine [some toyPeerNode] := by
  intro n hn
  simp at hn
  subst hn
  exact ⟨fun _ _ h => (nomatch h), fun _ _ _ h => (nomatch h)⟩

example : AllGenuine toyEngine [some toyPeerNode] :=
  (outcome_rec (ok := true) (by
    intro n hn
    simp at hn
    subst hn
    exact ⟨fun _ _ h => (nomatch h), fun _ _ _ h => (nomatch h)⟩)
    (by have := recOutcome_value (E := toyEngine) [some toyPeerNode]
        rw [show (recipientsValidate toyEngine [some toyPeerNode]).2 = true by decide +kernel] at this
        exact this)).1.1 rfl

/-- The packet exists: there is a run that makes it, and the one with a recipient whose ephemeral key nobody signed makes none. -/
example : ∃ m, (ctxEncode toyEngine (toyCtx 4) toyPayload [some toyPeerNode] toyPk (toyKey 41) toyRnd).2 = .ok m := by
  exact ⟨_, (by decide +kernel : (ctxEncode toyEngine (toyCtx 4) toyPayload [some toyPeerNode] toyPk (toyKey 41) toyRnd).2 = .ok ⟨toyPk, toyMsg⟩)⟩

example : (ctxEncode toyEngine (toyCtx 4) toyPayload [some { toyPeerNode with eph := some ⟨77, toyKey 32, some (toyEphSig 23 31)⟩ }] toyPk
    (toyKey 41) toyRnd).2 = .null := by decide +kernel

example : sdScene.tests (fun x s => match sdProg x (bump []) s with | .ret (some _) s' => !s'.oom | _ => false) = true := by decide +kernel

/-- It is made although an allocation fails in verifying the recipient. -/
example : sdScene.tests (fun x s => match sdProg x (bump [84]) s with | .ret (some _) s' => s'.oom | _ => false) = true := by decide +kernel

/-! ### What does not hold -/

/-- With no memory NULL is dereferenced. -/
theorem C93_ctx_encode_not_sturdy : ¬ ∀ x, UpdatesSturdily (sdArgs x) (isArr isNode) x.nodes [some toyPeerNode] (sdProg x) := by
  intro h
  obtain ⟨x, s, h1, ⟨t, h2, h3⟩, h4⟩ := sdScene.run (P := fun x s => (sdProg x (bump [83]) s).isCrash) (by decide +kernel)
  have := h x (bump [83]) s t h1 h3 h2
  revert this h4
  cases sdProg x (bump [83]) s with
  | ub => exact fun h => nomatch h
  | ret r s' => exact fun h => nomatch h
  | crash s' => exact fun _ h => h s' rfl

/-- Without memory for a cipher key the key derived for a recipient is released as it is. -/
theorem C93_ctx_encode_not_wiped : ¬ ∀ x, UpdatesDiscreetly (sdArgs x) (isArr isNode) x.nodes [some toyPeerNode]
    (sendPubs toyEngine (toyCtx 4).headerKey toyPk (toyKey 41) toyPayload [some toyPeerNode] (toyCtx 4).chain (toyCtx 4).version toyRnd ++ toyMsg.publics)
    (sdProg x) := by
  intro h
  obtain ⟨x, s, h1, ⟨t, h2, h3⟩, h4⟩ := sdScene.run (P := fun x s => Out.spilled (sendPubs toyEngine (toyCtx 4).headerKey toyPk (toyKey 41)
    toyPayload [some toyPeerNode] (toyCtx 4).chain (toyCtx 4).version toyRnd ++ toyMsg.publics) s (sdProg x (bump [110]) s)) (by decide +kernel)
  exact Scene.spilled_not h4 (h x (bump [110]) s t h1 h3 h2)

end Wickr
