import Verif.Lemmas.SepTransport
import Verif.Lemmas.Owned
import Verif.Lemmas.ViewSpecs
import Verif.Lemmas.SceneProto
import Verif.Props.VerifyMem
import Verif.Props.TransportSign
import Verif.Spec.Handshake
/-
C86-C88 for transport packets, and C95: signing and verifying them in memory.
-/
namespace Wickr
open Asrt Spec

variable {E : Engine}

theorem tpkt_serialize_vs (a : Addr) (v : Packet) :
    ViewSpec (onlyStrict [pktMetaSerialize v.hdr]) (fun h => Has isTPkt h a v) (gives isBuf (pktSerialize v)) (hTPktSerialize (some a)) :=
  fun f h ha => hTPktSerialize_view _ f h a v (by simp) ha

theorem tpkt_copy_vs (a : Addr) (v : Packet) :
    ViewSpec (onlyStrict v.publics) (fun h => Has isTPkt h a v) (gives isTPkt (some v.plain)) (hTPktCopy (some a)) := by
  intro f h ha
  refine Triple.conseq (hTPktCopy_view _ f h a v (fun b hb => hb) ha) (fun _ h => h) fun r f' x _ hx => ?_
  refine Asrt.star_mono_r (fun y hy => ?_) hx
  cases r with
  | none => exact ⟨Or.inl hy.1, hy.2⟩
  | some q => exact ⟨v.plain, Asrt.pure_star.2 ⟨rfl, hy⟩⟩

/-- The two pieces of a received packet. -/
def tpktPieces (b : Bytes) : List Bytes :=
  (List.range (b.length + 1)).flatMap fun s => (List.range (b.length + 1)).flatMap fun n => (copySection b s n).toList

theorem tpkt_parse_vs (a : Addr) (b : Bytes) :
    ViewSpec (onlyStrict (tpktPieces b)) (fun h => Has isBuf h a b) (gives isTPkt (pktFromBuffer b)) (hTPktFromBuffer (some a)) := by
  intro f h ha
  refine hTPktFromBuffer_view _ f h a b (fun s n x hx => ?_) ha
  have := copySection_some hx
  refine List.mem_flatMap.2 ⟨s, List.mem_range.2 (by omega), List.mem_flatMap.2 ⟨n, List.mem_range.2 (by omega), by simp [hx]⟩⟩

/-- `wickr_transport_packet_serialize`. -/
theorem C86_tpkt_serialize (a : Addr) (v : Packet) :
    Computes (fun h => Has isTPkt h a v) isBuf (pktSerialize v) (hTPktSerialize (some a)) := Computes.of (tpkt_serialize_vs a v)
theorem C87_tpkt_serialize (a : Addr) (v : Packet) :
    Tidy (fun h => Has isTPkt h a v) isBuf (hTPktSerialize (some a)) := Tidy.of (tpkt_serialize_vs a v)
theorem C87_tpkt_serialize_sturdy (a : Addr) (v : Packet) :
    Sturdy (fun h => Has isTPkt h a v) (hTPktSerialize (some a)) := Sturdy.of (tpkt_serialize_vs a v) (fun h => h)
/-- Only the header is released unwiped. -/
theorem C88_tpkt_serialize (a : Addr) (v : Packet) :
    Discreet (fun h => Has isTPkt h a v) [pktMetaSerialize v.hdr] (hTPktSerialize (some a)) :=
  Discreet.of (tpkt_serialize_vs a v) fun _ h => h

/-- `wickr_transport_packet_copy`: everything but the bytes the packet was received as. -/
theorem C86_tpkt_copy (a : Addr) (v : Packet) :
    Computes (fun h => Has isTPkt h a v) isTPkt (some { v with network := none }) (hTPktCopy (some a)) := Computes.of (tpkt_copy_vs a v)
theorem C87_tpkt_copy (a : Addr) (v : Packet) :
    Tidy (fun h => Has isTPkt h a v) isTPkt (hTPktCopy (some a)) := Tidy.of (tpkt_copy_vs a v)
theorem C87_tpkt_copy_sturdy (a : Addr) (v : Packet) :
    Sturdy (fun h => Has isTPkt h a v) (hTPktCopy (some a)) := Sturdy.of (tpkt_copy_vs a v) (fun h => h)

/-- `wickr_transport_packet_create_from_buffer`. -/
theorem C86_tpkt_parse (a : Addr) (b : Bytes) :
    Computes (fun h => Has isBuf h a b) isTPkt (pktFromBuffer b) (hTPktFromBuffer (some a)) := Computes.of (tpkt_parse_vs a b)
theorem C87_tpkt_parse (a : Addr) (b : Bytes) :
    Tidy (fun h => Has isBuf h a b) isTPkt (hTPktFromBuffer (some a)) := Tidy.of (tpkt_parse_vs a b)
theorem C87_tpkt_parse_sturdy (a : Addr) (b : Bytes) :
    Sturdy (fun h => Has isBuf h a b) (hTPktFromBuffer (some a)) := Sturdy.of (tpkt_parse_vs a b) (fun h => h)

/-- The hypotheses are met: a packet in memory, and the packet is parsed from its bytes. -/
example : (pktFromBuffer ((pktSerialize ⟨⟨.handshake 1 0, 0⟩, [1, 2], none, none⟩).getD [])).isSome = true := by decide +kernel

/-! ### Verification -/

theorem signed_of_check {p : Packet} {k : EcKey} {mac net : Bytes} {s : EcdsaResult} (hm : p.hdr.mac = macP521) (h1 : p.mac = some mac)
    (h2 : p.network = some net ∨ p.network = none ∧ pktSerialize p = some net) (h3 : mac.length < net.length)
    (h4 : ecdsaFromBuffer mac = some s) (h5 : E.verify s k (net.take (net.length - mac.length)) = true) : PacketSigned E p k :=
  ⟨hm, net, net.take (net.length - mac.length), mac, s, h2, h1, by simp; omega,
    by intro h; have := congrArg List.length h; simp at this; omega, List.take_prefix _ _, h4, h5⟩

/-- The value model says yes exactly if the packet is authentic. -/
theorem verify_authentic {p : Packet} {ch : Chain} (hh : ChainHonest E ch) : (pktVerify E p ch).2.2 = true ↔ Authentic E p ch := by
  have ho : ChainOutcome E ch (chainValidate E ch).2 false (chainValidate E ch).1 := by
    refine ⟨?_, fun _ => rfl⟩
    unfold chainValidate
    cases hc : chainHasValidCache E ch with
    | true => exact Or.inl ⟨rfl, by simp, by simp⟩
    | false =>
      refine Or.inr ⟨by simp, (chainUpdateCache E { ch with status := if E.verifyOpt ch.node.sig ch.root.key ch.node.key.pub then .valid else .invalid }).cache, ?_, ?_⟩
      · simp [chainUpdateCache]
      · simp [chainUpdateCache]
  obtain ⟨hg, -, hk, -⟩ := outcome_chain hh ho
  have hb : ∀ net, p.bytes = some net ↔ (p.network = some net ∨ p.network = none ∧ pktSerialize p = some net) := by
    intro net
    unfold Packet.bytes
    cases p.network <;> simp
  cases hm : p.mac with
  | none =>
    refine ⟨fun h => by simp [pktVerify, hm] at h, ?_⟩
    rintro ⟨-, -, net, pre, mac, s, -, h, -⟩
    simp [hm] at h
  | some mac =>
    by_cases ht : p.hdr.mac = macP521
    · cases hn : p.bytes with
      | none =>
        refine ⟨fun h => by simp [pktVerify_none hm ht hn] at h, ?_⟩
        rintro ⟨-, -, net, pre, mac, s, h, -⟩
        rw [← hb, hn] at h
        simp at h
      | some net =>
        rw [pktVerify_eq hm ht hn]
        have hn' := (hb net).1 hn
        dsimp only
        constructor
        · intro h
          split at h
          · exact nomatch h
          split at h
          · exact nomatch h
          rename_i h1 h2
          cases hs : ecdsaFromBuffer mac with
          | none => simp [hs] at h
          | some s =>
            simp only [hs, hk.2] at h
            exact ⟨hg.1 (by simpa using h1), signed_of_check ht hm hn' (by omega) hs h⟩
        · rintro ⟨hgen, -, net', pre, mac', s, h1, h2, h3, h4, h5, h6, h7⟩
          rw [← hb, hn] at h1
          cases h1
          rw [hm] at h2
          cases h2
          have hne : 0 < pre.length := List.length_pos_iff.2 h4
          have hpre : net.take (net.length - mac.length) = pre := by
            obtain ⟨t, rfl⟩ := h5
            have : (pre ++ t).length - mac.length = pre.length := by omega
            rw [this]; simp
          have hl : ¬ net.length ≤ mac.length := by omega
          simp only [hg.2 hgen, hl, if_false, h6, hk.2, hpre, h7, Bool.not_true, Bool.false_eq_true]
    · refine ⟨fun h => by simp [pktVerify, hm, ht] at h, fun h => absurd h.2.1 ht⟩

/-- `wickr_transport_packet_verify` on a packet and a chain whose stored result tells the truth, whatever the allocator does: yes means
that the root vouches for the node and the node signed the packet; if no allocation fails, no means that it is not so.  The bytes of
the packet may be filled in, the chain keeps its identities and a truthful stored result, and nothing else changes in memory. -/
theorem C95_verify (hE : E.Fits) (a b : Addr) (p : Packet) (ch : Chain) (hh : ChainHonest E ch) :
    Transforms (fun _ => True) (isTPkt a p ∗ isChain b ch)
      (fun ok f (x : Packet × Chain) => (ok = true → Authentic E p ch) ∧ (f = false → Authentic E p ch → ok = true) ∧
        (x.1 = p ∨ p.network = none ∧ ∃ net, pktSerialize p = some net ∧ x.1 = { p with network := some net }) ∧
        SameKeys ch x.2 ∧ ChainHonest E x.2)
      (fun _ _ x => isTPkt a x.1 ∗ isChain b x.2) (hTPktVerify E (some a) (some b)) := by
  refine Transforms.mono (Transforms.of0 (hTPktVerify_spec hE anyRules false trivial a b p ch trivial (fun _ _ _ _ => trivial)
    (chain_shown ch))) ?_
  rintro ok f ⟨p', ch'⟩ ⟨h1, h2, h3, h4⟩
  have hc : ∀ {cok}, CheckOutcome.ChainAfter E ch cok ch' → ChainOutcome E ch cok true ch' := fun h => ⟨h, fun h => nomatch h⟩
  refine ⟨?_, ?_, h1, ?_⟩
  · intro hok
    obtain ⟨g1, g2, mac, net, s, g3, g4, g5, g6, g7⟩ := h3 hok
    exact ⟨(outcome_chain hh (hc g1)).1.1 rfl, signed_of_check g2 g3 g4 g5 g6 g7⟩
  · intro hf ha
    have := h4 hf
    have h5 := (verify_authentic hh).2 ha
    rw [← this] at h5
    exact h5
  · rcases h2 with rfl | ⟨cok, h2⟩
    · exact ⟨⟨rfl, rfl⟩, hh⟩
    · obtain ⟨-, h3, h4, -⟩ := outcome_chain hh (hc h2)
      exact ⟨h4, h3⟩

/-! ### Signing -/

/-- `wickr_transport_packet_sign` on a packet that has no signature, whatever the allocator does: if it reports success, the packet has the
signature of the node over the bytes before it, and these are the bytes to send; the signature is written as it should be or, only if
an allocation failed, without its padding.  If no allocation fails, packet and answer are those of the value model. -/
theorem C95_sign (hE : E.Fits) (a b : Addr) (p : Packet) (ch : Chain) (nonce : Bytes) (hm : p.mac = none) (hn : p.network = none) :
    Transforms (fun h => Has isChain h b ch) (isTPkt a p)
      (fun ok f p' => (ok = true → p'.hdr = { p.hdr with mac := 2 } ∧ p'.body = p.body ∧
          ∃ pre mac s w, p'.network = some (pre ++ mac) ∧ p'.mac = some mac ∧ pktSerialize { p' with mac := none } = some pre ∧
            E.sign ch.node.key pre .sha512 nonce = some s ∧ ecdsaSerialize s = some w ∧ (mac = w ∨ f = true ∧ ecdsaBare s = some mac)) ∧
        (f = false → (p', ok) = pktSign E p ch nonce))
      (fun _ _ p' => isTPkt a p') (hTPktSign E (some a) (some b) nonce) := by
  refine Transforms.mono (Transforms.of fun h hb => hTPktSign_view hE anyRules false trivial h a b p ch nonce hm hn trivial
    (fun _ _ => ⟨trivial, fun _ _ => trivial⟩) hb) ?_
  rintro ok f p' ⟨h1, h2, h3⟩
  refine ⟨fun hok => ?_, h3⟩
  obtain ⟨d, s, w, sb, net, g1, g2, g3, g4, g5, rfl⟩ := h1 hok
  refine ⟨rfl, rfl, d, sb, s, w, ?_, rfl, ?_, ?_, g3, ?_⟩
  · have e1 := (concatMulti_some.1 g1).1
    have e2 := (concatMulti_some.1 g5).1
    simp only [e1, e2]
    simp [Packet.announced, hm, optBytes]
  · rw [← g1]; simp [Packet.announced, hm]; rfl
  · unfold identitySign at g2
    split at g2
    · exact nomatch g2
    · exact g2
  · exact g4

/-- From empty memory: a chain and a packet are made, the packet is signed `n` times, and all is released. -/
def signTimes (E : Engine) (n : Nat) : H Bool := do
  let ch ← litChain toyChain
  let b ← litBuf [1, 2]
  let p ← hTPktCreate ⟨.handshake 1 0, 0⟩ b
  let ok ← go p ch n
  let _ ← hTPktDestroy p
  let _ ← hChainDestroy ch
  pure ok
where
  go (p ch : Ptr) : Nat → H Bool
    | 0 => pure true
    | n + 1 => do
      let ok ← hTPktSign E p ch [9]
      if ok then go p ch n else pure false

/-- The blocks below `n` that are in use. -/
def St.used (s : St) (n : Nat) : List Addr := (List.range n).filter fun a => (s.heap a).isSome

def Out.state? : Out α → Option (α × St)
  | .ret r s => some (r, s)
  | _ => none

/-- A packet that is signed once is released completely; a second signature takes the place of the first, which is never released, and
so do the bytes to send. -/
theorem C95_signed_again_leaks :
    ((signTimes toyEngine 1 (bump []) St.init).state?.map fun x => (x.1, x.2.oom, x.2.used x.2.count)) = some (true, false, []) ∧
    ((signTimes toyEngine 2 (bump []) St.init).state?.map fun x => (x.1, x.2.oom, (x.2.used x.2.count).length)) = some (true, false, 4) := by
  decide +kernel

/-- From empty memory: a chain and a packet are made, the packet is signed, and the signature is checked once there is memory again. -/
def signCheck (E : Engine) (fail : List Nat) : Option (Bool × Bool) :=
  let m : H (Ptr × Ptr) := do
    let ch ← litChain toyChain
    let b ← litBuf [1, 2]
    let p ← hTPktCreate ⟨.handshake 1 0, 0⟩ b
    pure (p, ch)
  (m (bump []) St.init).state?.bind fun x =>
    (hTPktSign E x.1.1 x.1.2 [9] (bump fail) x.2).state?.bind fun y =>
      (hTPktVerify E x.1.1 x.1.2 (bump []) y.2).state?.map fun z => (y.1, z.1)

/-- With memory the signature verifies: the hypotheses of `C95_sign` and `C95_verify` are met. -/
example : signCheck toyEngine [] = some (true, true) := by decide +kernel

/-- Without memory for the padding of the signature, signing reports success, and the packet is one that nobody accepts. -/
theorem C95_sign_unpadded : signCheck toyEngine [30] = some (true, false) := by decide +kernel

end Wickr
