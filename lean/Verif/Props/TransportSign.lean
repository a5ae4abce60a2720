import Verif.Model.TransportSign
import Verif.Props.IdentityCodec
/-
C15: signatures of transport packets.
-/
set_option linter.unusedSimpArgs false
namespace Wickr
open Spec

theorem wf_mac_len {p : Packet} (h : WfPacket p) {m : Bytes} (hm : p.mac = some m)
    (ht : p.hdr.mac = macP521) : m.length = 143 := by
  have := h.2.2
  simp only [hm, ht] at this
  simpa [macP521] using this

/-- C15, exactly.  For every byte string the peer may send and every chain: verification of the
parsed packet succeeds if and only if the header announces a P-521 signature, the chain validates,
and the last 143 bytes parse as a signature that the chain's node key verifies over all bytes before
them. -/
theorem C15_verify_iff (E : Engine) (b : Bytes) (hb : b.length ≤ maxBuffer) (p : Packet)
    (hp : pktFromBuffer b = some p) (c : Chain) :
    (pktVerify E p c).2.2 = true ↔
      p.hdr.mac = 2 ∧ (chainValidate E c).2 = true ∧
      ∃ pre mac s, b = pre ++ mac ∧ mac.length = 143 ∧ pre ≠ [] ∧ ecdsaFromBuffer mac = some s ∧
        E.verify s c.node.key pre = true := by
  obtain ⟨hw, hnet, hser⟩ := C14_packet_reserialize b hb p hp
  have hnode : (chainValidate E c).1.node = c.node := by
    unfold chainValidate; split <;> rfl
  unfold pktVerify
  cases hm : p.mac with
  | none =>
    have hno : p.hdr.mac ≠ 2 := by
      have := hw.2.2
      intro h2
      simp [hm, h2, macP521] at this
    simp [hno]
  | some mac =>
    simp only [hnet]
    by_cases hmac : p.hdr.mac ≠ macP521
    · rw [if_pos hmac]
      simp only [Bool.false_eq_true, false_iff]
      intro h; exact hmac h.1
    · rw [if_neg hmac]
      have hmac' : p.hdr.mac = macP521 := Decidable.byContradiction hmac
      have hml := wf_mac_len hw hm hmac'
      have hsplit : ∃ pre, b = pre ++ mac ∧ pre ≠ [] := by
        have := (concatMulti_some.1 hser).1
        refine ⟨pktMetaSerialize p.hdr ++ p.body, ?_, ?_⟩
        · rw [this]; simp [hm, optBytes]
        · simp [hw.2.1]
      obtain ⟨pre, hpre, hne⟩ := hsplit
      have hlen : 0 < pre.length := List.length_pos_iff.2 hne
      rcases hcv : chainValidate E c with ⟨c', ok⟩
      rw [hcv] at hnode
      cases ok with
      | false => simp
      | true =>
        have hgt : ¬ (b.length ≤ mac.length) := by rw [hpre, List.length_append]; omega
        have htake : b.take (b.length - mac.length) = pre := by
          rw [hpre]; simp
        simp only [Bool.not_true, Bool.false_eq_true, if_false, if_neg hgt, htake]
        simp only at hnode
        have huniq : ∀ pre' mac' : Bytes, b = pre' ++ mac' → mac'.length = 143 → pre' = pre ∧ mac' = mac := by
          intro pre' mac' h1 h2
          rw [hpre] at h1
          have := List.append_inj' h1 (by rw [hml, h2])
          exact ⟨this.1.symm, this.2.symm⟩
        constructor
        · intro h
          cases hs : ecdsaFromBuffer mac with
          | none => simp [hs] at h
          | some s =>
            simp only [hs] at h
            refine ⟨hmac', trivial, pre, mac, s, hpre, hml, hne, hs, ?_⟩
            rw [← hnode]; exact h
        · rintro ⟨_, _, pre', mac', s, h1, h2, _, h3, h4⟩
          obtain ⟨e1, e2⟩ := huniq pre' mac' h1 h2
          subst e1; subst e2
          simp only [h3]
          rw [hnode]; exact h4

/-- Validation of a chain without a cache is a fresh verification. -/
theorem chainValidate_fresh {E : Engine} {c : Chain} (h : c.cache = none) :
    (chainValidate E c).2 = true ↔ ChainGenuine E c := by
  unfold chainValidate chainHasValidCache
  simp [h, ← verifyOpt_iff, ChainGenuine]

/-- C15, soundness spelled out for a freshly received chain. -/
theorem C15_verify_sound (E : Engine) (b : Bytes) (hb : b.length ≤ maxBuffer) (p : Packet)
    (hp : pktFromBuffer b = some p) (c : Chain) (hc : c.cache = none)
    (h : (pktVerify E p c).2.2 = true) :
    ChainGenuine E c ∧ ∃ pre mac s, b = pre ++ mac ∧ mac.length = 143 ∧
      ecdsaFromBuffer mac = some s ∧ E.verify s c.node.key pre = true := by
  obtain ⟨_, h2, pre, mac, s, h3, h4, _, h5, h6⟩ := (C15_verify_iff E b hb p hp c).1 h
  exact ⟨(chainValidate_fresh hc).1 h2, pre, mac, s, h3, h4, h5, h6⟩

/-- C15, completeness: an unsigned packet signed once with a genuine chain, serialized and parsed
by any peer who holds a genuine chain with the same node key, verifies; header and body arrive
unchanged. -/
theorem C15_sign_verify (E : Engine) (hE : E.Lawful) (p : Packet) (hmac : p.mac = none)
    (hb0 : p.body ≠ []) (hsz : p.body.length ≤ 1000000000) (c : Chain) (hk : E.KeyPair c.node.key)
    (nonce : Bytes) :
    ∃ q b q', pktSign E p c nonce = (q, true) ∧ q.network = some b ∧ pktSerialize q = some b ∧
      pktFromBuffer b = some q' ∧ q'.body = p.body ∧ q'.hdr = { p.hdr with mac := 2 } ∧
      b.length ≤ 11 + p.body.length + 143 ∧
      ∀ c' : Chain, c'.node.key.pub = c.node.key.pub → (chainValidate E c').2 = true →
        (pktVerify E q' c').2.2 = true ∧ (pktVerify E q c').2.2 = true := by
  have hmb := maxBuffer_val
  obtain ⟨hdr, body, mac, net⟩ := p
  simp only at hmac hb0 hsz
  subst hmac
  have hbl : 0 < body.length := List.length_pos_iff.2 hb0
  have hml : (pktMetaSerialize { hdr with mac := macP521 }).length ≤ 10 := by
    unfold pktMetaSerialize; cases hdr.body <;> simp [le64_length]
  have hms : 0 < (pktMetaSerialize { hdr with mac := macP521 }).length := by
    unfold pktMetaSerialize; cases hdr.body <;> simp
  -- the bytes that are signed
  have hpre : pktSerialize ⟨{ hdr with mac := macP521 }, body, none, net⟩ =
      some (pktMetaSerialize { hdr with mac := macP521 } ++ body) := by
    apply concatMulti_some.2
    refine ⟨by simp [optBytes], ?_, ?_⟩ <;> simp only [List.length_append] <;> omega
  obtain ⟨pri, hpri, _⟩ := hk.pri
  obtain ⟨s, hs1, hs2, hs3, hs4, hs5, hs6⟩ := hE.sign_verify c.node.key
    (pktMetaSerialize { hdr with mac := macP521 } ++ body) .sha512 nonce hk
  obtain ⟨sb, hsb, hsbl, hsp⟩ := ecdsa_ok (s := s) ⟨hs4, by rw [hs2]; exact hs5⟩
  have hsign : identitySign E c.node (pktMetaSerialize { hdr with mac := macP521 } ++ body) nonce =
      some s := by simp [identitySign, hpri, hs1]
  let full := pktMetaSerialize { hdr with mac := macP521 } ++ body ++ sb
  have hfull : ∀ net, pktSerialize ⟨{ hdr with mac := macP521 }, body, some sb, net⟩ = some full := by
    intro net
    apply concatMulti_some.2
    refine ⟨by simp [optBytes, full], ?_, ?_⟩ <;> simp only [full, List.length_append] <;> omega
  have hq : pktSign E ⟨hdr, body, none, net⟩ c nonce =
      (⟨{ hdr with mac := macP521 }, body, some sb, some full⟩, true) := by
    unfold pktSign
    simp only [hpre, hsign, Option.bind_some, hsb, hfull, Option.isSome_some]
  have hwf : WfPacket ⟨{ hdr with mac := macP521 }, body, some sb, none⟩ := by
    refine ⟨show (2 : UInt8).toNat < 16 by decide, hb0, ?_⟩
    simp [macP521, hsbl]
  have hlay := C14_packet_round_trip ⟨{ hdr with mac := macP521 }, body, some sb, none⟩ hwf
  have hlayeq : pktLayout ⟨{ hdr with mac := macP521 }, body, some sb, none⟩ = full := by
    have h16 : (macP521 : UInt8).toNat < 16 := by decide
    simp [pktLayout, full, ← pktHdr_eq { hdr with mac := macP521 } h16, opt]
  have hfl : full.length ≤ maxBuffer := by simp only [full, List.length_append]; omega
  rw [hlayeq] at hlay
  have hparse := (hlay hfl).2
  have hfinal : ∀ c' : Chain, c'.node.key.pub = c.node.key.pub → (chainValidate E c').2 = true →
      (pktVerify E ⟨{ hdr with mac := macP521 }, body, some sb, some full⟩ c').2.2 = true := by
    intro c' hc' hv
    rw [C15_verify_iff E full hfl _ hparse]
    refine ⟨rfl, hv, _, sb, s, rfl, hsbl, ?_, hsp, hs6 _ hc'⟩
    simp [hb0]
  refine ⟨_, full, _, hq, rfl, hfull _, hparse, rfl, rfl, ?_, fun c' h1 h2 => ⟨hfinal c' h1 h2, hfinal c' h1 h2⟩⟩
  simp only [full, List.length_append]; omega

set_option maxRecDepth 8192 in
/-- The hypotheses are met by a concrete packet, and the signature really depends on the header. -/
example : let p : Packet := pktCreate (metaInitHandshake 1 macNone) [1, 2, 3]
    let q := (pktSign toyEngine p toyChain []).1
    (pktSign toyEngine p toyChain []).2 = true ∧
    ((q.network.bind pktFromBuffer).map fun q' => (pktVerify toyEngine q' toyChain).2.2) = some true ∧
    ((q.network.bind fun b => pktFromBuffer (b.set 1 9)).map
      fun q' => (pktVerify toyEngine q' toyChain).2.2) = some false := by decide

set_option maxRecDepth 8192 in
/-- Signing is not idempotent: a packet that already carries a signature is signed including that
signature, while verification covers only what precedes the MAC; so a packet signed twice reports
success and does not verify.  This is why `C15_sign_verify` asks for an unsigned packet. -/
theorem C15_resigned_packet_fails : ∃ (p : Packet) (c : Chain),
    (pktSign toyEngine p c []).2 = true ∧
    (pktSign toyEngine (pktSign toyEngine p c []).1 c []).2 = true ∧
    (pktVerify toyEngine (pktSign toyEngine p c []).1 c).2.2 = true ∧
    (pktVerify toyEngine (pktSign toyEngine (pktSign toyEngine p c []).1 c []).1 c).2.2 = false :=
  ⟨pktCreate (metaInitHandshake 1 macNone) [1, 2, 3], toyChain, by decide, by decide, by decide,
    by decide⟩

end Wickr
