import Verif.Props.MessageE2E
import Verif.Props.HonestHandshake
set_option linter.unusedSimpArgs false
/-
Concrete runs and counterexamples for C35 to C39; C61: creating packets is not always defined.
-/
namespace Wickr
open Spec

/-! ### Toy parties -/

def toyDev : DevInfo := ⟨[1, 1], some [2], [9, 9], [3]⟩
def toyPeerDev : DevInfo := ⟨[1, 2], some [2], [8, 8], [3]⟩
def toyStorage : StorageKeys := ⟨⟨.gcm, List.replicate 32 1⟩, ⟨.gcm, List.replicate 32 2⟩⟩
/-- The sender's context. -/
def toyCtx (version : UInt8) : Ctx :=
  ⟨toyDev, toyChain, toyStorage, (genHeaderKey toyEngine .gcm toyChain).getD ⟨.gcm, []⟩, version⟩
/-- The peer's context, and the node it is addressed by. -/
def toyPeerCtx : Ctx := ⟨toyPeerDev, toyPeer, toyStorage, ⟨.gcm, []⟩, 4⟩
def toyEphSig (node eph : UInt8) : EcdsaResult := ⟨.p521, .sha512, [node, 3, toySum [0, eph]]⟩
def toyPeerNode : Node :=
  nodeCreate [8, 8] toyPeerPublic (some ⟨77, { toyKey 31 with pri := none }, some (toyEphSig 23 31)⟩)
def toyRnd : MsgRand := ⟨fun i => List.replicate 16 (UInt8.ofNat i), List.replicate 12 4, List.replicate 12 5, []⟩
def toyPk : CipherKey := ⟨.gcm, List.replicate 31 9 ++ [1]⟩
def toyPayload : Payload := ⟨⟨5, 6, [1, 2, 3], 7⟩, [10, 20, 30]⟩

theorem toyCtx_sender (v : UInt8) (h : 2 ≤ v.toNat ∧ v.toNat ≤ 4) : Sender toyEngine (toyCtx v) :=
  ⟨h, show genHeaderKey toyEngine .gcm toyChain = some ((genHeaderKey toyEngine .gcm toyChain).getD ⟨.gcm, []⟩) by
      decide +kernel, toyKey_pair 7 (by decide), show 0 < toyChain.root.key.pub.length ∧ toyChain.root.key.pub.length ≤ 134 by decide⟩

theorem toyPeerNode_recipient : Recipient toyEngine toyPeerNode (toyKey 31) :=
  ⟨by decide +kernel, ⟨_, rfl, rfl⟩, toyKey_pair 31 (by decide), by decide, by decide, by decide⟩

theorem toyNode_recipient : Recipient toyEngine toyNode (toyKey 11) :=
  ⟨by decide +kernel, ⟨_, rfl, rfl⟩, toyKey_pair 11 (by decide), by decide, by decide, by decide⟩

theorem toy_goodRand : GoodRand toyEngine toyPk (toyKey 41) toyRnd :=
  ⟨rfl, by decide, toyKey_pair 41 (by decide), fun i => by simp [toyRnd], by decide, by decide⟩

theorem toyChain_view : ViewOf toyChain toyChain := ⟨rfl, rfl, rfl, rfl, by decide +kernel⟩

/-- The hypotheses of C35, C36 and C38 are met: two recipients, every version. -/
example (v : UInt8) (h : 2 ≤ v.toNat ∧ v.toNat ≤ 4) :
    ∃ m b, (ctxEncode toyEngine (toyCtx v) toyPayload [some toyPeerNode, some toyNode] toyPk (toyKey 41) toyRnd).2 =
        .ok ⟨toyPk, m⟩ ∧ msgSerialize m = some b ∧
      ∃ pkt, ctxParse toyEngine toyPeerCtx b (some toyChain) = .ok pkt ∧ pkt.parse.err = .success ∧
        pkt.parse.sigStatus = .valid ∧
        ctxDecode toyEngine toyPeerCtx pkt (some (toyKey 31)) = .ok ⟨.success, some toyPayload, some toyPk⟩ := by
  obtain ⟨m, b, h1, h2, h3⟩ := C35_distinct_recipients_all_read toyEngine toyEngine_lawful (toyCtx v) toyPayload
    [toyPeerNode, toyNode] toyPk (toyKey 41) toyRnd (toyCtx_sender v h)
    (by
      intro n hn
      simp only [List.mem_cons, List.not_mem_nil, or_false] at hn
      rcases hn with rfl | rfl
      · exact ⟨_, toyPeerNode_recipient⟩
      · exact ⟨_, toyNode_recipient⟩)
    (by simp; decide) (by simp) toy_goodRand (by decide) (by decide) (by decide)
  exact ⟨m, b, h1, h2, h3 toyPeerNode (by simp) (toyKey 31) toyPeerCtx toyChain toyPeerNode_recipient ⟨rfl, rfl, rfl⟩
    toyChain_view⟩

/-- The bytes of a toy packet for `nodes`. -/
def toyPacket (v : UInt8) (nodes : List (Option Node)) : Option Bytes :=
  match (ctxEncode toyEngine (toyCtx v) toyPayload nodes toyPk (toyKey 41) toyRnd).2 with
  | .ok e => msgSerialize e.packet
  | _ => none

/-- What a device makes of a packet: error, signature status, decode error (if it decodes) and payload. -/
structure Readout where
  err : DecodeErr
  status : SigStatus
  decodeErr : Option DecodeErr
  payload : Option Payload
deriving DecidableEq

def toyRead (c : Ctx) (kp : EcKey) (sender : Chain) (b : Bytes) : Option Readout :=
  match ctxParse toyEngine c b (some sender) with
  | .ok p => some (match ctxDecode toyEngine c p (some kp) with
      | .ok d => ⟨p.parse.err, p.parse.sigStatus, some d.err, d.payload⟩
      | _ => ⟨p.parse.err, p.parse.sigStatus, none, none⟩)
  | _ => none

/-- Evaluated: the peer reads the packet; a third party with another identifier, or the peer with
another key, does not. -/
example :
    ((toyPacket 4 [some toyPeerNode]).bind (toyRead toyPeerCtx (toyKey 31) toyChain)) =
      some ⟨.success, .valid, some .success, some toyPayload⟩ ∧
    ((toyPacket 4 [some toyPeerNode]).bind (toyRead (toyCtx 4) (toyKey 31) toyChain)) =
      some ⟨.nodeNotFound, .valid, none, none⟩ ∧
    ((toyPacket 4 [some toyPeerNode]).bind (toyRead toyPeerCtx (toyKey 33) toyChain)) =
      some ⟨.success, .valid, some .keyExchangeFailed, none⟩ := by decide +kernel

/-! ### Counterexamples -/

/-- C35 fails for recipients that share a node identifier: both verify, the packet is created, but the
second one always finds the exchange of the first and cannot read it. -/
theorem C35_duplicate_identifier_cannot_read : ∃ (n1 n2 : Node) (kp : EcKey) (rc : Ctx) (b : Bytes),
    (∃ kp1, Recipient toyEngine n1 kp1) ∧ Recipient toyEngine n2 kp ∧ DeviceOf rc n2 ∧
    toyPacket 4 [some n1, some n2] = some b ∧
    toyRead rc kp toyChain b = some ⟨.success, .valid, some .keyExchangeFailed, none⟩ := by
  have hd : (match toyPacket 4 [some toyPeerNode,
        some { toyPeerNode with eph := some ⟨78, { toyKey 33 with pri := none }, some (toyEphSig 23 33)⟩ }] with
      | some b => toyRead toyPeerCtx (toyKey 33) toyChain b == some ⟨.success, .valid, some .keyExchangeFailed, none⟩
      | none => false) = true := by decide +kernel
  split at hd
  · next b hb =>
    exact ⟨toyPeerNode, { toyPeerNode with eph := some ⟨78, { toyKey 33 with pri := none }, some (toyEphSig 23 33)⟩ },
      toyKey 33, toyPeerCtx, b, ⟨_, toyPeerNode_recipient⟩,
      ⟨by decide +kernel, ⟨_, rfl, rfl⟩, toyKey_pair 33 (by decide), by decide, by decide, by decide⟩, ⟨rfl, rfl, rfl⟩,
      hb, by simpa using hd⟩
  · simp at hd

/-- C37: the sender's chain is taken at its word.  A packet parses and decodes with a valid signature
under a chain whose root never signed the node key: checking the chain is left to the caller. -/
theorem C37_sender_chain_not_validated : ∃ (s : Chain) (b : Bytes), ¬ ChainGenuine toyEngine s ∧
    (chainValidate toyEngine s).2 = false ∧ toyPacket 4 [some toyPeerNode] = some b ∧
    toyRead toyPeerCtx (toyKey 31) s b = some ⟨.success, .valid, some .success, some toyPayload⟩ := by
  have hd : (match toyPacket 4 [some toyPeerNode] with
      | some b => toyRead toyPeerCtx (toyKey 31) { toyChain with node := { toyChain.node with sig := none } } b ==
          some ⟨.success, .valid, some .success, some toyPayload⟩
      | none => false) = true := by decide +kernel
  split at hd
  · next b hb =>
    refine ⟨{ toyChain with node := { toyChain.node with sig := none } }, b, ?_, by decide +kernel, hb, by simpa using hd⟩
    rintro ⟨s, h, _⟩
    cases h
  · simp at hd

/-- C39: the version byte is not covered by the signature.  For every engine, changing the version of
a packet among 2, 3 and 4 (curve byte 0) leaves it acceptable, with the same content and signature and
hence the same parse result. -/
theorem C39_version_not_covered (E : Engine) (v v' : UInt8) (rest : Bytes) (m : Msg)
    (hl : rest.length + 2 ≤ maxBuffer) (hv' : 2 ≤ v'.toNat ∧ v'.toNat ≤ 4)
    (h : msgFromBuffer ([v, 0] ++ rest) = some m) :
    msgFromBuffer ([v', 0] ++ rest) = some { m with version := v' } ∧
    ∀ nodeId kg sender, parseFromPacket E { m with version := v' } nodeId kg sender = parseFromPacket E m nodeId kg sender := by
  have hlen : ∀ w : UInt8, ([w, 0] ++ rest).length = rest.length + 2 := by intro w; simp
  have hget : ∀ (w : UInt8) k, 2 ≤ k → ([w, 0] ++ rest)[k]? = rest[k - 2]? := by
    intro w k hk
    rw [List.getElem?_append_right (by simpa using hk)]; rfl
  have hdrop : ∀ (w : UInt8) k, 2 ≤ k → ([w, 0] ++ rest).drop k = rest.drop (k - 2) := by
    intro w k hk
    obtain ⟨j, rfl⟩ : ∃ j, k = j + 2 := ⟨k - 2, by omega⟩
    simp
  have hb := C16_accepts_iff ([v, 0] ++ rest) (by rw [hlen]; exact hl) m
  have hb' := C16_accepts_iff ([v', 0] ++ rest) (by rw [hlen]; exact hl) { m with version := v' }
  rw [hlen] at hb hb'
  obtain ⟨w, c, hd, pad, a1, a2, a3, a4, a5, a6, a7, a8, a9, a10, a11⟩ := hb.1 h
  refine ⟨hb'.2 ⟨v', 0, hd, pad, rfl, rfl, hv'.1, hv'.2, ?_, a6, ?_, a8, ?_, a10, ?_⟩, ?_⟩
  · split <;> simp
  · rw [hget _ _ (by omega)] at a7 ⊢; exact a7
  · rw [hget _ _ (by omega)] at a9 ⊢; exact a9
  · have hc : m.content = (([v, 0] ++ rest).drop 2).take (rest.length + 2 - 145) := by rw [a11]
    have hs : m.sig = ⟨.p521, .sha512, ([v, 0] ++ rest).drop (rest.length + 2 - 141 + pad.toNat)⟩ := by rw [a11]
    rw [hdrop _ _ (by omega)] at hc hs
    rw [hdrop _ _ (by omega), hdrop _ _ (by omega), hc, hs]
  · intro nodeId kg sender
    cases sender with
    | none => rfl
    | some s => rw [parseFromPacket_some, parseFromPacket_some]

/-- C39 is false: a received packet with one byte changed is accepted with a valid signature (here the
version, 4 to 3); nothing but the failing key exchange tells the recipient. -/
theorem C39_false : ∃ b b' : Bytes, toyPacket 4 [some toyPeerNode] = some b ∧ b ≠ b' ∧ b.length = b'.length ∧
    b.drop 1 = b'.drop 1 ∧
    toyRead toyPeerCtx (toyKey 31) toyChain b' = some ⟨.success, .valid, some .keyExchangeFailed, none⟩ := by
  have hd : (match toyPacket 4 [some toyPeerNode] with
      | some (x :: b) => x == 4 && toyRead toyPeerCtx (toyKey 31) toyChain (3 :: b) ==
          some ⟨.success, .valid, some .keyExchangeFailed, none⟩
      | _ => false) = true := by decide +kernel
  split at hd
  · next x b hb =>
    simp only [Bool.and_eq_true, beq_iff_eq] at hd
    exact ⟨x :: b, 3 :: b, hb, by rw [hd.1]; simp, rfl, rfl, hd.2⟩
  · simp at hd

/-! ### C61: creating packets -/

theorem cipherResultSerialize_none {r : CipherResult} (h : WfCipherResult r) (hs : cipherResultSerialize r = none) :
    maxBuffer < (cipherResultLayout r).length := by
  by_cases hl : (cipherResultLayout r).length ≤ maxBuffer
  · rw [(C10_cipher_result_round_trip r h hl).1] at hs; cases hs
  · omega

theorem ctxEncode_ub {E : Engine} {c : Ctx} {p : Payload} {rs : List (Option Node)} {pk : CipherKey} {ex : EcKey}
    {rnd : MsgRand} (h : (ctxEncode E c p rs pk ex rnd).2 = .ub) :
    ∃ pl, payloadEncrypt E p pk rnd.payIv = some pl ∧ cipherResultSerialize pl = none := by
  unfold ctxEncode at h
  simp only [] at h
  have hm : (msgCreate E c.headerKey pk ex p rs c.chain c.version rnd).2 = .ub := by
    cases hm : (msgCreate E c.headerKey pk ex p rs c.chain c.version rnd).2 <;> simp_all [Res.bind]
  unfold msgCreate at hm
  split at hm
  · simp at hm
  · simp only [] at hm
    split at hm
    · simp at hm
    · split at hm
      · simp at hm
      · simp only [] at hm
        split at hm
        · simp at hm
        · split at hm
          · simp at hm
          · next hd hhd =>
            split at hm
            · simp at hm
            · next pl hpl =>
              refine ⟨pl, hpl, ?_⟩
              unfold msgCreateWithComponents at hm
              cases e1 : cipherResultSerialize hd with
              | none => simp [e1] at hm
              | some hb =>
                simp only [e1] at hm
                cases e2 : cipherResultSerialize pl with
                | none => rfl
                | some pb =>
                  simp only [e2] at hm
                  cases e3 : protoPack (PPacket.pack ⟨hb, pb⟩) with
                  | none => simp [e3] at hm
                  | some ct =>
                    simp only [e3] at hm
                    cases e4 : E.sign c.chain.node.key ct (digestMatchingCurve c.chain.node.key.curve) rnd.nonce <;>
                      simp [e4] at hm

/-- C61 (what holds).  For every lawful engine, context, recipient list (with any content) and keys
and IV of legal sizes: encoding a payload whose serialization leaves 29 bytes (cipher id, IV and tag)
of the largest buffer is defined: it gives a packet or NULL.

Missing from C61: larger payloads, see the next theorem. -/
theorem C61_encode_defined_partial (E : Engine) (hE : E.Lawful) (c : Ctx) (p : Payload) (rs : List (Option Node))
    (pk : CipherKey) (ex : EcKey) (rnd : MsgRand) (hk : pk.key.length = pk.cipher.keyLen)
    (hiv : rnd.payIv.length = pk.cipher.ivLen)
    (hp : ∀ b, payloadSerialize p = some b → b.length + 29 ≤ maxBuffer) :
    (ctxEncode E c p rs pk ex rnd).2 ≠ .ub := by
  intro h
  have hmb := maxBuffer_val
  obtain ⟨pl, h1, h2⟩ := ctxEncode_ub h
  simp only [payloadEncrypt, Option.bind_eq_some_iff] at h1
  obtain ⟨b, hb, he⟩ := h1
  have hbl := hp b hb
  have hb0 : 0 < b.length := by
    simp only [payloadSerialize, protoPack] at hb
    obtain ⟨hv, rfl⟩ := dup_eq_some.1 hb
    exact hv.1
  obtain ⟨r, ct, r1, r2, r3, r4, r5, r6, _⟩ := hE.enc_dec b none pk rnd.payIv hb0 (by omega) hk hiv (by simp)
  rw [he] at r1
  cases r1
  have := cipherResultSerialize_none r4 h2
  rw [layout_len_of r4 r5] at this
  have hsz : 1 + pl.cipher.ivLen + pl.cipher.tagLen ≤ 29 := by cases pl.cipher <;> decide
  omega

/-- C61 is false.  For every lawful engine, sender and valid recipients, encoding a payload whose
serialization can be encrypted but not stored together with IV and tag dereferences NULL
(protocol.c:276). -/
theorem C61_large_payload_undefined (E : Engine) (hE : E.Lawful) (c : Ctx) (p : Payload) (ns : List Node)
    (pk : CipherKey) (ex : EcKey) (rnd : MsgRand) (hc : Sender E c) (hn : ∀ n ∈ ns, ∃ kp, Recipient E n kp)
    (h0 : ns ≠ []) (hr : GoodRand E pk ex rnd) (hl : 257 * ns.length + 1000 ≤ maxBuffer) (b : Bytes)
    (hb : payloadSerialize p = some b) (hb1 : maxBuffer < b.length + 29) (hb2 : b.length + 1 ≤ maxBuffer) :
    (ctxEncode E c p (ns.map some) pk ex rnd).2 = .ub := by
  have hmb := maxBuffer_val
  have hex := hr.ex
  have hpub := hex.pubLen
  have hmp : ex.curve.maxPub = 134 := by cases ex.curve; rfl
  obtain ⟨hk1, hk2⟩ := genHeaderKey_len hc.header
  have hval := recipientsValidate_of (E := E) (ns := ns) fun n h => by
    obtain ⟨kp, g⟩ := hn n h; exact g.verified
  obtain ⟨xs, x1, x2, x3, x4, x5⟩ := exchanges_round hE (pk := pk) (ex := ex) (iv := rnd.exIv) hc.version hc.root hex
    (by rw [hr.key, hr.cipher]; rfl) hr.exIv ns 0 hn
  have hx0 : xs ≠ [] := by
    rintro rfl
    have := congrArg List.length x2
    simp at this
    exact h0 (List.length_eq_zero_iff.1 this.symm)
  obtain ⟨hd, hct, a1, a2, a3, a4, a5, a6⟩ := C40_encrypted_round_trip E hE ex xs c.headerKey rnd.hdrIv x3 hx0 hex.pub
    (by omega) (by rw [hk2, hk1]) (by rw [hk1]; rfl) (by rw [hr.hdrIv, hk1]; rfl)
  have l1 := layout_len_of a3 a4
  rw [a2, hk1] at l1
  simp only [Cipher.ivLen, Cipher.tagLen] at l1
  obtain ⟨c1, c2⟩ := C10_cipher_result_round_trip hd a3 (by omega)
  obtain ⟨pl, ct, r1, r2, r3, r4, r5, r6, _⟩ := hE.enc_dec b none pk rnd.payIv (by omega) hb2
    (by rw [hr.key, hr.cipher]; rfl) (by rw [hr.payIv, hr.cipher]; rfl) (by simp)
  have l2 := layout_len_of r4 r5
  rw [r2, hr.cipher] at l2
  simp only [Cipher.ivLen, Cipher.tagLen] at l2
  have hnone := C10_cipher_result_too_large pl r4 (by omega)
  have hfit : ¬ ¬ arrayFits (ns.map some).length = true := by
    simp only [List.length_map, arrayFits, decide_eq_true_eq, Decidable.not_not]; omega
  have hlen : ¬ (ns.map some).length = 0 := by
    simp only [List.length_map, List.length_eq_zero_iff]; exact h0
  have hpe : payloadEncrypt E p pk rnd.payIv = some pl := by simp [payloadEncrypt, hb, r1]
  simp only [ctxEncode, msgCreate, if_neg hlen, hval, Bool.not_true, Bool.false_eq_true, if_false, if_neg hfit, x1, a1,
    hpe, msgCreateWithComponents, c1, hnone, Res.bind]

/-- The hypotheses of `C61_large_payload_undefined` are met: a toy sender, one recipient and a body of
2147483590 bytes. -/
example : ∃ p : Payload, (ctxEncode toyEngine (toyCtx 4) p [some toyPeerNode] toyPk (toyKey 41) toyRnd).2 = .ub := by
  have hmb := maxBuffer_val
  obtain ⟨body, hbl⟩ : ∃ b : Bytes, b.length = 2147483590 := ⟨List.replicate 2147483590 0, List.length_replicate⟩
  have hv : (varintEnc 2147483590).length = 5 := by decide +kernel
  have hsz : (fieldsEnc (payloadToProto ⟨toyPayload.hdr, body⟩).pack).length = 2147483611 := by
    have h1 : (payloadToProto ⟨toyPayload.hdr, body⟩).pack =
        putMsg PMeta.pack 3 (some (payloadToProto ⟨toyPayload.hdr, []⟩).hdr) ++ [⟨4, .len body⟩] := rfl
    have h2 : (fieldsEnc (putMsg PMeta.pack 3 (some (payloadToProto ⟨toyPayload.hdr, []⟩).hdr))).length = 15 := by
      decide +kernel
    rw [h1, fieldsEnc_append, List.length_append, h2]
    have h3 : (varintEnc (4 * 8 + 2)).length = 1 := by decide +kernel
    simp only [fieldsEnc, Field.enc, List.flatMap_cons, List.flatMap_nil, List.append_nil, WireVal.wireType, WireVal.payload,
      List.length_append, hbl, hv, h3]
  have hb : payloadSerialize ⟨toyPayload.hdr, body⟩ = some (fieldsEnc (payloadToProto ⟨toyPayload.hdr, body⟩).pack) := by
    unfold payloadSerialize protoPack
    exact dup_of ⟨by omega, by omega⟩
  refine ⟨⟨toyPayload.hdr, body⟩, C61_large_payload_undefined toyEngine toyEngine_lawful (toyCtx 4) _ [toyPeerNode] toyPk
    (toyKey 41) toyRnd (toyCtx_sender 4 (by decide)) ?_ (by simp) toy_goodRand (by simp; omega) _ hb (by omega) (by omega)⟩
  intro n hn
  simp only [List.mem_cons, List.not_mem_nil, or_false] at hn
  subst hn
  exact ⟨_, toyPeerNode_recipient⟩

end Wickr
