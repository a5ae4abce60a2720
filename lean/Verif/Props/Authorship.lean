import Verif.Props.ExchangeAgreement
/-
C72: whether a message can be passed off as somebody else's.
-/
namespace Wickr
open Spec

/-- Passing off a packet: read it with the author's published chain, for no recipient and without any key; encrypt the list of exchanges again
with the thief's header key; sign it and the encrypted payload with the thief's own key.  Only API functions are called. -/
def Spec.passOff (E : Engine) (b : Bytes) (author : Chain) (thief : Ctx) (iv nonce : Bytes) : Option Bytes :=
  match ctxParseNoDecode E b (some author) with
  | .ok pkt => pkt.parse.set.bind fun set => pkt.parse.payload.bind fun pl =>
      (exchangeSetEncrypt E set thief.headerKey iv).bind fun hd =>
        match msgCreateWithComponents E hd pl thief.chain.node.key pkt.packet.version nonce with
        | .ok m => msgSerialize m
        | _ => none
  | _ => none

/-- In version 2 the sender plays no part in the key of an exchange. -/
theorem kxDeriveKey_version2 (E : Engine) (s s' : Chain) (n : Node) (ex : EcKey) (x : KeyExchange) (psk : Option Bytes) :
    kxDeriveKey E s n ex x psk 2 = kxDeriveKey E s' n ex x psk 2 := rfl

/-- C72, version 2.  Any message of this version can be passed off, by anybody who has seen it and holds an identity, knowing no secret of author
or recipients: every recipient that can read the message reads it from the thief's packet too, with a valid signature of the thief. -/
theorem C72_version2_passed_off (E : Engine) (hE : E.Lawful) (c t : Ctx) (p : Payload) (ns : List Node) (pk : CipherKey) (ex : EcKey) (rnd : MsgRand)
    (hc : Sender E c) (hv2 : c.version = 2) (ht : Sender E t) (hn : ∀ n ∈ ns, ∃ kp, Recipient E n kp) (h0 : ns ≠ []) (hr : GoodRand E pk ex rnd)
    (hct : p.hdr.channelTag ≠ []) (hb : p.body ≠ []) (hs : p.hdr.channelTag.length + p.body.length + 257 * ns.length + 1000 ≤ maxBuffer)
    (author : Chain) (hauthor : ViewOf author c.chain) (iv nonce : Bytes) (hiv : iv.length = 12) :
    ∃ m b b', (ctxEncode E c p (ns.map some) pk ex rnd).2 = .ok ⟨pk, m⟩ ∧ msgSerialize m = some b ∧ passOff E b author t iv nonce = some b' ∧
      ∀ pre n post kp rc v, ns = pre ++ n :: post → (∀ q ∈ pre, q.chain.node.identifier ≠ n.chain.node.identifier) →
        Recipient E n kp → DeviceOf rc n → ViewOf v t.chain →
        ∃ pkt, ctxParse E rc b' (some v) = .ok pkt ∧ pkt.parse.err = .success ∧ pkt.parse.sigStatus = .valid ∧
          ctxDecode E rc pkt (some kp) = .ok ⟨.success, some p, some pk⟩ := by
  have hmb := maxBuffer_val
  have hex := hr.ex
  have hpub := hex.pubLen
  have hmp : ex.curve.maxPub = 134 := by cases ex.curve; rfl
  obtain ⟨hk1, hk2⟩ := genHeaderKey_len hc.header
  have hval := recipientsValidate_of (E := E) (ns := ns) fun n h => by
    obtain ⟨kp, g⟩ := hn n h; exact g.verified
  obtain ⟨xs, x1, x2, x3, x4, x5⟩ := exchanges_round hE (pk := pk) (ex := ex) (iv := rnd.exIv) hc.version hc.root hex
    (by rw [hr.key, hr.cipher]; rfl) hr.exIv ns 0 hn
  have hx0 : xs ≠ [] := by
    rintro rfl
    have := congrArg List.length x2
    simp at this
    exact h0 (List.length_eq_zero_iff.1 this.symm)
  obtain ⟨hd, hdct, a1, a2, a3, a4, a5, a6⟩ := C40_encrypted_round_trip E hE ex xs c.headerKey rnd.hdrIv x3 hx0 hex.pub
    (by omega) (by rw [hk2, hk1]) (by rw [hk1]; rfl) (by rw [hr.hdrIv, hk1]; rfl)
  obtain ⟨pl, pct, b1, b2, b3, b4, b5, b6⟩ := C41_encrypted_round_trip E hE p pk rnd.payIv hct hb (by omega)
    (by rw [hr.key, hr.cipher]; rfl) (by rw [hr.cipher]; rfl) (by rw [hr.payIv, hr.cipher]; rfl)
  have l1 := layout_len_of a3 a4
  have l2 := layout_len_of b3 b4
  rw [a2, hk1] at l1
  rw [b2, hr.cipher] at l2
  simp only [Cipher.ivLen, Cipher.tagLen] at l1 l2
  obtain ⟨c1, c2⟩ := C10_cipher_result_round_trip hd a3 (by omega)
  obtain ⟨d1, d2⟩ := C10_cipher_result_round_trip pl b3 (by omega)
  have hps := PPacket.size ⟨cipherResultLayout hd, cipherResultLayout pl⟩
  simp only at hps
  have hpk : protoPack (PPacket.pack ⟨cipherResultLayout hd, cipherResultLayout pl⟩) =
      some (fieldsEnc (PPacket.pack ⟨cipherResultLayout hd, cipherResultLayout pl⟩)) :=
    protoPack_ok (by simp [PPacket.pack, putBytes]) (by omega)
  obtain ⟨content, hcont⟩ : ∃ x, x = fieldsEnc (PPacket.pack ⟨cipherResultLayout hd, cipherResultLayout pl⟩) := ⟨_, rfl⟩
  rw [← hcont] at hpk hps
  have hc0 : 0 < content.length := by
    have := (dup_eq_some.1 hpk).1.1
    rw [hcont]; exact this
  obtain ⟨sg, s1, s2, s3, s4, s5, s6⟩ := hE.sign_verify c.chain.node.key content .sha512 rnd.nonce hc.node
  have hcurve : sg.curve.sigSize = c.chain.node.key.curve.sigSize := by rw [s2]
  have hwf : WfMsg ⟨c.version, content, sg⟩ :=
    ⟨hc.version, by simp only; intro h; simp [h] at hc0, by simp only [s3], ⟨List.length_pos_iff.1 s4, by rw [hcurve]; exact s5⟩⟩
  obtain ⟨w1, w2, w3⟩ := C16_round_trip _ hwf (by simp only; omega)
  have hfit : ¬ ¬ arrayFits (ns.map some).length = true := by
    simp only [List.length_map, arrayFits, decide_eq_true_eq, Decidable.not_not]; omega
  have hlen : ¬ (ns.map some).length = 0 := by
    simp only [List.length_map, List.length_eq_zero_iff]; exact h0
  have hmsg : msgCreate E c.headerKey pk ex p (ns.map some) c.chain c.version rnd =
      (ns.map fun n => some (nodeVerify E n).1, .ok ⟨c.version, content, sg⟩) := by
    simp only [msgCreate, if_neg hlen, hval, Bool.not_true, Bool.false_eq_true, if_false, if_neg hfit, x1, a1, b1,
      msgCreateWithComponents, c1, d1, hpk, digestMatchingCurve, s1]
  -- the thief's packet
  obtain ⟨tk1, tk2⟩ := genHeaderKey_len ht.header
  obtain ⟨hd', hdct', e1, e2, e3, e4, e5, e6⟩ := C40_encrypted_round_trip E hE { ex with pri := none } xs t.headerKey iv x3 hx0 hex.pub
    (by simp only; omega) (by rw [tk2, tk1]) (by rw [tk1]; rfl) (by rw [hiv, tk1]; rfl)
  have l3 := layout_len_of e3 e4
  rw [e2, tk1] at l3
  simp only [Cipher.ivLen, Cipher.tagLen] at l3 e5
  obtain ⟨f1, f2⟩ := C10_cipher_result_round_trip hd' e3 (by omega)
  have hps' := PPacket.size ⟨cipherResultLayout hd', cipherResultLayout pl⟩
  simp only at hps'
  have hpk' : protoPack (PPacket.pack ⟨cipherResultLayout hd', cipherResultLayout pl⟩) =
      some (fieldsEnc (PPacket.pack ⟨cipherResultLayout hd', cipherResultLayout pl⟩)) :=
    protoPack_ok (by simp [PPacket.pack, putBytes]) (by omega)
  obtain ⟨content', hcont'⟩ : ∃ x, x = fieldsEnc (PPacket.pack ⟨cipherResultLayout hd', cipherResultLayout pl⟩) := ⟨_, rfl⟩
  rw [← hcont'] at hpk' hps'
  have hc0' : 0 < content'.length := by
    have := (dup_eq_some.1 hpk').1.1
    rw [hcont']; exact this
  obtain ⟨sg', t1, t2, t3, t4, t5, t6⟩ := hE.sign_verify t.chain.node.key content' .sha512 nonce ht.node
  have hcurve' : sg'.curve.sigSize = t.chain.node.key.curve.sigSize := by rw [t2]
  have hwf' : WfMsg ⟨c.version, content', sg'⟩ :=
    ⟨hc.version, by simp only; intro h; simp [h] at hc0', by simp only [t3], ⟨List.length_pos_iff.1 t4, by rw [hcurve']; exact t5⟩⟩
  obtain ⟨y1, y2, y3⟩ := C16_round_trip _ hwf' (by simp only; omega)
  refine ⟨⟨c.version, content, sg⟩, _, msgLayout ⟨c.version, content', sg'⟩, ?_, w1, ?_, ?_⟩
  · simp only [ctxEncode, hmsg, Res.bind]
  · have hparse : parseFromPacket E ⟨c.version, content, sg⟩ none (genHeaderKey E) (some author) =
        .ok ⟨.success, .valid, some ⟨{ ex with pri := none }, xs.map some⟩, none, some pl⟩ := by
      rw [parseFromPacket_some, s6 author.node.key hauthor.nodePub, if_pos rfl]
      have hun : (fieldsDec content).bind PPacket.unpack = some ⟨cipherResultLayout hd, cipherResultLayout pl⟩ :=
        PPacket.lawful.round_trip _ _ hpk
      have hset : exchangeSetFromCipher E hd (genHeaderKey E hd.cipher author) = some ⟨{ ex with pri := none }, xs.map some⟩ := by
        rw [a2, hk1, genHeaderKey_view hauthor, hc.header]; exact a6
      unfold parseContent
      simp only [hun, c2, hset, d2]
    obtain ⟨v', hv', hread⟩ := readPacket_of w3 hauthor.copyable hparse
    simp only [passOff, ctxParseNoDecode, hread, Option.bind_some, e1, msgCreateWithComponents, f1, d1, hpk', digestMatchingCurve, t1]
    exact y1
  · intro pre n post kp rc v hp hd2 hrec hdev hview
    obtain ⟨xpre, x, xpost, g1, g2, g3, g4⟩ := x5 pre n post hp
    have hids : xpre.map (·.id) = pre.map (·.chain.node.identifier) := by
      have e' := x2
      rw [g1, hp] at e'
      simp only [List.map_append] at e'
      exact (List.append_inj e' (by simp [g2])).1
    have hfind : xs.find? (fun y => y.id == n.chain.node.identifier) = some x := by
      rw [g1, List.find?_append]
      have : xpre.find? (fun y => y.id == n.chain.node.identifier) = none := by
        rw [List.find?_eq_none]
        intro y hy
        have : y.id ∈ pre.map (·.chain.node.identifier) := by rw [← hids]; exact List.mem_map_of_mem hy
        obtain ⟨q, hq, hqe⟩ := List.mem_map.1 this
        have := hd2 q hq
        simp [← hqe, this]
      rw [this]
      simp [g3]
    have hparse : parseFromPacket E ⟨c.version, content', sg'⟩ (some n.chain.node.identifier) (genHeaderKey E) (some v) =
        .ok ⟨.success, .valid, some ⟨{ ex with pri := none }, xs.map some⟩, some x, some pl⟩ := by
      rw [parseFromPacket_some, t6 v.node.key hview.nodePub, if_pos rfl]
      have hun : (fieldsDec content').bind PPacket.unpack = some ⟨cipherResultLayout hd', cipherResultLayout pl⟩ :=
        PPacket.lawful.round_trip _ _ hpk'
      have hset : exchangeSetFromCipher E hd' (genHeaderKey E hd'.cipher v) = some ⟨{ ex with pri := none }, xs.map some⟩ := by
        rw [e2, tk1, genHeaderKey_view hview, ht.header]; exact e6
      unfold parseContent
      simp only [hun, f2, hset, d2]
      rw [C40_find_first _ xs x3 n.chain.node.identifier, hfind]
      simp [Res.ofOption]
    obtain ⟨v', hv', hread⟩ := readPacket_of y3 hview.copyable hparse
    refine ⟨⟨_, v', _⟩, by rw [ctxParse, hdev.node]; exact hread, rfl, rfl, ?_⟩
    have hder := g4 kp c.chain rc.chain 0 none .unknown none hrec rfl hdev.root
    rw [hv2, kxDeriveKey_version2 E c.chain v'] at hder
    simp only [ctxDecode, decodeFromParse, ne_eq, not_true_eq_false, or_self, if_false, Option.bind_some, hdev.dev, hv2, hder, b6]

/-- C72, from version 3 on.  Whoever decodes a packet and gets the packet key that an exchange was made for, from the ciphertext of that exchange, takes
for the author somebody with the root key of the exchange's maker (if root keys have one length); unless a primitive fails on exactly these
values. -/
theorem C72_author_bound (E : Engine) (s : Chain) (n : Node) (ex : EcKey) (pk : CipherKey) (v : UInt8) (iv : Bytes) (x : KeyExchange)
    (hmade : kxCreateWithKey E s n ex pk none v iv = some x) (hv : v ≠ 2) (rc : Ctx) (pkt : CtxPacket) (hv' : pkt.packet.version ≠ 2)
    (kp : EcKey) (p : Payload) (y : KeyExchange) (hy : pkt.parse.exchange = some y) (hct : y.ct = x.ct)
    (hdec : ctxDecode E rc pkt (some kp) = .ok ⟨.success, some p, some pk⟩) (hl : s.root.key.pub.length = pkt.sender.root.key.pub.length)
    (hl' : n.chain.root.key.pub.length = rc.chain.root.key.pub.length) :
    ∃ set data a b, pkt.parse.set = some set ∧ cipherKeySerialize pk = some data ∧ SenderView E s n ex none v a ∧
      ReceiverView E pkt.sender ⟨rc.dev.msgProtoId, rc.chain, some ⟨0, kp, none⟩, .unknown, none⟩ set.senderPub none pkt.packet.version b ∧
      (KxSound E data x.ct a b → pkt.sender.root.key.pub = s.root.key.pub ∧ rc.chain.root.key.pub = n.chain.root.key.pub ∧
        rc.dev.msgProtoId = n.devId ∧ pkt.packet.version = v) := by
  unfold kxCreateWithKey at hmade
  obtain ⟨data, h1, h2⟩ := Option.bind_eq_some_iff.1 hmade
  unfold ctxDecode decodeFromParse at hdec
  dsimp only at hdec
  split at hdec
  · cases hdec
  split at hdec
  · cases hdec
  next set hset =>
  rw [hy, Option.bind_some] at hdec
  split at hdec
  · simp [decodeFailure] at hdec
  next k hk =>
  split at hdec
  · simp [decodeFailure] at hdec
  next p' hp' =>
  simp only [Res.ok.injEq, DecodeResult.mk.injEq, Option.some.injEq, true_and] at hdec
  obtain ⟨rfl, rfl⟩ := hdec
  unfold kxDeriveKey at hk
  obtain ⟨d, h3, h4⟩ := Option.bind_eq_some_iff.1 hk
  obtain ⟨-, h5, h6, h7⟩ := C11_cipher_key_accepts d k h4
  have hmb := maxBuffer_val
  have hlen : (cipherKeyLayout k ++ ([] : Bytes)).length ≤ maxBuffer := by
    rw [List.append_nil, h7, List.length_take]
    have : k.cipher.keyLen = 32 := by cases k.cipher <;> rfl
    omega
  have h8 := (C11_cipher_key_round_trip k h5 [] hlen).1
  rw [h1] at h8
  cases h8
  obtain ⟨a, b, ha, hb, h⟩ := C72_exchange_agreement E s pkt.sender n ⟨rc.dev.msgProtoId, rc.chain, some ⟨0, kp, none⟩, .unknown, none⟩ ex set.senderPub
    _ iv d _ none none v pkt.packet.version x y h2 hct h3 (by rw [h7]; exact List.take_prefix _ _)
  refine ⟨set, _, a, b, hset, h1, ha, hb, fun hS => ?_⟩
  obtain ⟨-, -, -, -, h9, -⟩ := h hS
  obtain ⟨e1, e2, e3, e4⟩ := h9 hv hv' hl hl'
  exact ⟨e2.symm, e3.symm, e4.symm, e1.symm⟩

/-! ### Concrete cases -/

/-- A third party. -/
def toyThief : Ctx :=
  ⟨toyDev, toyPeer, toyStorage, (genHeaderKey toyEngine .gcm toyPeer).getD ⟨.gcm, []⟩, 4⟩

/-- Evaluated: the message of `toyChain`, passed off by `toyPeer` to the node of `toyChain`, is read there as `toyPeer`'s in version 2, and not in
version 4. -/
example :
    ((toyPacket 2 [some toyNode]).bind fun b => (passOff toyEngine b toyChain toyThief (List.replicate 12 6) [1]).bind
      (toyRead ⟨{ toyDev with msgProtoId := toyNode.devId }, toyChain, toyStorage, ⟨.gcm, []⟩, 4⟩ (toyKey 11) toyPeerPublic)) =
      some ⟨.success, .valid, some .success, some toyPayload⟩ ∧
    ((toyPacket 4 [some toyNode]).bind fun b => (passOff toyEngine b toyChain toyThief (List.replicate 12 6) [1]).bind
      (toyRead ⟨{ toyDev with msgProtoId := toyNode.devId }, toyChain, toyStorage, ⟨.gcm, []⟩, 4⟩ (toyKey 11) toyPeerPublic)) =
      some ⟨.success, .valid, some .keyExchangeFailed, none⟩ := by decide +kernel

end Wickr
