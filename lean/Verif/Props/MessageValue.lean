import Verif.Props.MessageWitness
/-
C72, C73, C74: the exact values in key exchanges and packets.
-/
set_option linter.unusedSimpArgs false
namespace Wickr
open Spec

namespace Spec

/-- The context that goes into the key derivation of an exchange: the receiving device, and from
version 3 on also the root keys of both ends. -/
def exchangeInfo (version : UInt8) (senderRoot receiverRoot device : Bytes) : Bytes :=
  if version = 2 then device else senderRoot ++ receiverRoot ++ device

/-- The KDF of an exchange: HKDF with SHA-256 before version 4, with SHA-512 in version 4; always 32
bytes; the pre-shared key is the salt. -/
def exchangeKdf (version : UInt8) (psk : Option Bytes) (info : Bytes) : KdfMeta :=
  ⟨{ (if version = 4 then hkdfSha512 else hkdfSha256) with outputSize := 32 }, psk, some info⟩

end Spec

theorem kxMeta_value {s : Chain} {n : Node} {psk : Option Bytes} {v : UInt8} {m : KdfMeta}
    (h : kxMeta s n psk v = some m) :
    (v = 2 ∨ v = 3 ∨ v = 4) ∧ n.eph.isSome ∧
      m.algo = (if v = 4 then hkdfSha512 else hkdfSha256) ∧ m.salt = psk ∧
      m.info = some (exchangeInfo v s.root.key.pub n.chain.root.key.pub n.devId) := by
  unfold kxMeta at h
  split at h
  · cases h
  · next he =>
    have he' : n.eph.isSome := by cases hq : n.eph <;> simp_all
    simp only [Option.bind_eq_some_iff] at h
    obtain ⟨a, ha, info, hi, salt, hs, hm⟩ := h
    have hsalt := (dupOpt_eq_some.1 hs).1
    subst hsalt
    unfold kxInfo at hi
    by_cases h2 : v = 2
    · subst h2
      simp at ha hi
      subst ha
      have := (dup_eq_some.1 hi).2
      subst this
      simp [kdfMetaCreate, hkdfSha256] at hm
      subst hm
      exact ⟨by simp, he', rfl, rfl, by simp [exchangeInfo]⟩
    · by_cases h3 : v = 3
      · subst h3
        simp at ha hi
        subst ha
        have := (concatMulti_some.1 hi).1
        simp [kdfMetaCreate, hkdfSha256] at hm
        subst hm
        exact ⟨by simp, he', rfl, rfl, by simp [exchangeInfo, this, optBytes]⟩
      · by_cases h4 : v = 4
        · subst h4
          simp at ha hi
          subst ha
          have := (concatMulti_some.1 hi).1
          simp [kdfMetaCreate, hkdfSha512] at hm
          subst hm
          exact ⟨by simp, he', rfl, rfl, by simp [exchangeInfo, this, optBytes]⟩
        · simp [h2, h3, h4] at ha

theorem ecdhKey_value {E : Engine} {c : Cipher} {k peer : EcKey} {m : KdfMeta} {r : CipherKey}
    (h : ecdhCipherKey E ⟨c, k⟩ peer m = some r) :
    ∃ z, E.sharedSecret k peer = some z ∧
      E.kdf { m with algo := { m.algo with outputSize := 32 } } z = some r.key ∧ r.cipher = c ∧ r.key.length = 32 := by
  have hkl : c.keyLen = 32 := by cases c <;> rfl
  unfold ecdhCipherKey at h
  split at h
  · cases h
  · simp only [hkl, Option.bind_eq_some_iff] at h
    obtain ⟨z, hz, d, hd, d', hd', hk⟩ := h
    have := (dup_eq_some.1 hd').2
    subst this
    simp only [cipherKeyCreate, hkl] at hk
    split at hk
    · cases hk
    · next hl =>
      cases hk
      refine ⟨z, hz, ?_, rfl, by simpa using hl⟩
      split at hd
      · exact hd
      · next h32 =>
        have : m.algo.outputSize = 32 := UInt8.toNat_inj.1 (by simpa using h32)
        rw [← this]; exact hd

/-- C72: an exchange is made only for versions 2 to 4 and for a node with an ephemeral key.  It names
the node and the key; its content is the data, encrypted under a key derived from the secret shared
between the exchange key and the node's ephemeral key with the pre-shared key as salt and with the
documented context. -/
theorem C72_exchange_value (E : Engine) (s : Chain) (n : Node) (ex : EcKey) (data : Bytes) (c : Cipher)
    (psk : Option Bytes) (v : UInt8) (iv : Bytes) (x : KeyExchange)
    (h : kxCreateWithData E s n ex data c psk v iv = some x) :
    (v = 2 ∨ v = 3 ∨ v = 4) ∧ ∃ eph z k, n.eph = some eph ∧ E.sharedSecret ex eph.key = some z ∧
      E.kdf (exchangeKdf v psk (exchangeInfo v s.root.key.pub n.chain.root.key.pub n.devId)) z = some k ∧
      k.length = 32 ∧ E.encrypt data none ⟨c, k⟩ iv = some x.ct ∧
      x.id = n.chain.node.identifier ∧ x.keyId = eph.identifier := by
  unfold kxCreateWithData at h
  cases he : n.eph with
  | none => simp [he] at h
  | some eph =>
    simp only [he, Option.bind_eq_some_iff, Option.map_eq_some_iff] at h
    obtain ⟨k', hk', m, hm, r, hr, i, hi, rfl⟩ := h
    have := ecKeyCopy_some hk'
    subst this
    obtain ⟨g1, -, g3, g4, g5⟩ := kxMeta_value hm
    unfold ecdhCipher at hr
    simp only [Option.bind_eq_some_iff] at hr
    obtain ⟨ck, hck, hr⟩ := hr
    obtain ⟨z, z1, z2, z3, z4⟩ := ecdhKey_value hck
    refine ⟨g1, eph, z, ck.key, rfl, z1, ?_, z4, ?_, (dup_eq_some.1 hi).2, rfl⟩
    · rw [← z2]
      obtain ⟨a, sa, inf⟩ := m
      simp only at g3 g4 g5
      subst g3 g4 g5
      rfl
    · obtain ⟨cc, kk⟩ := ck
      simp only at z3
      subst z3
      exact hr

/-- C72: reading an exchange uses the same key, from the other end of the shared secret. -/
theorem C72_derived_value (E : Engine) (s : Chain) (n : Node) (ex : EcKey) (x : KeyExchange)
    (psk : Option Bytes) (v : UInt8) (d : Bytes) (h : kxDeriveData E s n ex x psk v = some d) :
    (v = 2 ∨ v = 3 ∨ v = 4) ∧ ∃ eph z k, n.eph = some eph ∧ E.sharedSecret eph.key ex = some z ∧
      E.kdf (exchangeKdf v psk (exchangeInfo v s.root.key.pub n.chain.root.key.pub n.devId)) z = some k ∧
      E.decrypt x.ct none ⟨x.ct.cipher, k⟩ false = some d := by
  unfold kxDeriveData at h
  cases he : n.eph with
  | none => simp [he] at h
  | some eph =>
    simp only [he, Option.bind_eq_some_iff] at h
    obtain ⟨k', hk', m, hm, hr⟩ := h
    have := ecKeyCopy_some hk'
    subst this
    obtain ⟨g1, -, g3, g4, g5⟩ := kxMeta_value hm
    unfold ecdhDecipher at hr
    split at hr
    · cases hr
    · simp only [Option.bind_eq_some_iff] at hr
      obtain ⟨ck, hck, hr⟩ := hr
      obtain ⟨z, z1, z2, z3, z4⟩ := ecdhKey_value hck
      refine ⟨g1, eph, z, ck.key, rfl, z1, ?_, ?_⟩
      · rw [← z2]
        obtain ⟨a, sa, inf⟩ := m
        simp only at g3 g4 g5
        subst g3 g4 g5
        rfl
      · obtain ⟨cc, kk⟩ := ck
        simp only at z3
        subst z3
        exact hr

/-- C72, round trip with a pre-shared key: for every lawful engine, version, cipher, data and psk (or
none), what is sent to a node is read by the holder of the node's ephemeral key pair who knows the
same psk, the same root keys and the same device id. -/
theorem C72_psk_round_trip (E : Engine) (hE : E.Lawful) (s s' : Chain) (n n' : Node) (ex kp : EcKey) (e e' : EphKey)
    (data iv : Bytes) (c : Cipher) (psk : Option Bytes) (v : UInt8) (hv : v = 2 ∨ v = 3 ∨ v = 4)
    (hex : E.KeyPair ex) (hkp : E.KeyPair kp) (he : n.eph = some e) (hep : e.key.pub = kp.pub)
    (he' : n'.eph = some e') (hep' : e'.key = kp)
    (hs : s'.root.key.pub = s.root.key.pub) (hr : n'.chain.root.key.pub = n.chain.root.key.pub) (hd : n'.devId = n.devId)
    (hsl : 0 < s.root.key.pub.length ∧ s.root.key.pub.length ≤ 134)
    (hrl : 0 < n.chain.root.key.pub.length ∧ n.chain.root.key.pub.length ≤ 134)
    (hdl : 0 < n.devId.length ∧ n.devId.length ≤ 512) (hid : ValidBuf n.chain.node.identifier)
    (hpsk : ∀ p, psk = some p → ValidBuf p) (h0 : 0 < data.length) (h1 : data.length + 1 ≤ maxBuffer)
    (hiv : iv.length = c.ivLen) :
    ∃ x, kxCreateWithData E s n ex data c psk v iv = some x ∧ x.id = n.chain.node.identifier ∧
      x.keyId = e.identifier ∧ x.ct.cipher = c ∧
      kxDeriveData E s' n' { ex with pri := none } x psk v = some data := by
  have hmb := maxBuffer_val
  have hinfo : ∀ (a : Chain) (m : Node), a.root.key.pub = s.root.key.pub → m.chain.root.key.pub = n.chain.root.key.pub →
      m.devId = n.devId → kxInfo a m v = some (exchangeInfo v s.root.key.pub n.chain.root.key.pub n.devId) := by
    intro a m g1 g2 g3
    have h3 : concatMulti [some s.root.key.pub, some n.chain.root.key.pub, some n.devId] =
        some (s.root.key.pub ++ n.chain.root.key.pub ++ n.devId) := by
      rw [concatMulti_some]
      refine ⟨by simp [optBytes], ?_, ?_⟩ <;> simp <;> omega
    simp only [kxInfo, g1, g2, g3, h3]
    rcases hv with rfl | rfl | rfl
    · simp [exchangeInfo, dup_of ⟨hdl.1, by omega⟩]
    · simp [exchangeInfo]
    · simp [exchangeInfo]
  have hlen : 0 < (exchangeInfo v s.root.key.pub n.chain.root.key.pub n.devId).length ∧
      (exchangeInfo v s.root.key.pub n.chain.root.key.pub n.devId).length ≤ 1024 := by
    unfold exchangeInfo
    split
    · omega
    · simp only [List.length_append]; omega
  obtain ⟨info, hinf⟩ : ∃ i, i = exchangeInfo v s.root.key.pub n.chain.root.key.pub n.devId := ⟨_, rfl⟩
  rw [← hinf] at hinfo hlen
  have hmeta : ∃ d, ∀ (a : Chain) (m : Node), a.root.key.pub = s.root.key.pub → m.chain.root.key.pub = n.chain.root.key.pub →
      m.devId = n.devId → m.eph.isSome → kxMeta a m psk v = some ⟨hkdfAlgoForDigest d, psk, some info⟩ := by
    rcases hv with rfl | rfl | rfl
    · refine ⟨.sha256, fun a m g1 g2 g3 g4 => ?_⟩
      have : m.eph.isNone = false := by cases h : m.eph <;> simp_all
      simp [kxMeta, hinfo a m g1 g2 g3, this, dupOpt_of hpsk, kdfMetaCreate, hkdfSha256, hkdfAlgoForDigest]
    · refine ⟨.sha256, fun a m g1 g2 g3 g4 => ?_⟩
      have : m.eph.isNone = false := by cases h : m.eph <;> simp_all
      simp [kxMeta, hinfo a m g1 g2 g3, this, dupOpt_of hpsk, kdfMetaCreate, hkdfSha256, hkdfAlgoForDigest]
    · refine ⟨.sha512, fun a m g1 g2 g3 g4 => ?_⟩
      have : m.eph.isNone = false := by cases h : m.eph <;> simp_all
      simp [kxMeta, hinfo a m g1 g2 g3, this, dupOpt_of hpsk, kdfMetaCreate, hkdfSha512, hkdfAlgoForDigest]
  obtain ⟨d, hm⟩ := hmeta
  have hec : EcdhMeta ⟨hkdfAlgoForDigest d, psk, some info⟩ d :=
    ⟨rfl, fun p hp => hpsk p hp, fun i hi => by cases hi; exact hlen, by simp⟩
  obtain ⟨r, r1, r2, -, -, r3⟩ := C46_ends_agree E hE ex kp { ex with pri := none } e.key hex hkp rfl hep c _ d hec data iv
    h0 h1 hiv
  refine ⟨⟨n.chain.node.identifier, e.identifier, r⟩, ?_, rfl, rfl, r2, ?_⟩
  · simp only [kxCreateWithData, he, KeyPair.copy hex, Option.bind_some, hm s n rfl rfl rfl (by simp [he]), r1, dup_of hid,
      Option.map_some]
  · simp only [kxDeriveData, he', hep', KeyPair.copy hkp, Option.bind_some, hm s' n' hs hr hd (by simp [he']), r2, r3]

/-- The hypotheses of the round trip are met, in every version, with and without a psk. -/
example (v : UInt8) (hv : v = 2 ∨ v = 3 ∨ v = 4) (psk : Option Bytes) (hp : psk = none ∨ psk = some [1, 2, 3]) :
    ∃ x, kxCreateWithData toyEngine toyChain toyPeerNode (toyKey 41) [5, 6] .ctr psk v (List.replicate 16 0) = some x ∧
      kxDeriveData toyEngine toyChain { toyPeerNode with eph := some ⟨77, toyKey 31, none⟩ }
        { toyKey 41 with pri := none } x psk v = some [5, 6] := by
  obtain ⟨x, h1, -, -, -, h2⟩ := C72_psk_round_trip toyEngine toyEngine_lawful toyChain toyChain toyPeerNode
    { toyPeerNode with eph := some ⟨77, toyKey 31, none⟩ } (toyKey 41) (toyKey 31) _ _ [5, 6] (List.replicate 16 0)
    .ctr psk v hv (toyKey_pair 41 (by decide)) (toyKey_pair 31 (by decide)) rfl rfl rfl rfl rfl rfl rfl
    (by decide) (by decide) (by decide) ⟨by decide, by decide⟩
    (by rcases hp with rfl | rfl <;> intro p hp <;> cases hp; exact ⟨by decide, by decide⟩) (by decide) (by decide) (by decide)
  exact ⟨x, h1, h2⟩

/-- Evaluated: another psk, or a version that binds the roots with another sender, does not give the data. -/
example :
    let x := kxCreateWithData toyEngine toyChain toyPeerNode (toyKey 41) [5, 6] .ctr (some [1]) 4 (List.replicate 16 0)
    let n : Node := { toyPeerNode with eph := some ⟨77, toyKey 31, none⟩ }
    x.isSome ∧ (x.bind fun x => kxDeriveData toyEngine toyChain n { toyKey 41 with pri := none } x (some [2]) 4) ≠ some [5, 6] ∧
      (x.bind fun x => kxDeriveData toyEngine toyChain n { toyKey 41 with pri := none } x none 4) ≠ some [5, 6] := by
  decide +kernel

/-- C72: from version 3 on, the context determines both root keys and the device, among root keys of
one length (as all keys of a curve have when they are encoded alike). -/
theorem C72_context_binds (v : UInt8) (s s' r r' d d' : Bytes) (hv : v = 3 ∨ v = 4) (hs : s.length = s'.length)
    (hr : r.length = r'.length) (h : exchangeInfo v s r d = exchangeInfo v s' r' d') : s = s' ∧ r = r' ∧ d = d' := by
  have h2 : v ≠ 2 := by rcases hv with rfl | rfl <;> decide
  simp only [exchangeInfo, if_neg h2, List.append_assoc] at h
  obtain ⟨h1, h3⟩ := List.append_inj h hs
  obtain ⟨h4, h5⟩ := List.append_inj h3 hr
  exact ⟨h1, h4, h5⟩

/-- C72: in version 2 neither end's root key is part of the context: two exchanges that differ in
nothing else use the same key. -/
theorem C72_version2_context (psk : Option Bytes) (s s' r r' d : Bytes) :
    exchangeKdf 2 psk (exchangeInfo 2 s r d) = exchangeKdf 2 psk (exchangeInfo 2 s' r' d) := rfl

theorem exchangesCreate_each {E : Engine} {s : Chain} {ex : EcKey} {pk : CipherKey} {v : UInt8} {iv : Nat → Bytes} :
    ∀ {ns : List Node} {i : Nat} {xs : List KeyExchange},
    exchangesCreate E s ex pk v iv (ns.map some) i = some xs →
    xs.length = ns.length ∧ ∀ j (hn : j < ns.length) (hx : j < xs.length),
      kxCreateWithKey E s ns[j] ex pk none v (iv (i + j)) = some xs[j]
  | [], i, xs, h => by cases h; simp
  | n :: ns, i, xs, h => by
    simp only [List.map_cons, exchangesCreate, Option.bind_eq_some_iff, Option.map_eq_some_iff] at h
    obtain ⟨x, hx, ys, hy, rfl⟩ := h
    obtain ⟨h1, h2⟩ := exchangesCreate_each hy
    refine ⟨by simp [h1], fun j hn hx' => ?_⟩
    cases j with
    | zero => simpa using hx
    | succ j =>
      have := h2 j (by simpa using hn) (by simpa using hx')
      simpa [Nat.add_assoc, Nat.add_comm 1 j] using this

/-- C73: what a packet consists of.  For each recipient in order there is one exchange of the packet
key, each with its own IV; the exchanges and the public exchange key are encrypted under the header
key; the payload is encrypted under the packet key; the content is the message holding both, and
the signature is the sender's node key's over exactly the content, with SHA-512. -/
theorem C73_packet_value (E : Engine) (hk pk : CipherKey) (ex : EcKey) (p : Payload) (rs rs' : List (Option Node))
    (s : Chain) (v : UInt8) (rnd : MsgRand) (m : Msg) (h : msgCreate E hk pk ex p rs s v rnd = (rs', .ok m)) :
    ∃ (ns : List Node) (xs : List KeyExchange) (keyBytes setBytes payBytes : Bytes) (hd pl : CipherResult),
      rs = ns.map some ∧ ns ≠ [] ∧ xs.length = ns.length ∧ cipherKeySerialize pk = some keyBytes ∧
      (∀ j (hn : j < ns.length) (hx : j < xs.length),
        kxCreateWithData E s ns[j] ex keyBytes .ctr none v (rnd.exIv j) = some xs[j]) ∧
      exchangeSetSerialize ⟨ex, xs.map some⟩ = some setBytes ∧ E.encrypt setBytes none hk rnd.hdrIv = some hd ∧
      payloadSerialize p = some payBytes ∧ E.encrypt payBytes none pk rnd.payIv = some pl ∧
      (∃ hb pb, cipherResultSerialize hd = some hb ∧ cipherResultSerialize pl = some pb ∧
        (fieldsDec m.content).bind PPacket.unpack = some ⟨hb, pb⟩) ∧
      E.sign s.node.key m.content .sha512 rnd.nonce = some m.sig ∧ m.version = v := by
  obtain ⟨ns, h1, h2, h3, xs, hd, pl, hb, pb, g1, g2, g3, g4, g5, g6, g7, g8⟩ := msgCreate_ok h
  have e : (ns.map fun n => some (nodeVerify E n).1) = (ns.map fun n => (nodeVerify E n).1).map some := by simp
  rw [e] at g1
  obtain ⟨l1, l2⟩ := exchangesCreate_each g1
  simp only [List.length_map] at l1 l2
  unfold exchangeSetEncrypt at g2
  unfold payloadEncrypt at g3
  simp only [Option.bind_eq_some_iff] at g2 g3
  obtain ⟨sb, s1, s2⟩ := g2
  obtain ⟨yb, y1, y2⟩ := g3
  have hpos : 0 < ns.length := List.length_pos_iff.2 h2
  obtain ⟨kb, k1⟩ : ∃ kb, cipherKeySerialize pk = some kb := by
    have := l2 0 hpos (by omega)
    unfold kxCreateWithKey at this
    simp only [Option.bind_eq_some_iff] at this
    obtain ⟨b, hb, -⟩ := this
    exact ⟨b, hb⟩
  refine ⟨ns, xs, kb, sb, yb, hd, pl, h1, h2, l1, k1, ?_, s1, s2, y1, y2, ⟨hb, pb, g4, g5, ?_⟩, g7, g8⟩
  · intro j hn hx
    have := l2 j hn hx
    simp only [List.getElem_map, kxCreateWithKey, k1, Option.bind_some, Nat.zero_add, exchangeCipherMatchingCipher] at this
    obtain ⟨q1, q2, q3, q4⟩ := nodeVerify_same E ns[j]
    rw [← this]
    simp only [kxCreateWithData, kxMeta, kxInfo, q1, q2, q3, q4]
  · exact PPacket.lawful.round_trip _ _ g6

/-- A packet for two recipients, to which C73 applies. -/
example : ∃ rs' m, msgCreate toyEngine (toyCtx 4).headerKey toyPk (toyKey 41) toyPayload [some toyPeerNode, some toyNode]
    toyChain 4 toyRnd = (rs', .ok m) := by
  have : (match msgCreate toyEngine (toyCtx 4).headerKey toyPk (toyKey 41) toyPayload [some toyPeerNode, some toyNode]
      toyChain 4 toyRnd with | (_, .ok _) => true | _ => false) = true := by decide +kernel
  split at this
  · next a b h => exact ⟨a, b, h⟩
  · cases this

/-- C74: the key of a packet header depends on nothing but the two identifiers of the sender: it is
the SHA-256 of root identifier and node identifier. -/
theorem C74_header_key_value (P : Prim) (c : Cipher) (ch : Chain) (k : CipherKey)
    (h : genHeaderKey (defaultEngine P) c ch = some k) :
    k = ⟨c, P.sha .sha256 (ch.root.identifier ++ ch.node.identifier)⟩ := by
  unfold genHeaderKey at h
  simp only [Option.bind_eq_some_iff] at h
  obtain ⟨d, hd, hk⟩ := h
  simp only [cipherKeyCreate] at hk
  split at hk
  · cases hk
  · cases hk
    simp only [defaultEngine, sha2, digestMatchingCipher, Option.some.injEq, optBytes, Option.getD_some] at hd
    rw [← hd]

example : (genHeaderKey (defaultEngine toyPrim) .gcm toyChain).isSome := by decide +kernel

/-- C74: so anyone who knows these identifiers derives the header key, whatever keys they hold, and
reads the list of recipients. -/
theorem C74_header_key_public (E : Engine) (c : Cipher) (ch ch' : Chain)
    (h1 : ch'.root.identifier = ch.root.identifier) (h2 : ch'.node.identifier = ch.node.identifier) :
    genHeaderKey E c ch' = genHeaderKey E c ch := by
  simp [genHeaderKey, h1, h2]

end Wickr
