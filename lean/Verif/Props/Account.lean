import Verif.Props.CtxLife
import Verif.Props.MessageWitness
/-
C75: the encryption of local and remote data.  C76: what a context publishes is enough to write to it;
messages between two generated accounts that know each other only by bytes.
-/
set_option linter.unusedSimpArgs false
namespace Wickr
open Spec

/-! ### C75 -/

/-- C75, local data: for every lawful engine and context with a GCM local storage key, encryption
succeeds for every non-empty plaintext that fits and decryption gives it back; the result is made with
the local storage key of the context. -/
theorem C75_local_round_trip (E : Engine) (hE : E.Lawful) (c : Ctx) (hk : WfKey c.storage.loc)
    (hg : c.storage.loc.cipher = .gcm) (pt iv : Bytes) (h0 : 0 < pt.length) (h1 : pt.length + 1 ≤ maxBuffer)
    (hiv : iv.length = 12) :
    ∃ r, cipherLocal E c pt iv = some r ∧ r.cipher = .gcm ∧ r.iv = iv ∧ decipherLocal E c r = some pt ∧
      E.encrypt pt none c.storage.loc iv = some r := by
  obtain ⟨r, ct, r1, r2, r3, r4, r5, r6, r7⟩ := hE.enc_dec pt none c.storage.loc iv h0 h1 hk (by rw [hg]; exact hiv) (by simp)
  exact ⟨r, r1, by rw [r2, hg], r3, r7 true (by rw [hg]; simp [Cipher.isAuth]), r1⟩

/-- C75, remote data likewise, with the remote storage key. -/
theorem C75_remote_round_trip (E : Engine) (hE : E.Lawful) (c : Ctx) (hk : WfKey c.storage.rem)
    (hg : c.storage.rem.cipher = .gcm) (pt iv : Bytes) (h0 : 0 < pt.length) (h1 : pt.length + 1 ≤ maxBuffer)
    (hiv : iv.length = 12) :
    ∃ r, cipherRemote E c pt iv = some r ∧ r.cipher = .gcm ∧ r.iv = iv ∧ decipherRemote E c r = some pt ∧
      E.encrypt pt none c.storage.rem iv = some r := by
  obtain ⟨r, ct, r1, r2, r3, r4, r5, r6, r7⟩ := hE.enc_dec pt none c.storage.rem iv h0 h1 hk (by rw [hg]; exact hiv) (by simp)
  exact ⟨r, r1, by rw [r2, hg], r3, r7 true (by rw [hg]; simp [Cipher.isAuth]), r1⟩

/-- C75: what is read from storage was authenticated, under the storage key it is read with, whatever
the context. -/
theorem C75_only_authenticated (E : Engine) (hE : E.Lawful) (c : Ctx) (r : CipherResult) (pt : Bytes) :
    (decipherLocal E c r = some pt → r.cipher.isAuth = true ∧ E.decrypt r none c.storage.loc true = some pt) ∧
    (decipherRemote E c r = some pt → r.cipher.isAuth = true ∧ E.decrypt r none c.storage.rem true = some pt) :=
  ⟨fun h => ⟨hE.dec_auth _ _ _ _ h, h⟩, fun h => ⟨hE.dec_auth _ _ _ _ h, h⟩⟩

/-- A round trip on the toy engine; the other storage key does not give the data. -/
example :
    let c : Ctx := { toyCtx 4 with storage := ⟨⟨.gcm, 7 :: List.replicate 31 1⟩, ⟨.gcm, List.replicate 32 2⟩⟩ }
    let r := cipherLocal toyEngine c [1, 2, 3] (List.replicate 12 0)
    (r.bind (decipherLocal toyEngine c)) = some [1, 2, 3] ∧
      (r.bind (decipherRemote toyEngine c)) ≠ some [1, 2, 3] := by decide +kernel

/-! ### C76 -/

/-- An ephemeral key made by a context: it always can be made, carries the new key and a signature of
the context's node key over the public half. -/
theorem C76_ephemeral (E : Engine) (hE : E.Lawful) (c : Ctx) (hc : WfCtx E c) (id : UInt64) (kp : EcKey) (nonce : Bytes)
    (hk : E.KeyPair kp) :
    ∃ k, ctxEphGen E c id kp nonce = some k ∧ k.identifier = id ∧ k.key = kp ∧ WfEph E k ∧
      ∃ s, k.sig = some s ∧ ∀ nk : EcKey, nk.pub = c.chain.node.key.pub → E.verify s nk kp.pub = true := by
  obtain ⟨p, hp, _⟩ := hc.nodeKey.pri
  obtain ⟨s, s1, s2, s3, s4, s5, s6⟩ := hE.sign_verify c.chain.node.key kp.pub .sha512 nonce hc.nodeKey
  refine ⟨⟨id, kp, some s⟩, ?_, rfl, rfl, ⟨hk.pub, ?_⟩, s, rfl, s6⟩
  · simp [ctxEphGen, ephGenerate, identitySign, hp, s1]
  · intro t ht
    cases ht
    exact ⟨s4, by rw [s2]; exact s5⟩

/-- C76, publishing: for every lawful engine, well-formed context with a genuine chain and ephemeral key
pair made by it, the node made of device id, chain and key serializes; whoever reads the bytes gets a
node without private keys that verifies, and to which the context is the device. -/
theorem C76_published_node (E : Engine) (hE : E.Lawful) (c : Ctx) (hc : WfCtx E c) (hg : ChainGenuine E c.chain)
    (hd : 0 < c.dev.msgProtoId.length ∧ c.dev.msgProtoId.length ≤ 512) (id : UInt64) (kp : EcKey) (nonce : Bytes)
    (hk : E.KeyPair kp) :
    ∃ k b n, ctxEphGen E c id kp nonce = some k ∧ nodeSerialize (nodeCreate c.dev.msgProtoId c.chain (some k)) = some b ∧
      nodeFromBuffer E b = some n ∧ Recipient E n kp ∧ DeviceOf c n ∧
      n.chain.root.key.pri = none ∧ n.chain.node.key.pri = none ∧
      ∃ e, n.eph = some e ∧ e.key = { kp with pri := none } ∧ e.identifier = id := by
  obtain ⟨k, k1, k2, k3, k4, s, k5, k6⟩ := C76_ephemeral E hE c hc id kp nonce hk
  obtain ⟨b, b1, b2⟩ := C44_node_round_trip E hE (nodeCreate c.dev.msgProtoId c.chain (some k))
    ⟨hd.1, by simp only [nodeCreate]; omega⟩ hc.rootWf hc.nodeWf (by intro k' h; cases h; exact k4)
  obtain ⟨t1, t2, t3⟩ := hc.types
  refine ⟨k, b, _, k1, b1, b2, ?_, ⟨rfl, rfl, rfl⟩, rfl, rfl, _, rfl, by simp [k3], k2⟩
  have hrl := hc.rootKey.pubLen
  have hmax : c.chain.root.key.curve.maxPub = 134 := by cases c.chain.root.key.curve; rfl
  rw [hmax] at hrl
  refine ⟨?_, ⟨_, rfl, by simp [k3]⟩, hk, hd, hc.nodeWf.id, hrl⟩
  obtain ⟨g, g1, g2⟩ := hg
  have hv1 : E.verify g (publicHalf c.chain.root).key (publicHalf c.chain.node).key.pub = true := by
    rw [← g2]; exact hE.verify_pub _ _ _ _ rfl
  have hv2 : E.verify s (publicHalf c.chain.node).key kp.pub = true := k6 _ rfl
  have hsig : (publicHalf c.chain.node).sig = some g := by simp [publicHalf, t3, g1]
  simp only [nodeVerify, nodeCreate, nodeHasValidCache, Bool.false_eq_true, if_false, chainValidate, chainCreate,
    chainHasValidCache, hsig, Engine.verifyOpt, hv1, if_true, Bool.not_true, chainUpdateCache, ephVerifyOwner,
    Option.map_some, k5, k3, hv2, decide_true, Bool.and_self]

/-- C76, the sender's chain: whoever reads its serialization has a view of it. -/
theorem C76_published_chain (E : Engine) (hE : E.Lawful) (c : Ctx) (hc : WfCtx E c) :
    ∃ b v, chainSerialize c.chain false = some b ∧ chainFromBuffer E b = some v ∧ ViewOf v c.chain ∧
      v.root.key.pri = none ∧ v.node.key.pri = none := by
  have hmb := maxBuffer_val
  obtain ⟨b, b1, b2⟩ := C44_chain_round_trip E hE c.chain hc.rootWf hc.nodeWf
  refine ⟨b, _, b1, b2, ⟨rfl, rfl, rfl, rfl, ?_⟩, rfl, rfl⟩
  have hmax : ∀ k : EcKey, k.curve.maxPub = 134 := by intro k; cases k.curve; rfl
  have hr := hc.rootKey.pubLen
  have hn := hc.nodeKey.pubLen
  rw [hmax] at hr hn
  have hri := hc.rootWf.id
  have hni := hc.nodeWf.id
  simp only [chainCopy, chainCreate, identityCopy, publicHalf, ecKeyCopy, dup_of (b := c.chain.root.identifier) ⟨hri.1, by omega⟩,
    dup_of (b := c.chain.node.identifier) ⟨hni.1, by omega⟩, dup_of (b := c.chain.root.key.pub) ⟨hr.1, by omega⟩,
    dup_of (b := c.chain.node.key.pub) ⟨hn.1, by omega⟩, dupOpt, Option.bind_some, identityCreate,
    if_neg (show ¬ c.chain.root.identifier.length ≥ 128 by omega),
    if_neg (show ¬ c.chain.node.identifier.length ≥ 128 by omega), Option.map_some]
  simp

/-- C76.  Two accounts generated on any two devices with any (well-formed) keys, identifiers and random
values, that know each other only through bytes: the receiver publishes a node, the sender publishes its
chain; what the sender encodes for the node as it reads it, the receiver, with the sender's chain as it
reads it, parses and decodes to the same payload. -/
theorem C76_generated_accounts_communicate (E : Engine) (hE : E.Lawful)
    (devA devB : DevInfo) (keysA keysB : RootKeys) (idA idB : Bytes) (rndA rndB : GenRand)
    (hda : WfDev devA) (hdb : WfDev devB) (hka : WfRoot E keysA) (hkb : WfRoot E keysB)
    (hia : 0 < idA.length ∧ idA.length < 128) (hib : 0 < idB.length ∧ idB.length < 128)
    (hra : GoodGen E rndA) (hrb : GoodGen E rndB) (hdev : devB.msgProtoId.length ≤ 512)
    (ephId : UInt64) (kp : EcKey) (nonce : Bytes) (hkp : E.KeyPair kp)
    (p : Payload) (pk : CipherKey) (ex : EcKey) (rnd : MsgRand) (hr : GoodRand E pk ex rnd)
    (ht : p.hdr.channelTag ≠ []) (hb : p.body ≠ []) (hs : p.hdr.channelTag.length + p.body.length + 1257 ≤ maxBuffer) :
    ∃ ga gb k nb n cb v m b pkt,
      ctxGenNew E devA idA keysA rndA = some ga ∧ ctxGenNew E devB idB keysB rndB = some gb ∧
      ctxEphGen E gb.ctx ephId kp nonce = some k ∧
      nodeSerialize (nodeCreate devB.msgProtoId gb.ctx.chain (some k)) = some nb ∧ nodeFromBuffer E nb = some n ∧
      chainSerialize ga.ctx.chain false = some cb ∧ chainFromBuffer E cb = some v ∧
      (ctxEncode E ga.ctx p [some n] pk ex rnd).2 = .ok ⟨pk, m⟩ ∧ msgSerialize m = some b ∧
      ctxParse E gb.ctx b (some v) = .ok pkt ∧ pkt.parse.err = .success ∧ pkt.parse.sigStatus = .valid ∧
      ctxDecode E gb.ctx pkt (some k.key) = .ok ⟨.success, some p, some pk⟩ := by
  obtain ⟨ga, a1, a2, a3, a4, _⟩ := C64_generation E hE devA keysA idA rndA hda hka hia hra
  obtain ⟨gb, b1, b2, b3, b4, _, _, _, _, _, b5, _⟩ := C64_generation E hE devB keysB idB rndB hdb hkb hib hrb
  have hdl : 0 < gb.ctx.dev.msgProtoId.length ∧ gb.ctx.dev.msgProtoId.length ≤ 512 := by
    rw [b5]; exact ⟨hdb.msg.1, hdev⟩
  obtain ⟨k, nb, n, n1, n2, n3, n4, n5, _⟩ := C76_published_node E hE gb.ctx b2 b4 hdl ephId kp nonce hkp
  obtain ⟨cb, v, v1, v2, v3, _⟩ := C76_published_chain E hE ga.ctx a2
  obtain ⟨m, b, m1, m2, m3⟩ := C35_distinct_recipients_all_read E hE ga.ctx p [n] pk ex rnd a3
    (by intro x hx; simp only [List.mem_singleton] at hx; subst hx; exact ⟨kp, n4⟩) (by simp) (by simp) hr ht hb
    (by simp only [List.length_singleton]; omega)
  obtain ⟨pkt, p1, p2, p3, p4⟩ := m3 n (by simp) kp gb.ctx v n4 n5 v3
  have hkk : k.key = kp := by
    obtain ⟨k', q1, _, q2, _⟩ := C76_ephemeral E hE gb.ctx b2 ephId kp nonce hkp
    rw [n1] at q1; cases q1; exact q2
  exact ⟨ga, gb, k, nb, n, cb, v, m, b, pkt, a1, b1, n1, by rw [b5] at n2; exact n2, n3, v1, v2, m1, m2, p1, p2, p3,
    by rw [hkk]; exact p4⟩

/-- The hypotheses are met. -/
example : ∃ ga gb n m, ctxGenNew toyEngine toyDev [1] toyRoot toyGen = some ga ∧
    ctxGenNew toyEngine toyPeerDev [2] toyRoot toyGen' = some gb ∧
    (ctxEncode toyEngine ga.ctx toyPayload [some n] toyPk (toyKey 41) toyRnd).2 = .ok ⟨toyPk, m⟩ := by
  obtain ⟨ga, gb, _, _, n, _, _, m, _, _, h1, h2, _, _, _, _, _, h3, _⟩ :=
    C76_generated_accounts_communicate toyEngine toyEngine_lawful toyDev toyPeerDev toyRoot toyRoot [1] [2] toyGen toyGen'
      toyDev_wf toyPeerDev_wf toyRoot_wf toyRoot_wf (by decide) (by decide) toyGen_good toyGen_good' (by decide) 77
      (toyKey 31) [] (toyKey_pair 31 (by decide)) toyPayload toyPk (toyKey 41) toyRnd toy_goodRand (by decide) (by decide)
      (by decide)
  exact ⟨ga, gb, n, m, h1, h2, h3⟩

end Wickr
