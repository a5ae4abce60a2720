import Verif.Props.MessageAuth
import Verif.Lemmas.Handshake
set_option linter.unusedSimpArgs false
/-
C35, C36: an encoded message is read by every recipient and by nobody else's identifier.
-/
namespace Wickr
open Spec

/-- `n` is a recipient whose chain verifies, and `kp` is the key pair of its ephemeral key. -/
structure Spec.Recipient (E : Engine) (n : Node) (kp : EcKey) : Prop where
  verified : (nodeVerify E n).2 = true
  eph : ∃ e, n.eph = some e ∧ e.key.pub = kp.pub
  pair : E.KeyPair kp
  dev : 0 < n.devId.length ∧ n.devId.length ≤ 512
  id : 0 < n.chain.node.identifier.length ∧ n.chain.node.identifier.length < 128
  root : 0 < n.chain.root.key.pub.length ∧ n.chain.root.key.pub.length ≤ 134

/-- `c` is the context of the device `n` describes. -/
structure Spec.DeviceOf (c : Ctx) (n : Node) : Prop where
  dev : c.dev.msgProtoId = n.devId
  node : c.chain.node.identifier = n.chain.node.identifier
  root : c.chain.root.key.pub = n.chain.root.key.pub

/-- A context that can send: as `wickr_ctx_create` makes it, with a private node key. -/
structure Spec.Sender (E : Engine) (c : Ctx) : Prop where
  version : 2 ≤ c.version.toNat ∧ c.version.toNat ≤ 4
  header : genHeaderKey E .gcm c.chain = some c.headerKey
  node : E.KeyPair c.chain.node.key
  root : 0 < c.chain.root.key.pub.length ∧ c.chain.root.key.pub.length ≤ 134

/-- `v` is what a peer knows of chain `c`: same identifiers and public keys, and it can be copied. -/
structure Spec.ViewOf (v c : Chain) : Prop where
  rootId : v.root.identifier = c.root.identifier
  nodeId : v.node.identifier = c.node.identifier
  rootPub : v.root.key.pub = c.root.key.pub
  nodePub : v.node.key.pub = c.node.key.pub
  copyable : (chainCopy v).isSome

/-- The random values have the sizes of what they are drawn for. -/
structure Spec.GoodRand (E : Engine) (pk : CipherKey) (ex : EcKey) (rnd : MsgRand) : Prop where
  cipher : pk.cipher = .gcm
  key : pk.key.length = 32
  ex : E.KeyPair ex
  exIv : ∀ i, (rnd.exIv i).length = 16
  hdrIv : rnd.hdrIv.length = 12
  payIv : rnd.payIv.length = 12

theorem version_cases {v : UInt8} (h : 2 ≤ v.toNat ∧ v.toNat ≤ 4) : v = 2 ∨ v = 3 ∨ v = 4 := by
  have : v.toNat = 2 ∨ v.toNat = 3 ∨ v.toNat = 4 := by omega
  rcases this with h | h | h
  · left; exact UInt8.toNat_inj.1 h
  · right; left; exact UInt8.toNat_inj.1 h
  · right; right; exact UInt8.toNat_inj.1 h

/-- The KDF parameters are usable, and only depend on what both ends know. -/
theorem kxMeta_ok {s : Chain} {n : Node} {v : UInt8} (hv : 2 ≤ v.toNat ∧ v.toNat ≤ 4) (he : n.eph.isSome)
    (hs : 0 < s.root.key.pub.length ∧ s.root.key.pub.length ≤ 134)
    (hr : 0 < n.chain.root.key.pub.length ∧ n.chain.root.key.pub.length ≤ 134)
    (hd : 0 < n.devId.length ∧ n.devId.length ≤ 512) :
    ∃ m d, kxMeta s n none v = some m ∧ EcdhMeta m d ∧
      ∀ (s' : Chain) (n' : Node), s'.root.key.pub = s.root.key.pub → n'.chain.root.key.pub = n.chain.root.key.pub →
        n'.devId = n.devId → n'.eph.isSome → kxMeta s' n' none v = some m := by
  have hmb := maxBuffer_val
  have hi : ∃ info, kxInfo s n v = some info ∧ 0 < info.length ∧ info.length ≤ 1024 := by
    rcases version_cases hv with rfl | rfl | rfl
    · exact ⟨n.devId, by simp [kxInfo, dup_of ⟨hd.1, by omega⟩], by omega, by omega⟩
    all_goals
      refine ⟨s.root.key.pub ++ n.chain.root.key.pub ++ n.devId, ?_, by simp; omega, by simp; omega⟩
      simp only [kxInfo]
      have : concatMulti [some s.root.key.pub, some n.chain.root.key.pub, some n.devId] =
          some (s.root.key.pub ++ n.chain.root.key.pub ++ n.devId) := by
        rw [concatMulti_some]
        refine ⟨by simp [optBytes], ?_, ?_⟩ <;> simp <;> omega
      simp [this]
  obtain ⟨info, h1, h2, h3⟩ := hi
  have hcongr : ∀ (s' : Chain) (n' : Node), s'.root.key.pub = s.root.key.pub →
      n'.chain.root.key.pub = n.chain.root.key.pub → n'.devId = n.devId → kxInfo s' n' v = some info := by
    intro s' n' a b c
    rw [← h1]; simp [kxInfo, a, b, c]
  have key : ∃ a : KdfAlgo, ∃ d, a = hkdfAlgoForDigest d ∧ ∀ (s' : Chain) (n' : Node), s'.root.key.pub = s.root.key.pub →
      n'.chain.root.key.pub = n.chain.root.key.pub → n'.devId = n.devId → n'.eph.isSome →
      kxMeta s' n' none v = some ⟨a, none, some info⟩ := by
    rcases version_cases hv with rfl | rfl | rfl
    · refine ⟨hkdfSha256, .sha256, rfl, fun s' n' a b c e => ?_⟩
      have : n'.eph.isNone = false := by cases h : n'.eph <;> simp_all
      simp [kxMeta, hcongr s' n' a b c, this, dupOpt, kdfMetaCreate, hkdfSha256]
    · refine ⟨hkdfSha256, .sha256, rfl, fun s' n' a b c e => ?_⟩
      have : n'.eph.isNone = false := by cases h : n'.eph <;> simp_all
      simp [kxMeta, hcongr s' n' a b c, this, dupOpt, kdfMetaCreate, hkdfSha256]
    · refine ⟨hkdfSha512, .sha512, rfl, fun s' n' a b c e => ?_⟩
      have : n'.eph.isNone = false := by cases h : n'.eph <;> simp_all
      simp [kxMeta, hcongr s' n' a b c, this, dupOpt, kdfMetaCreate, hkdfSha512]
  obtain ⟨a, d, ha, hk⟩ := key
  refine ⟨⟨a, none, some info⟩, d, hk s n rfl rfl rfl he, ⟨ha, by simp, ?_, by simp⟩, hk⟩
  intro i hi
  cases hi
  exact ⟨h2, h3⟩

theorem KeyPair.copy {E : Engine} {k : EcKey} (h : E.KeyPair k) : ecKeyCopy k = some k := by
  have hmb := maxBuffer_val
  obtain ⟨p, hp, _, h0, h1⟩ := h.pri
  have h2 := h.pubLen
  have h3 : k.curve.maxPub = 134 := by cases k.curve; rfl
  have : ∀ q, k.pri = some q → ValidBuf q := by
    intro q hq; rw [hp] at hq; cases hq; exact ⟨h0, by omega⟩
  simp [ecKeyCopy, dup_of ⟨h2.1, by omega⟩, dupOpt_of this]

/-- What an exchange lets its recipient do. -/
def Spec.Opens (E : Engine) (s : Chain) (n : Node) (ex : EcKey) (pk : CipherKey) (v : UInt8) (x : KeyExchange) : Prop :=
  ∀ (kp : EcKey) (s' rc : Chain) (kid : UInt64) (sg : Option EcdsaResult) (st : Status) (ca : Option Bytes),
    Recipient E n kp → s'.root.key.pub = s.root.key.pub → rc.root.key.pub = n.chain.root.key.pub →
    kxDeriveKey E s' ⟨n.devId, rc, some ⟨kid, kp, sg⟩, st, ca⟩ { ex with pri := none } x none v = some pk

theorem layout_len_of {r : CipherResult} {ct : Bytes} (h : WfCipherResult r) (hc : r.ct = some ct) :
    (cipherResultLayout r).length = 1 + r.cipher.ivLen + r.cipher.tagLen + ct.length := by
  obtain ⟨c, iv, o, t⟩ := r
  simp only at hc
  subst hc
  obtain ⟨h1, h2, h3⟩ := h
  cases c
  · simp only [Cipher.isAuth, if_true] at h2
    obtain ⟨t', rfl, ht⟩ := h2
    simp only [cipherResultLayout, List.length_append, List.length_cons, List.length_nil, opt, h1, ht,
      Option.getD_some, Nat.zero_add]
  · simp only [Cipher.isAuth, Bool.false_eq_true, if_false] at h2
    subst h2
    simp only [cipherResultLayout, List.length_append, List.length_cons, List.length_nil, opt, h1, Cipher.tagLen,
      Option.getD_some, Option.getD_none, List.length_nil, Nat.zero_add]

/-- An exchange for a recipient exists, is small, and opens. -/
theorem kx_round {E : Engine} (hE : E.Lawful) {s : Chain} {n : Node} {ex : EcKey} {pk : CipherKey} {v : UInt8}
    {iv : Bytes} {kp : EcKey} (hv : 2 ≤ v.toNat ∧ v.toNat ≤ 4)
    (hs : 0 < s.root.key.pub.length ∧ s.root.key.pub.length ≤ 134) (hn : Recipient E n kp)
    (hex : E.KeyPair ex) (hpk : pk.key.length = pk.cipher.keyLen) (hiv : iv.length = 16) :
    ∃ x, kxCreateWithKey E s (nodeVerify E n).1 ex pk none v iv = some x ∧ x.id = n.chain.node.identifier ∧
      WfExchange x ∧ exchangeRoom x ≤ 257 ∧ Opens E s n ex pk v x := by
  have hmb := maxBuffer_val
  have hkl : pk.cipher.keyLen = 32 := by cases pk.cipher <;> rfl
  obtain ⟨e1, e2, e3, e4⟩ := nodeVerify_same E n
  have hll : (cipherKeyLayout pk).length = 33 := by
    simp only [cipherKeyLayout, List.length_append, List.length_cons, List.length_nil, hpk, hkl]
  have hser := (C11_cipher_key_round_trip pk hpk [] (by simp [hll]; omega))
  simp only [List.append_nil] at hser
  have key : ∀ kp, Recipient E n kp → ∃ r, ∃ x : KeyExchange,
      kxCreateWithKey E s (nodeVerify E n).1 ex pk none v iv = some x ∧
      x.id = n.chain.node.identifier ∧ x.ct = r ∧ WfCipherResult r ∧ r.cipher = .ctr ∧
      (∃ ct, r.ct = some ct ∧ ct.length = 33) ∧
      ∀ (s' rc : Chain) (kid : UInt64) (sg : Option EcdsaResult) (st : Status) (ca : Option Bytes),
        s'.root.key.pub = s.root.key.pub → rc.root.key.pub = n.chain.root.key.pub →
        kxDeriveKey E s' ⟨n.devId, rc, some ⟨kid, kp, sg⟩, st, ca⟩ { ex with pri := none } x none v = some pk := by
    intro kp hn
    obtain ⟨e, he, hep⟩ := hn.eph
    obtain ⟨m, d, hm, hmd, hmc⟩ := kxMeta_ok (s := s) (n := (nodeVerify E n).1) hv (by rw [e2, he]; rfl) hs
      (by rw [e3]; exact hn.root) (by rw [e1]; exact hn.dev)
    obtain ⟨r, r1, r2, r3, ⟨ct, r4, r5⟩, r6⟩ := C46_ends_agree E hE ex kp { ex with pri := none } e.key hex hn.pair rfl
      hep .ctr m d hmd (cipherKeyLayout pk) iv (by omega) (by omega) hiv
    have hdi : dup n.chain.node.identifier = some n.chain.node.identifier := by
      have := hn.id
      exact dup_of ⟨this.1, by omega⟩
    refine ⟨r, ⟨n.chain.node.identifier, e.identifier, r⟩, ?_, rfl, rfl, r3, r2, ⟨ct, r4, by omega⟩, ?_⟩
    · simp only [kxCreateWithKey, hser.1, Option.bind_some, kxCreateWithData, e2, he, KeyPair.copy hex, hm,
        exchangeCipherMatchingCipher, r1, e4, hdi, Option.map_some]
    · intro s' rc kid sg st ca h1 h2
      simp only [kxDeriveKey, kxDeriveData, KeyPair.copy hn.pair, Option.bind_some, r2]
      rw [hmc s' _ h1 (by simp only [e3]; exact h2) (by simp only [e1]) rfl]
      simp only [Option.bind_some, r6, hser.2]
  obtain ⟨r, x, h1, h2, h3, h4, h5, ⟨ct, h6, h7⟩, _⟩ := key kp hn
  subst h3
  have hlay := layout_len_of h4 h6
  rw [h5, h7] at hlay
  simp only [Cipher.ivLen, Cipher.tagLen] at hlay
  have hid := hn.id
  refine ⟨x, h1, h2, ⟨by rw [h2]; exact ⟨hid.1, by omega⟩, h4, by omega⟩, ?_, ?_⟩
  · simp only [exchangeRoom, h2]; omega
  · intro kp' s' rc kid sg st ca hr a b
    obtain ⟨_, x', g1, _, _, _, _, _, g⟩ := key kp' hr
    rw [h1] at g1
    cases g1
    exact g s' rc kid sg st ca a b

/-- One exchange per recipient, in order. -/
theorem exchanges_round {E : Engine} (hE : E.Lawful) {s : Chain} {ex : EcKey} {pk : CipherKey} {v : UInt8}
    {iv : Nat → Bytes} (hv : 2 ≤ v.toNat ∧ v.toNat ≤ 4)
    (hs : 0 < s.root.key.pub.length ∧ s.root.key.pub.length ≤ 134)
    (hex : E.KeyPair ex) (hpk : pk.key.length = pk.cipher.keyLen) (hiv : ∀ i, (iv i).length = 16) :
    ∀ (ns : List Node) (i : Nat), (∀ n ∈ ns, ∃ kp, Recipient E n kp) →
    ∃ xs, exchangesCreate E s ex pk v iv (ns.map fun n => some (nodeVerify E n).1) i = some xs ∧
      xs.map (·.id) = ns.map (·.chain.node.identifier) ∧ (∀ x ∈ xs, WfExchange x) ∧
      (xs.map exchangeRoom).sum ≤ 257 * ns.length ∧
      ∀ pre n post, ns = pre ++ n :: post → ∃ xpre x xpost, xs = xpre ++ x :: xpost ∧ xpre.length = pre.length ∧
        x.id = n.chain.node.identifier ∧ Opens E s n ex pk v x
  | [], i, _ => ⟨[], rfl, rfl, by simp, by simp, by simp⟩
  | n :: ns, i, h => by
    obtain ⟨kp, hn⟩ := h n (by simp)
    obtain ⟨x, x1, x2, x3, x4, x5⟩ := kx_round hE hv hs hn hex hpk (hiv i)
    obtain ⟨xs, h1, h2, h3, h4, h5⟩ := exchanges_round hE hv hs hex hpk hiv ns (i + 1) fun y hy => h y (by simp [hy])
    refine ⟨x :: xs, ?_, by simp [x2, h2], ?_, ?_, ?_⟩
    · simp only [List.map_cons, exchangesCreate, x1, Option.bind_some, h1, Option.map_some]
    · intro y hy
      rcases List.mem_cons.1 hy with rfl | hy
      · exact x3
      · exact h3 y hy
    · simp only [List.map_cons, List.sum_cons, List.length_cons]; omega
    · intro pre m post hp
      cases pre with
      | nil =>
        simp only [List.nil_append, List.cons.injEq] at hp
        obtain ⟨rfl, rfl⟩ := hp
        exact ⟨[], x, xs, rfl, rfl, x2, x5⟩
      | cons p pre =>
        simp only [List.cons_append, List.cons.injEq] at hp
        obtain ⟨xpre, y, xpost, g1, g2, g3, g4⟩ := h5 pre m post hp.2
        exact ⟨x :: xpre, y, xpost, by simp [g1], by simp [g2], g3, g4⟩

theorem PPacket.size (m : PPacket) : (fieldsEnc m.pack).length ≤ 40 + m.encHeader.length + m.encPayload.length := by
  have h1 := size_putBytes 1 (some m.encHeader)
  have h2 := size_putBytes 2 (some m.encPayload)
  simp only [PPacket.pack, fieldsEnc_append, List.length_append, optBytes] at *; omega

theorem genHeaderKey_view {E : Engine} {v c : Chain} (h : ViewOf v c) (g : Cipher) :
    genHeaderKey E g v = genHeaderKey E g c := by simp [genHeaderKey, h.rootId, h.nodeId]

theorem genHeaderKey_len {E : Engine} {g : Cipher} {c : Chain} {k : CipherKey} (h : genHeaderKey E g c = some k) :
    k.cipher = g ∧ k.key.length = g.keyLen := by
  simp only [genHeaderKey, Option.bind_eq_some_iff, cipherKeyCreate] at h
  obtain ⟨b, _, h⟩ := h
  split at h
  · simp at h
  · next hl => cases h; exact ⟨rfl, Decidable.byContradiction hl⟩

/-- A packet encoded by a sender, and what parsing it gives. -/
theorem encode_parse {E : Engine} (hE : E.Lawful) {c : Ctx} {p : Payload} {ns : List Node} {pk : CipherKey}
    {ex : EcKey} {rnd : MsgRand} (hc : Sender E c) (hn : ∀ n ∈ ns, ∃ kp, Recipient E n kp) (h0 : ns ≠ [])
    (hr : GoodRand E pk ex rnd) (ht : p.hdr.channelTag ≠ []) (hb : p.body ≠ [])
    (hs : p.hdr.channelTag.length + p.body.length + 257 * ns.length + 1000 ≤ maxBuffer) :
    ∃ (m : Msg) (b : Bytes) (xs : List KeyExchange) (pl : CipherResult),
      ctxEncode E c p (ns.map some) pk ex rnd = (ns.map fun n => some (nodeVerify E n).1, .ok ⟨pk, m⟩) ∧ msgSerialize m = some b ∧
      msgFromBuffer b = some m ∧ m.version = c.version ∧
      xs.map (fun x => (x.id, some x.keyId)) = ns.map recipientEntry ∧ (∀ x ∈ xs, WfExchange x) ∧
      (∀ pre n post, ns = pre ++ n :: post → ∃ xpre x xpost, xs = xpre ++ x :: xpost ∧ xpre.length = pre.length ∧
        x.id = n.chain.node.identifier ∧ Opens E c.chain n ex pk c.version x) ∧
      payloadFromCipher E (some pl) pk = some p ∧
      ∀ (v : Chain) (nodeId : Option Bytes), ViewOf v c.chain →
        parseFromPacket E m nodeId (genHeaderKey E) (some v) =
          match nodeId with
          | none => .ok ⟨.success, .valid, some ⟨{ ex with pri := none }, xs.map some⟩, none, some pl⟩
          | some i => match xs.find? (fun x => x.id == i) with
            | none => .ok ⟨.nodeNotFound, .valid, none, none, none⟩
            | some x => .ok ⟨.success, .valid, some ⟨{ ex with pri := none }, xs.map some⟩, some x, some pl⟩ := by
  have hmb := maxBuffer_val
  have hex := hr.ex
  have hpub := hex.pubLen
  have hmp : ex.curve.maxPub = 134 := by cases ex.curve; rfl
  obtain ⟨hk1, hk2⟩ := genHeaderKey_len hc.header
  have hval := recipientsValidate_of (E := E) (ns := ns) fun n h => by
    obtain ⟨kp, g⟩ := hn n h; exact g.verified
  obtain ⟨xs, x1, x2, x3, x4, x5⟩ := exchanges_round hE (pk := pk) (ex := ex) (iv := rnd.exIv) hc.version hc.root hex
    (by rw [hr.key, hr.cipher]; rfl) hr.exIv ns 0 hn
  have hx0 : xs ≠ [] := by
    rintro rfl
    have := congrArg List.length x2
    simp at this
    exact h0 (List.length_eq_zero_iff.1 this.symm)
  obtain ⟨hd, hct, a1, a2, a3, a4, a5, a6⟩ := C40_encrypted_round_trip E hE ex xs c.headerKey rnd.hdrIv x3 hx0 hex.pub
    (by omega) (by rw [hk2, hk1]) (by rw [hk1]; rfl) (by rw [hr.hdrIv, hk1]; rfl)
  obtain ⟨pl, pct, b1, b2, b3, b4, b5, b6⟩ := C41_encrypted_round_trip E hE p pk rnd.payIv ht hb (by omega)
    (by rw [hr.key, hr.cipher]; rfl) (by rw [hr.cipher]; rfl) (by rw [hr.payIv, hr.cipher]; rfl)
  have l1 := layout_len_of a3 a4
  have l2 := layout_len_of b3 b4
  rw [a2, hk1] at l1
  rw [b2, hr.cipher] at l2
  simp only [Cipher.ivLen, Cipher.tagLen] at l1 l2
  obtain ⟨c1, c2⟩ := C10_cipher_result_round_trip hd a3 (by omega)
  obtain ⟨d1, d2⟩ := C10_cipher_result_round_trip pl b3 (by omega)
  have hps := PPacket.size ⟨cipherResultLayout hd, cipherResultLayout pl⟩
  simp only at hps
  have hpk : protoPack (PPacket.pack ⟨cipherResultLayout hd, cipherResultLayout pl⟩) =
      some (fieldsEnc (PPacket.pack ⟨cipherResultLayout hd, cipherResultLayout pl⟩)) :=
    protoPack_ok (by simp [PPacket.pack, putBytes]) (by omega)
  obtain ⟨content, hcont⟩ : ∃ x, x = fieldsEnc (PPacket.pack ⟨cipherResultLayout hd, cipherResultLayout pl⟩) := ⟨_, rfl⟩
  rw [← hcont] at hpk hps
  have hc0 : 0 < content.length := by
    have := (dup_eq_some.1 hpk).1.1
    rw [hcont]; exact this
  obtain ⟨sg, s1, s2, s3, s4, s5, s6⟩ := hE.sign_verify c.chain.node.key content .sha512 rnd.nonce hc.node
  have hcurve : sg.curve.sigSize = c.chain.node.key.curve.sigSize := by rw [s2]
  have hwf : WfMsg ⟨c.version, content, sg⟩ :=
    ⟨hc.version, by simp only; intro h; simp [h] at hc0, by simp only [s3], ⟨List.length_pos_iff.1 s4, by rw [hcurve]; exact s5⟩⟩
  obtain ⟨w1, w2, w3⟩ := C16_round_trip _ hwf (by simp only; omega)
  have hfit : ¬ ¬ arrayFits (ns.map some).length = true := by
    simp only [List.length_map, arrayFits, decide_eq_true_eq, Decidable.not_not]; omega
  have hlen : ¬ (ns.map some).length = 0 := by
    simp only [List.length_map, List.length_eq_zero_iff]; exact h0
  have hmsg : msgCreate E c.headerKey pk ex p (ns.map some) c.chain c.version rnd =
      (ns.map fun n => some (nodeVerify E n).1, .ok ⟨c.version, content, sg⟩) := by
    simp only [msgCreate, if_neg hlen, hval, Bool.not_true, Bool.false_eq_true, if_false, if_neg hfit, x1, a1, b1,
      msgCreateWithComponents, c1, d1, hpk, digestMatchingCurve, s1]
  refine ⟨⟨c.version, content, sg⟩, _, xs, pl, ?_, w1, w3, rfl, ?_, x3, x5, b6, ?_⟩
  · simp only [ctxEncode, hmsg, Res.bind]
  · exact exchangesCreate_ids x1
  · intro v nodeId hv
    rw [parseFromPacket_some, s6 v.node.key hv.nodePub, if_pos rfl]
    have hun : (fieldsDec content).bind PPacket.unpack = some ⟨cipherResultLayout hd, cipherResultLayout pl⟩ :=
      PPacket.lawful.round_trip _ _ hpk
    have hset : exchangeSetFromCipher E hd (genHeaderKey E hd.cipher v) = some ⟨{ ex with pri := none }, xs.map some⟩ := by
      rw [a2, hk1, genHeaderKey_view hv, hc.header]; exact a6
    unfold parseContent
    simp only [hun, c2, hset, d2]
    cases nodeId with
    | none => rfl
    | some i =>
      simp only []
      rw [C40_find_first _ xs x3 i]
      cases hf : xs.find? (fun x => x.id == i) with
      | none => simp [Res.ofOption, parseFailure]
      | some x => simp [Res.ofOption]

theorem readPacket_of {E : Engine} {b : Bytes} {m : Msg} {v : Chain} {nodeId : Option Bytes} {r : ParseResult}
    (hm : msgFromBuffer b = some m) (hv : (chainCopy v).isSome)
    (hp : parseFromPacket E m nodeId (genHeaderKey E) (some v) = .ok r) :
    ∃ v', chainCopy v = some v' ∧ readPacket E b nodeId (some v) = .ok ⟨m, v', r⟩ := by
  obtain ⟨v', hv'⟩ := Option.isSome_iff_exists.1 hv
  exact ⟨v', hv', by simp [readPacket, hm, hp, Res.bind, hv']⟩

/-- C35.  For every lawful engine, sending context, version 2 to 4, payload and list of recipients
that verify (of any length that fits a buffer): encoding succeeds, and every recipient that no earlier
one shares its node identifier with, on its own device, with its own ephemeral key pair and any view of
the sender's chain with the right identifiers and public keys, parses the serialized packet with a
valid signature and decodes it to the same payload and key.

The lists where several recipients have the same node identifier are treated by the witness
`C35_duplicate_identifier_cannot_read`. -/
theorem C35_every_recipient_reads_partial (E : Engine) (hE : E.Lawful) (c : Ctx) (p : Payload) (ns : List Node)
    (pk : CipherKey) (ex : EcKey) (rnd : MsgRand) (hc : Sender E c) (hn : ∀ n ∈ ns, ∃ kp, Recipient E n kp)
    (h0 : ns ≠ []) (hr : GoodRand E pk ex rnd) (ht : p.hdr.channelTag ≠ []) (hb : p.body ≠ [])
    (hs : p.hdr.channelTag.length + p.body.length + 257 * ns.length + 1000 ≤ maxBuffer) :
    ∃ m b, (ctxEncode E c p (ns.map some) pk ex rnd).2 = .ok ⟨pk, m⟩ ∧ msgSerialize m = some b ∧
      ∀ pre n post kp rc v, ns = pre ++ n :: post →
        (∀ q ∈ pre, q.chain.node.identifier ≠ n.chain.node.identifier) →
        Recipient E n kp → DeviceOf rc n → ViewOf v c.chain →
        ∃ pkt, ctxParse E rc b (some v) = .ok pkt ∧ pkt.parse.err = .success ∧ pkt.parse.sigStatus = .valid ∧
          ctxDecode E rc pkt (some kp) = .ok ⟨.success, some p, some pk⟩ := by
  obtain ⟨m, b, xs, pl, h1, h2, h3, h4, h5, h6, h7, h8, h9⟩ := encode_parse hE hc hn h0 hr ht hb hs
  refine ⟨m, b, by rw [h1], h2, ?_⟩
  intro pre n post kp rc v hp hd hrec hdev hview
  obtain ⟨xpre, x, xpost, g1, g2, g3, g4⟩ := h7 pre n post hp
  have hids : xpre.map (·.id) = pre.map (·.chain.node.identifier) := by
    have e := congrArg (List.map Prod.fst) h5
    simp only [List.map_map] at e
    have e' : xs.map (·.id) = ns.map (·.chain.node.identifier) := e
    rw [g1, hp] at e'
    simp only [List.map_append] at e'
    exact (List.append_inj e' (by simp [g2])).1
  have hfind : xs.find? (fun y => y.id == n.chain.node.identifier) = some x := by
    rw [g1, List.find?_append]
    have : xpre.find? (fun y => y.id == n.chain.node.identifier) = none := by
      rw [List.find?_eq_none]
      intro y hy
      have : y.id ∈ pre.map (·.chain.node.identifier) := by rw [← hids]; exact List.mem_map_of_mem hy
      obtain ⟨q, hq, hqe⟩ := List.mem_map.1 this
      have := hd q hq
      simp [← hqe, this]
    rw [this]
    simp [g3]
  have hparse := h9 v (some n.chain.node.identifier) hview
  simp only [hfind] at hparse
  obtain ⟨v', hv', hread⟩ := readPacket_of h3 hview.copyable hparse
  refine ⟨⟨m, v', _⟩, by rw [ctxParse, hdev.node]; exact hread, rfl, rfl, ?_⟩
  have hroot : v'.root.key.pub = c.chain.root.key.pub := by
    have := (chainCopy_same hv').1.1
    rw [this.2.2.1]; exact hview.rootPub
  have hder := g4 kp v' rc.chain 0 none .unknown none hrec hroot hdev.root
  simp only [ctxDecode, decodeFromParse, ne_eq, not_true_eq_false, or_self, if_false, Option.bind_some, hdev.dev, h4,
    hder, h8]

/-- C35 for recipients with pairwise distinct node identifiers: all of them read the message. -/
theorem C35_distinct_recipients_all_read (E : Engine) (hE : E.Lawful) (c : Ctx) (p : Payload) (ns : List Node)
    (pk : CipherKey) (ex : EcKey) (rnd : MsgRand) (hc : Sender E c) (hn : ∀ n ∈ ns, ∃ kp, Recipient E n kp)
    (hdis : ns.Pairwise fun a b => a.chain.node.identifier ≠ b.chain.node.identifier)
    (h0 : ns ≠ []) (hr : GoodRand E pk ex rnd) (ht : p.hdr.channelTag ≠ []) (hb : p.body ≠ [])
    (hs : p.hdr.channelTag.length + p.body.length + 257 * ns.length + 1000 ≤ maxBuffer) :
    ∃ m b, (ctxEncode E c p (ns.map some) pk ex rnd).2 = .ok ⟨pk, m⟩ ∧ msgSerialize m = some b ∧
      ∀ n ∈ ns, ∀ kp rc v, Recipient E n kp → DeviceOf rc n → ViewOf v c.chain →
        ∃ pkt, ctxParse E rc b (some v) = .ok pkt ∧ pkt.parse.err = .success ∧ pkt.parse.sigStatus = .valid ∧
          ctxDecode E rc pkt (some kp) = .ok ⟨.success, some p, some pk⟩ := by
  obtain ⟨m, b, h1, h2, h3⟩ := C35_every_recipient_reads_partial E hE c p ns pk ex rnd hc hn h0 hr ht hb hs
  refine ⟨m, b, h1, h2, fun n hm kp rc v a1 a2 a3 => ?_⟩
  obtain ⟨pre, post, hp⟩ := List.append_of_mem hm
  refine h3 pre n post kp rc v hp ?_ a1 a2 a3
  rw [hp, List.pairwise_append] at hdis
  intro q hq
  exact hdis.2.2 q hq n (by simp)

/-- C36.  Under the same assumptions, whoever parses the packet for an identifier that is not among
the recipients' gets NODE_NOT_FOUND with a valid signature and nothing else, and cannot decode, with
any key. -/
theorem C36_others_are_told_so (E : Engine) (hE : E.Lawful) (c : Ctx) (p : Payload) (ns : List Node)
    (pk : CipherKey) (ex : EcKey) (rnd : MsgRand) (hc : Sender E c) (hn : ∀ n ∈ ns, ∃ kp, Recipient E n kp)
    (h0 : ns ≠ []) (hr : GoodRand E pk ex rnd) (ht : p.hdr.channelTag ≠ []) (hb : p.body ≠ [])
    (hs : p.hdr.channelTag.length + p.body.length + 257 * ns.length + 1000 ≤ maxBuffer) :
    ∃ m b, (ctxEncode E c p (ns.map some) pk ex rnd).2 = .ok ⟨pk, m⟩ ∧ msgSerialize m = some b ∧
      ∀ (rc : Ctx) (v : Chain) (key : Option EcKey), ViewOf v c.chain →
        (∀ n ∈ ns, n.chain.node.identifier ≠ rc.chain.node.identifier) →
        ∃ pkt, ctxParse E rc b (some v) = .ok pkt ∧ pkt.parse = ⟨.nodeNotFound, .valid, none, none, none⟩ ∧
          ctxDecode E rc pkt key = .null := by
  obtain ⟨m, b, xs, pl, h1, h2, h3, h4, h5, h6, h7, h8, h9⟩ := encode_parse hE hc hn h0 hr ht hb hs
  refine ⟨m, b, by rw [h1], h2, ?_⟩
  intro rc v key hview hno
  have hfind : xs.find? (fun y => y.id == rc.chain.node.identifier) = none := by
    rw [List.find?_eq_none]
    intro y hy
    have e := congrArg (List.map Prod.fst) h5
    simp only [List.map_map] at e
    have e' : xs.map (·.id) = ns.map (·.chain.node.identifier) := e
    have : y.id ∈ ns.map (·.chain.node.identifier) := by rw [← e']; exact List.mem_map_of_mem hy
    obtain ⟨q, hq, hqe⟩ := List.mem_map.1 this
    have := hno q hq
    simp [← hqe, this]
  have hparse := h9 v (some rc.chain.node.identifier) hview
  simp only [hfind] at hparse
  obtain ⟨v', hv', hread⟩ := readPacket_of h3 hview.copyable hparse
  refine ⟨⟨m, v', _⟩, hread, rfl, ?_⟩
  cases key <;> simp [ctxDecode, decodeFromParse]

/-- C38, seen from the outside: parsing without a node id lists one exchange per recipient, in order,
with node identifier and ephemeral key id.  It needs no private key: identifiers and public keys of
the sender's chain are enough to read the list of recipients. -/
theorem C38_recipients_are_listed (E : Engine) (hE : E.Lawful) (c : Ctx) (p : Payload) (ns : List Node)
    (pk : CipherKey) (ex : EcKey) (rnd : MsgRand) (hc : Sender E c) (hn : ∀ n ∈ ns, ∃ kp, Recipient E n kp)
    (h0 : ns ≠ []) (hr : GoodRand E pk ex rnd) (ht : p.hdr.channelTag ≠ []) (hb : p.body ≠ [])
    (hs : p.hdr.channelTag.length + p.body.length + 257 * ns.length + 1000 ≤ maxBuffer) :
    ∃ m b, (ctxEncode E c p (ns.map some) pk ex rnd).2 = .ok ⟨pk, m⟩ ∧ msgSerialize m = some b ∧
      ∀ v : Chain, ViewOf v c.chain → ∃ pkt set, ctxParseNoDecode E b (some v) = .ok pkt ∧
        pkt.parse.err = .success ∧ pkt.parse.set = some set ∧ pkt.parse.exchange = none ∧
        set.senderPub = { ex with pri := none } ∧
        set.exchanges.map (·.map fun x => (x.id, some x.keyId)) = ns.map fun n => some (recipientEntry n) := by
  obtain ⟨m, b, xs, pl, h1, h2, h3, h4, h5, h6, h7, h8, h9⟩ := encode_parse hE hc hn h0 hr ht hb hs
  refine ⟨m, b, by rw [h1], h2, ?_⟩
  intro v hview
  have hparse := h9 v none hview
  simp only at hparse
  obtain ⟨v', hv', hread⟩ := readPacket_of h3 hview.copyable hparse
  refine ⟨⟨m, v', _⟩, _, hread, rfl, rfl, rfl, rfl, ?_⟩
  have := congrArg (List.map some) h5
  simpa [Function.comp_def] using this

end Wickr
