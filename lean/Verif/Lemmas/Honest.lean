import Verif.Lemmas.Handshake
import Verif.Props.TransportSign
import Verif.Props.Ecdh
set_option linter.unusedSimpArgs false
/-
The honest run of the handshake, step by step.
-/
namespace Wickr
open Spec

theorem PSeed.size (c : PChain) (b : Bytes) (r : Bool) :
    (fieldsEnc (PHandshake.pack (.seed ⟨some c, some b, some r⟩))).length ≤ 80 + (fieldsEnc c.pack).length + b.length := by
  have h1 := size_putMsg PChain.pack 2 (some c)
  have h2 := size_putBytes 3 (some b)
  have h3 := size_putBool 4 (some r)
  have h4 := size_putMsg PSeed.pack 2 (some ⟨some c, some b, some r⟩)
  simp only [PHandshake.pack, PSeed.pack, fieldsEnc_append, List.length_append, optBytes] at *; omega

theorem PResponse.size (e b : Bytes) (c : Option PChain) :
    (fieldsEnc (PHandshake.pack (.response ⟨some e, some b, c⟩))).length ≤ 80 + e.length + b.length +
      match c with
      | none => 0
      | some c => (fieldsEnc c.pack).length := by
  have h1 := size_putBytes 2 (some e)
  have h2 := size_putBytes 3 (some b)
  have h3 := size_putMsg PChain.pack 4 c
  have h4 := size_putMsg PResponse.pack 3 (some ⟨some e, some b, c⟩)
  cases c <;> simp only [PHandshake.pack, PResponse.pack, fieldsEnc_append, List.length_append, optBytes] at * <;>
    omega

theorem PHandshake.pack_ne (m : PHandshake) (h : m ≠ .unset) : m.pack ≠ [] := by
  cases m <;> simp_all [PHandshake.pack, putMsg]

/-- Building, signing, sending and parsing a handshake message. -/
theorem build_ok {E : Engine} (hE : E.Lawful) (h : Handshake) (hk : E.KeyPair h.self.node.key)
    (m : PHandshake) (hm : m ≠ .unset) (hs : (fieldsEnc m.pack).length ≤ 10000) (nonce : Bytes) (second : Bool) :
    ∃ q w q', hsBuildSigned E h m nonce second = (hsSetSlot h second (some w), some q) ∧
      pktSerialize q = some w ∧ pktFromBuffer w = some q' ∧ q'.network = some w ∧
      handshakeFromPacket q' = some m ∧ pktVersionByte q' = 1 ∧ 0 < w.length ∧ w.length ≤ 20000 ∧
      ∀ c : Chain, c.node.key.pub = h.self.node.key.pub → (chainValidate E c).2 = true →
        (pktVerify E q' c).2.2 = true := by
  have hmb := maxBuffer_val
  have hne := PHandshake.pack_ne m hm
  have hpos := fieldsEnc_pos hne
  have hpk := protoPack_ok hne (by omega)
  obtain ⟨q, w, q', h1, h2, h3, h4, h5, h6, h7, h8⟩ := C15_sign_verify E hE
    (pktCreate (metaInitHandshake 1 macNone) (fieldsEnc m.pack)) rfl (List.length_pos_iff.1 hpos)
    (by show (fieldsEnc m.pack).length ≤ _; omega) h.self hk nonce
  have hwl : 0 < w.length ∧ w.length ≤ maxBuffer := (concatMulti_some.1 h3).2
  have h7' : w.length ≤ 11 + (fieldsEnc m.pack).length + 143 := h7
  refine ⟨q, w, q', ?_, h3, h4, (C14_packet_reserialize w hwl.2 q' h4).2.1, ?_, ?_, hwl.1, by omega,
    fun c hc hv => (h8 c hc hv).1⟩
  · simp only [hsBuildSigned, handshakeToPacket, hpk, Option.map_some, h1, h2]
  · have : q'.hdr.body = .handshake 1 0 := by rw [h6]; rfl
    simp only [handshakeFromPacket, this, h5]
    exact PHandshake.lawful.round_trip m _ hpk
  · have : q'.hdr.body = .handshake 1 0 := by rw [h6]; rfl
    simp [pktVersionByte, this]

theorem publicHalf_build {i j : Identity} (h : publicHalf i = publicHalf j) :
    identityBuildProto i false = identityBuildProto j false := by
  obtain ⟨t, id, ⟨c, p, s⟩, sg⟩ := i
  obtain ⟨t', id', ⟨c', p', s'⟩, sg'⟩ := j
  simp only [publicHalf, Identity.mk.injEq, EcKey.mk.injEq] at h
  obtain ⟨rfl, rfl, ⟨-, rfl, -⟩, h4⟩ := h
  cases t <;> simp_all [identityBuildProto]

theorem publicHalf_serialize {c d : Chain} (hr : publicHalf d.root = publicHalf c.root)
    (hn : publicHalf d.node = publicHalf c.node) : chainSerialize d false = chainSerialize c false := by
  simp [chainSerialize, chainBuildProto, publicHalf_build hr, publicHalf_build hn]

theorem publicHalf_idem (i : Identity) : publicHalf (publicHalf i) = publicHalf i := by
  obtain ⟨t, id, ⟨c, p, s⟩, sg⟩ := i
  cases t <;> simp [publicHalf]

theorem publicHalf_pub (i : Identity) : (publicHalf i).key.pub = i.key.pub := rfl

theorem wf_publicHalf_copy {E : Engine} (hE : E.Lawful) {i : Identity} (h : WfIdentity E i) :
    identityCopy (publicHalf i) = some (publicHalf i) := by
  have hmb := maxBuffer_val
  have hi := h.id
  have hk := hE.import_len _ _ _ h.pub
  have hp : i.key.pub.length ≤ 134 := by
    have := hk.2.1
    simp only at this
    cases hc : i.key.curve
    rw [hc] at this; exact this
  have hpos : 0 < i.key.pub.length := hk.1
  have h1 : dup i.identifier = some i.identifier := dup_of ⟨by omega, by omega⟩
  have h2 : dup i.key.pub = some i.key.pub := dup_of ⟨by omega, by omega⟩
  have h3 : ¬ i.identifier.length ≥ 128 := by omega
  unfold identityCopy
  simp only [publicHalf, h1, Option.bind_some, ecKeyCopy, h2, identityCreate, if_neg h3]
  cases ht : i.type with
  | root => simp [dupOpt]
  | node =>
    obtain ⟨s, hs, hs1, hs2⟩ := h.sig ht
    have hs3 : s.sig.length ≤ 200 := by
      cases hc : s.curve
      rw [hc] at hs2; simp only [Curve.sigSize] at hs2; omega
    have : dup s.sig = some s.sig := dup_of ⟨by omega, by omega⟩
    simp [dupOpt, hs, ecdsaCopy, this]

/-- The receiver ends up with a chain that has the sender's public data, and accepts the packet. -/
theorem remote_ok {E : Engine} (hE : E.Lawful) {c : Chain} (hc : Party E c) {h : Handshake}
    (hx : Expects E h.remote c) {q : Packet} (hq : ∀ d : Chain, d.node.key.pub = c.node.key.pub →
      (chainValidate E d).2 = true → (pktVerify E q d).2.2 = true)
    {p : PChain} (hp : chainBuildProto c false = some p) {pc : Option PChain} (hpc : h.remote = none → pc = some p) :
    ∃ d, hsRemoteIdentity E h q pc = ({ h with remote := some d, status := if h.remote.isNone then .pendingVerification
        else h.status }, true) ∧ chainSerialize d false = chainSerialize c false ∧
      (h.remote = none → ∃ e, chainCopy d = some e) := by
  have hmb := maxBuffer_val
  unfold hsRemoteIdentity
  cases hr : h.remote with
  | some d =>
    obtain ⟨h1, h2, h3⟩ := hx d hr
    have hpub : d.node.key.pub = c.node.key.pub := by rw [← publicHalf_pub, h2, publicHalf_pub]
    obtain ⟨v1, v2⟩ := pktVerify_chain E q d
    refine ⟨(pktVerify E q d).2.1, ?_, ?_, by simp⟩
    · simp [hq d hpub h3]
    · exact publicHalf_serialize (by rw [v1, h1]) (by rw [v2, h2])
  | none =>
    rw [hpc hr]
    obtain ⟨p', hp', -, -, hfrom⟩ := chain_proto_round_trip hE hc.root hc.node false (by simp)
    rw [hp] at hp'; cases hp'
    have hfrom : chainFromProto E p = some (chainCreate (publicHalf c.root) (publicHalf c.node)) := hfrom
    have hgen : ChainGenuine E (chainCreate (publicHalf c.root) (publicHalf c.node)) := by
      obtain ⟨s, hs, hv⟩ := hc.genuine
      refine ⟨s, by simp [chainCreate, publicHalf, hc.type, hs], ?_⟩
      rw [hE.verify_pub s c.root.key _ _ (by rfl)]
      exact hv
    have hval := (chainValidate_fresh (c := chainCreate (publicHalf c.root) (publicHalf c.node)) rfl).2 hgen
    obtain ⟨v1, v2⟩ := pktVerify_chain E q (chainCreate (publicHalf c.root) (publicHalf c.node))
    have hcache : ∀ x, (pktVerify E q (chainCreate (publicHalf c.root) (publicHalf c.node))).2.1.cache = some x →
        ValidBuf x := by
      have hdig : ∀ b s d h, E.digest b s d = some h → ValidBuf h := by
        intro b s d h hh
        obtain ⟨g, hg, hl⟩ := hE.digest_len b s d
        rw [hh] at hg; cases hg
        constructor <;> cases d <;> simp only [Digest.size] at hl <;> omega
      have hv : ∀ x, (chainValidate E (chainCreate (publicHalf c.root) (publicHalf c.node))).1.cache = some x →
          ValidBuf x := by
        intro x hx
        unfold chainValidate at hx
        split at hx
        · simp [chainCreate] at hx
        · simp only [chainUpdateCache, chainStatusCache] at hx
          split at hx
          · simp at hx
          · obtain ⟨b, -, hd⟩ := Option.bind_eq_some_iff.1 hx
            exact hdig _ _ _ _ hd
      unfold pktVerify
      split
      · simp [chainCreate]
      · split
        · simp [chainCreate]
        · split
          · simp [chainCreate]
          · rcases hcv : chainValidate E (chainCreate (publicHalf c.root) (publicHalf c.node)) with ⟨d, ok⟩
            rw [hcv] at hv
            simp only []
            split
            · exact hv
            · split
              · exact hv
              · split <;> exact hv
    refine ⟨(pktVerify E q (chainCreate (publicHalf c.root) (publicHalf c.node))).2.1, ?_, ?_, ?_⟩
    · simp only [Option.bind_some, hfrom, Option.isNone_none, if_true]
      rw [hq (chainCreate (publicHalf c.root) (publicHalf c.node)) rfl hval]
    · refine publicHalf_serialize ?_ ?_
      · rw [v1]; exact publicHalf_idem _
      · rw [v2]; exact publicHalf_idem _
    · intro _
      have w1 : identityCopy (chainCreate (publicHalf c.root) (publicHalf c.node)).root = _ := wf_publicHalf_copy hE hc.root
      have w2 : identityCopy (chainCreate (publicHalf c.root) (publicHalf c.node)).node = _ := wf_publicHalf_copy hE hc.node
      unfold chainCopy
      rw [v1, v2, w1, w2, dupOpt_of hcache]
      exact ⟨_, rfl⟩

/-- Both sides derive the same KDF parameters. -/
theorem kdfMeta_ok {E : Engine} (hE : E.Lawful) {a b : Handshake} (hia : a.isInitiator = true)
    (hib : b.isInitiator = false) (ha : Party E a.self) (hb : Party E b.self) {da db : Chain}
    (hra : a.remote = some db) (hrb : b.remote = some da)
    (hda : chainSerialize da false = chainSerialize a.self false)
    (hdb : chainSerialize db false = chainSerialize b.self false) {ka kb ka' kb' : EcKey}
    (hka : E.KeyPair ka) (hkb : E.KeyPair kb) (hka' : ka'.pub = ka.pub) (hkb' : kb'.pub = kb.pub) :
    ∃ m, hsKdfMeta E a ka kb' = some m ∧ hsKdfMeta E b kb ka' = some m ∧ EcdhMeta m .sha512 := by
  have hmb := maxBuffer_val
  have hser : ∀ {c : Chain}, Party E c → ∃ s, chainSerialize c false = some s ∧ 0 < s.length ∧ s.length ≤ 3100 := by
    intro c hc
    obtain ⟨p, hp, hl, hne, -⟩ := chain_proto_round_trip hE hc.root hc.node false (by simp)
    have hpk : protoPack p.pack = some (fieldsEnc p.pack) := protoPack_ok hne (by omega)
    exact ⟨_, by simp [chainSerialize, hp, hpk], fieldsEnc_pos hne, hl⟩
  obtain ⟨sa, hsa, sa0, sal⟩ := hser ha
  obtain ⟨sb, hsb, sb0, sbl⟩ := hser hb
  have lka := hka.pubLen
  have lkb := hkb.pubLen
  have l1 : ka.pub.length ≤ 134 := by
    have := lka.2; cases hc : ka.curve; rw [hc] at this; exact this
  have l2 : kb.pub.length ≤ 134 := by
    have := lkb.2; cases hc : kb.curve; rw [hc] at this; exact this
  have hcat : concatMulti [some sa, some sb, some ka.pub, some kb.pub] = some (sa ++ (sb ++ (ka.pub ++ kb.pub))) := by
    apply concatMulti_some.2
    refine ⟨by simp [optBytes], ?_, ?_⟩ <;> simp only [List.length_append] <;> omega
  obtain ⟨h, hh, hl⟩ := hE.digest_len (sa ++ (sb ++ (ka.pub ++ kb.pub))) none .sha512
  have hl : h.length = 64 := hl
  refine ⟨⟨hkdfSha512, none, some h⟩, ?_, ?_, ⟨rfl, by simp, ?_, by simp⟩⟩
  · simp only [hsKdfMeta, hsa, hra, hdb, hsb, hia, if_true, hkb', hcat, hh, Option.bind_some]
    rfl
  · simp only [hsKdfMeta, hsb, hrb, hda, hsa, hib, hka', hcat, hh, Option.bind_some, Bool.false_eq_true, if_false]
    rfl
  · intro i hi; cases hi; omega

theorem rootKey_proto (k : RootKey) (h : k.secret.length = k.cipher.keyLen) :
    rootKeyFromProto (rootKeyToProto k) = some k := by
  have hmb := maxBuffer_val
  obtain ⟨s, c, a, b⟩ := k
  have hkl : c.keyLen = 32 := by cases c <;> rfl
  have hd : dup s = some s := dup_of ⟨by simp only at h; omega, by simp only at h; omega⟩
  have hf : Cipher.find c.id = some c := by cases c <;> rfl
  simp only at h
  simp [rootKeyFromProto, rootKeyToProto, hd, hf, rootKeyCreate, h]

/-- The response message for a root key, and what the initiator reads from it. -/
theorem response_ok {E : Engine} (hE : E.Lawful) {b : Handshake} (_hb : Party E b.self) {ka kb ka' kb' : EcKey}
    (hka : E.KeyPair ka) (hkb : E.KeyPair kb) (hka' : ka'.pub = ka.pub) (hkb' : kb'.pub = kb.pub) {m : KdfMeta}
    (hm : hsKdfMeta E b kb ka' = some m) (hme : EcdhMeta m .sha512) (rk : RootKey)
    (hrk : rk.secret.length = rk.cipher.keyLen) (iv : Bytes) (hiv : iv.length = 12) (req : Bool)
    {p : PChain} (hp : chainBuildProto b.self false = some p) (hpl : (fieldsEnc p.pack).length ≤ 3100) :
    ∃ r ed, hsMakeResponse E b rk kb ka' iv req =
        some (.response ⟨some kb.pub, some ed, if req then some p else none⟩) ∧
      (dup ed).bind cipherResultFromBuffer = some r ∧
      (fieldsEnc (PHandshake.pack (.response ⟨some kb.pub, some ed, if req then some p else none⟩))).length ≤ 10000 ∧
      ∀ a : Handshake, hsKdfMeta E a ka kb' = some m → hsOpenResponse E a ka kb' r = some rk := by
  have hmb := maxBuffer_val
  have hsec : rk.secret.length = 32 := by rw [hrk]; cases rk.cipher <;> rfl
  have hne : PResponseData.pack ⟨some (rootKeyToProto rk)⟩ ≠ [] := by simp [PResponseData.pack, putMsg]
  have hdl : (fieldsEnc (PResponseData.pack ⟨some (rootKeyToProto rk)⟩)).length ≤ 200 := by
    have h1 := size_putBytes 1 (some rk.secret)
    have h2 := size_putU32 2 (some rk.cipher.id.toUInt32)
    have h3 := size_putU32 3 (some rk.ppeSend)
    have h4 := size_putU32 4 (some rk.ppeRecv)
    have h5 := size_putMsg PTransportRootKey.pack 1 (some (rootKeyToProto rk))
    simp only [PResponseData.pack, rootKeyToProto, PTransportRootKey.pack, fieldsEnc_append, List.length_append,
      optBytes] at *
    omega
  have hpk := protoPack_ok hne (by omega)
  have hd0 := fieldsEnc_pos hne
  have hback := PResponseData.lawful.round_trip ⟨some (rootKeyToProto rk)⟩ _ hpk
  generalize fieldsEnc (PResponseData.pack ⟨some (rootKeyToProto rk)⟩) = data at *
  obtain ⟨r, r1, r2, r3, ⟨ct, r4, r5⟩, r6⟩ := C46_ends_agree E hE kb ka kb' ka' hkb hka hkb' hka' .gcm m .sha512 hme
    data iv hd0 (by omega) hiv
  have hlay : (cipherResultLayout r).length ≤ 300 := by
    obtain ⟨g1, g2, g3⟩ := r3
    obtain ⟨rc, riv, rct, rtag⟩ := r
    simp only at r2 r4 g1 g2
    subst r2 r4
    cases rtag <;> simp_all [cipherResultLayout, Spec.opt, Cipher.ivLen, Cipher.tagLen] <;> omega
  have hlay0 : 0 < (cipherResultLayout r).length := by simp [cipherResultLayout]
  obtain ⟨c1, c2⟩ := C10_cipher_result_round_trip r r3 (by omega)
  have lkb : kb.pub.length ≤ 134 := by
    have := hkb.pubLen.2; cases hc : kb.curve; rw [hc] at this; exact this
  refine ⟨r, cipherResultLayout r, ?_, ?_, ?_, ?_⟩
  · have r1' : ecdhCipher E ⟨defaultCipher, kb⟩ data ka' m iv = some r := r1
    simp only [hsMakeResponse, hpk, Option.bind_some, hm, r1', c1]
    cases req <;> simp [responseCreate, hp]
  · rw [dup_of ⟨hlay0, by omega⟩]; exact c2
  · have := PResponse.size kb.pub (cipherResultLayout r) (if req then some p else none)
    cases req <;> simp only [if_true, if_false, Bool.false_eq_true] at * <;> omega
  · intro a ha
    have r6' : ecdhDecipher E ⟨r.cipher, ka⟩ r kb' m = some data := by rw [r2]; exact r6
    simp [hsOpenResponse, ha, r6', hback, rootKey_proto rk hrk]

end Wickr
