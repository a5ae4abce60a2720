import Verif.Props.Identity
import Verif.Lemmas.ProtoSize
/-
C44: serialization of identities, chains, ephemeral key pairs and nodes.
-/
set_option linter.unusedSimpArgs false
namespace Wickr
open Spec

/-! ### Public data only -/

/-- Same public data. -/
def Spec.SamePublic (i j : Identity) : Prop :=
  i.type = j.type ∧ i.identifier = j.identifier ∧ i.key.pub = j.key.pub ∧ i.sig = j.sig

/-- C44, no leak: two identities that differ only in their private keys serialize alike. -/
theorem C44_identity_public_only (i j : Identity) (h : SamePublic i j) :
    identitySerialize i = identitySerialize j := by
  obtain ⟨h1, h2, h3, h4⟩ := h
  simp [identitySerialize, identityBuildProto, h1, h2, h3, h4]

theorem buildProto_public {i j : Identity} (h : SamePublic i j) :
    identityBuildProto i false = identityBuildProto j false := by
  obtain ⟨h1, h2, h3, h4⟩ := h
  simp [identityBuildProto, h1, h2, h3, h4]

theorem C44_chain_public_only (c d : Chain) (hr : SamePublic c.root d.root)
    (hn : SamePublic c.node d.node) : chainSerialize c false = chainSerialize d false := by
  simp [chainSerialize, chainBuildProto, buildProto_public hr, buildProto_public hn]

theorem C44_ephemeral_public_only (j k : EphKey) (h1 : j.identifier = k.identifier)
    (h2 : j.key.pub = k.key.pub) (h3 : j.sig = k.sig) : ephSerialize j = ephSerialize k := by
  simp [ephSerialize, ephToProto, h1, h2, h3]

theorem C44_node_public_only (m n : Node) (hd : m.devId = n.devId)
    (hr : SamePublic m.chain.root n.chain.root) (hn : SamePublic m.chain.node n.chain.node)
    (he : m.eph.map (fun k => (k.identifier, k.key.pub, k.sig)) =
      n.eph.map fun k => (k.identifier, k.key.pub, k.sig)) :
    nodeSerialize m = nodeSerialize n := by
  have hk : m.eph.map ephToProto = n.eph.map ephToProto := by
    cases h1 : m.eph <;> cases h2 : n.eph <;> simp_all [ephToProto]
  unfold nodeSerialize nodeToProto
  rw [hd, show chainBuildProto m.chain false = chainBuildProto n.chain false by
    simp [chainBuildProto, buildProto_public hr, buildProto_public hn]]
  cases h1 : m.eph <;> cases h2 : n.eph <;> simp_all

/-- A key pair and its public half: differing private data, equal serialization, and the private
bytes do not occur in it. -/
example : let i : Identity := ⟨.root, [1], toyKey 5, none⟩
    identitySerialize i = identitySerialize (publicHalf i) ∧ i.key.pri ≠ (publicHalf i).key.pri ∧
    identitySerialize i = some [10, 1, 1, 18, 2, 0, 5, 32, 0, 40, 0] := by decide

/-! ### Round trips -/

theorem ecdsa_ok {s : EcdsaResult} (h : 0 < s.sig.length ∧ s.sig.length + 2 ≤ s.curve.sigSize) :
    ∃ b, ecdsaSerialize s = some b ∧ b.length = 143 ∧ ecdsaFromBuffer b = some s := by
  have := (C13_ecdsa_round_trip s (List.length_pos_iff.1 h.1)).1 h.2
  refine ⟨_, this.1, ?_, this.2.2⟩
  rw [this.2.1]; cases s.curve; rfl

/-- Key after a public or private round trip. -/
def keyAfter (k : EcKey) (isPrivate : Bool) : EcKey := if isPrivate then k else { k with pri := none }

theorem identity_proto_round_trip {E : Engine} (hE : E.Lawful) {i : Identity} (h : WfIdentity E i) (b : Bool)
    (hb : b = true → E.KeyPair i.key) :
    ∃ p, identityBuildProto i b = some p ∧ (fieldsEnc p.pack).length ≤ 1500 ∧
      identityFromProto E p = some { i with
        key := keyAfter i.key b, sig := if i.type = .node then i.sig else none } := by
  have hmb := maxBuffer_val
  have hid : dup i.identifier = some i.identifier := dup_of ⟨h.id.1, by have := h.id.2; omega⟩
  have hk : ∃ kb, (if b then i.key.pri else some i.key.pub) = some kb ∧
      E.ecImport kb b = some (keyAfter i.key b) ∧ kb.length ≤ 1024 := by
    cases b with
    | false =>
      refine ⟨i.key.pub, rfl, h.pub, ?_⟩
      have := hE.import_len _ _ _ h.pub
      have h2 := this.2.1
      simp only at h2
      cases hc : i.key.curve
      rw [hc] at h2; simp [Curve.maxPub] at h2; omega
    | true =>
      obtain ⟨p, h1, h2, h3, h4⟩ := (hb rfl).pri
      exact ⟨p, by simp [h1], by simpa [keyAfter] using h2, h4⟩
  obtain ⟨kb, hkb, himp, hkl⟩ := hk
  have hlt : ¬ (i.identifier.length ≥ 128) := by have := h.id.2; omega
  have hl := h.id.2
  unfold identityBuildProto
  rw [hkb]
  cases ht : i.type with
  | root =>
    refine ⟨_, rfl, ?_, ?_⟩
    · refine Nat.le_trans (PIdentity.size _) ?_
      simp only [optBytes, List.length_nil]; omega
    · cases b <;> simp [identityFromProto, hid, himp, optParse, identityCreate, hlt, IdType.protoId, ht]
  | node =>
    obtain ⟨s, hs, hs1⟩ := h.sig ht
    obtain ⟨sb, hsb, hsl, hsp⟩ := ecdsa_ok hs1
    refine ⟨⟨some i.identifier, some kb, some sb, some IdType.node.protoId, some b⟩,
      by simp [hs, hsb], ?_, ?_⟩
    · refine Nat.le_trans (PIdentity.size _) ?_
      simp only [optBytes]; omega
    · cases b <;> simp [identityFromProto, hid, himp, optParse, identityCreate, hlt, IdType.protoId, hsp, hs, ht]

/-- C44, identities: every identity the library can produce serializes, and parsing gives back
everything but the private key. -/
theorem C44_identity_round_trip (E : Engine) (hE : E.Lawful) (i : Identity) (h : WfIdentity E i) :
    ∃ b, identitySerialize i = some b ∧ identityFromBuffer E b = some (publicHalf i) := by
  have hmb := maxBuffer_val
  obtain ⟨p, hp, hl, hr⟩ := identity_proto_round_trip hE h false (by simp)
  have hpk : protoPack p.pack = some (fieldsEnc p.pack) := by
    refine protoPack_ok ?_ (by omega)
    intro h0
    have : p.pack ≠ [] := by
      unfold identityBuildProto at hp
      simp only [Bool.false_eq_true, if_false] at hp
      split at hp
      · cases hp; simp [PIdentity.pack, putBytes]
      · simp only [Option.map_eq_some_iff] at hp
        obtain ⟨s, _, rfl⟩ := hp
        simp [PIdentity.pack, putBytes]
    exact this h0
  refine ⟨fieldsEnc p.pack, by simp [identitySerialize, hp, hpk], ?_⟩
  unfold identityFromBuffer
  rw [PIdentity.lawful.round_trip p _ hpk]
  exact hr

theorem chain_proto_round_trip {E : Engine} (hE : E.Lawful) {c : Chain} (hr : WfIdentity E c.root)
    (hn : WfIdentity E c.node) (b : Bool) (hb : b = true → E.KeyPair c.root.key ∧ E.KeyPair c.node.key) :
    ∃ p, chainBuildProto c b = some p ∧ (fieldsEnc p.pack).length ≤ 3100 ∧ p.pack ≠ [] ∧
      chainFromProto E p = some (chainCreate
        { c.root with key := keyAfter c.root.key b, sig := if c.root.type = .node then c.root.sig else none }
        { c.node with key := keyAfter c.node.key b, sig := if c.node.type = .node then c.node.sig else none }) := by
  obtain ⟨p, hp, hl, hpr⟩ := identity_proto_round_trip hE hr b fun h => (hb h).1
  obtain ⟨q, hq, hl', hqr⟩ := identity_proto_round_trip hE hn b fun h => (hb h).2
  refine ⟨⟨some p, some q⟩, by simp [chainBuildProto, hp, hq], ?_, by simp [PChain.pack, putMsg], ?_⟩
  · have := PChain.size p q; omega
  · simp [chainFromProto, hpr, hqr]

theorem chain_round_trip {E : Engine} (hE : E.Lawful) {c : Chain} (hr : WfIdentity E c.root)
    (hn : WfIdentity E c.node) (b : Bool) (hb : b = true → E.KeyPair c.root.key ∧ E.KeyPair c.node.key) :
    ∃ bs, chainSerialize c b = some bs ∧ chainFromBuffer E bs = some (chainCreate
        { c.root with key := keyAfter c.root.key b, sig := if c.root.type = .node then c.root.sig else none }
        { c.node with key := keyAfter c.node.key b, sig := if c.node.type = .node then c.node.sig else none }) := by
  have hmb := maxBuffer_val
  obtain ⟨p, hp, hl, hne, hpr⟩ := chain_proto_round_trip hE hr hn b hb
  have hpk : protoPack p.pack = some (fieldsEnc p.pack) := protoPack_ok hne (by omega)
  refine ⟨fieldsEnc p.pack, by simp [chainSerialize, hp, hpk], ?_⟩
  unfold chainFromBuffer
  rw [PChain.lawful.round_trip p _ hpk]
  exact hpr

/-- C44, chains: the public serialization gives back both public halves, with status unknown and no
cache. -/
theorem C44_chain_round_trip (E : Engine) (hE : E.Lawful) (c : Chain) (hr : WfIdentity E c.root)
    (hn : WfIdentity E c.node) :
    ∃ bs, chainSerialize c false = some bs ∧
      chainFromBuffer E bs = some (chainCreate (publicHalf c.root) (publicHalf c.node)) :=
  chain_round_trip hE hr hn false (by simp)

/-- C44, chains: the private serialization of one's own chain gives back both identities with
their private keys. -/
theorem C44_chain_private_round_trip (E : Engine) (hE : E.Lawful) (c : Chain)
    (hr : WfIdentity E c.root) (hn : WfIdentity E c.node) (kr : E.KeyPair c.root.key)
    (kn : E.KeyPair c.node.key) (ht : c.root.type = .root ∧ c.root.sig = none ∧ c.node.type = .node) :
    ∃ bs, chainSerialize c true = some bs ∧ chainFromBuffer E bs = some (chainCreate c.root c.node) := by
  obtain ⟨bs, h1, h2⟩ := chain_round_trip hE hr hn true fun _ => ⟨kr, kn⟩
  refine ⟨bs, h1, ?_⟩
  rw [h2]
  obtain ⟨⟨_, _, _, _⟩, ⟨_, _, _, _⟩, _, _⟩ := c
  simp_all [keyAfter]

theorem eph_proto_round_trip {E : Engine} (hE : E.Lawful) {k : EphKey} (h : WfEph E k) :
    ∃ p, ephToProto k = some p ∧ (fieldsEnc p.pack).length ≤ 1500 ∧ p.pack ≠ [] ∧
      ephFromProto E p = some (ephMakePublic k) := by
  have hkl : k.key.pub.length ≤ 134 := by
    have := (hE.import_len _ _ _ h.pub).2.1
    simp only at this
    cases hc : k.key.curve
    rw [hc] at this; exact this
  unfold ephToProto
  cases hs : k.sig with
  | none =>
    refine ⟨_, rfl, ?_, by simp [PEphKey.pack, putU64], ?_⟩
    · refine Nat.le_trans (PEphKey.size _) ?_
      simp only [optBytes, List.length_nil]; omega
    · simp [ephFromProto, h.pub, optParse, ephMakePublic, hs]
  | some s =>
    obtain ⟨sb, hsb, hsl, hsp⟩ := ecdsa_ok (h.sig s hs)
    refine ⟨_, by simp only [hsb]; rfl, ?_, by simp [PEphKey.pack, putU64], ?_⟩
    · refine Nat.le_trans (PEphKey.size _) ?_
      simp only [optBytes]; omega
    · simp [ephFromProto, h.pub, optParse, ephMakePublic, hs, hsp]

/-- C44, ephemeral key pairs. -/
theorem C44_ephemeral_round_trip (E : Engine) (hE : E.Lawful) (k : EphKey) (h : WfEph E k) :
    ∃ b, ephSerialize k = some b ∧
      ephFromBuffer E b = some { k with key := { k.key with pri := none } } := by
  have hmb := maxBuffer_val
  obtain ⟨p, hp, hl, hne, hpr⟩ := eph_proto_round_trip hE h
  have hpk : protoPack p.pack = some (fieldsEnc p.pack) := protoPack_ok hne (by omega)
  refine ⟨fieldsEnc p.pack, by simp [ephSerialize, hp, hpk], ?_⟩
  unfold ephFromBuffer
  rw [PEphKey.lawful.round_trip p _ hpk]
  exact hpr

/-- C44, nodes: device id, public halves of the chain and of the ephemeral key (if any). -/
theorem C44_node_round_trip (E : Engine) (hE : E.Lawful) (n : Node)
    (hd : 0 < n.devId.length ∧ n.devId.length ≤ 1000000)
    (hr : WfIdentity E n.chain.root) (hn : WfIdentity E n.chain.node)
    (hk : ∀ k, n.eph = some k → WfEph E k) :
    ∃ b, nodeSerialize n = some b ∧ nodeFromBuffer E b = some (nodeCreate n.devId
      (chainCreate (publicHalf n.chain.root) (publicHalf n.chain.node))
      (n.eph.map fun k => { k with key := { k.key with pri := none } })) := by
  have hmb := maxBuffer_val
  obtain ⟨p, hp, hl, _, hpr⟩ := chain_proto_round_trip hE hr hn false (by simp)
  have hdd : dup n.devId = some n.devId := dup_of ⟨hd.1, by omega⟩
  have fin : ∀ k : Option PEphKey, nodeToProto n = some ⟨some n.devId, some p, k⟩ →
      (match k with | none => 0 | some k => (fieldsEnc k.pack).length) ≤ 1500 →
      ∃ b, nodeSerialize n = some b ∧
        nodeFromBuffer E b = nodeFromProto E ⟨some n.devId, some p, k⟩ := by
    intro k h1 h2
    have hsz := PNode.size n.devId p k
    have hpk : protoPack (PNode.pack ⟨some n.devId, some p, k⟩) = some _ :=
      protoPack_ok (by simp [PNode.pack, putBytes]) (by cases k <;> simp only at hsz h2 <;> omega)
    refine ⟨_, by simp only [nodeSerialize, h1, Option.bind_some]; exact hpk, ?_⟩
    unfold nodeFromBuffer
    rw [PNode.lawful.round_trip _ _ hpk]
    rfl
  cases he : n.eph with
  | none =>
    obtain ⟨b, h1, h2⟩ := fin none (by simp [nodeToProto, he, hp]) (by simp)
    refine ⟨b, h1, ?_⟩
    rw [h2]
    simp [nodeFromProto, hdd, hpr, publicHalf, keyAfter]
  | some k =>
    obtain ⟨q, hq, hql, _, hqr⟩ := eph_proto_round_trip hE (hk k he)
    obtain ⟨b, h1, h2⟩ := fin (some q) (by simp [nodeToProto, he, hp, hq]) hql
    refine ⟨b, h1, ?_⟩
    rw [h2]
    simp [nodeFromProto, hdd, hpr, hqr, publicHalf, keyAfter, ephMakePublic]

/-- What the library generates is well formed, so the round trips apply to it. -/
theorem C44_generated_node_wf (E : Engine) (hE : E.Lawful) (root : Identity) (newKey : EcKey)
    (identifier nonce : Bytes) (i : Identity) (hk : E.KeyPair newKey) (hr : E.KeyPair root.key)
    (h : nodeIdentityGen E root newKey identifier nonce = some i) :
    WfIdentity E i ∧ i.type = .node ∧ i.identifier = identifier ∧ i.key = newKey ∧
      ChainGenuine E (chainCreate root i) := by
  unfold nodeIdentityGen at h
  split at h
  · simp at h
  · cases hs : identitySign E root newKey.pub nonce with
    | none => simp [hs] at h
    | some s =>
      simp only [hs, Option.bind_eq_some_iff] at h
      obtain ⟨id, hid, hc⟩ := h
      obtain ⟨hv, he⟩ := dup_eq_some.1 hid
      subst id
      unfold identityCreate at hc
      split at hc
      · simp at hc
      · next hlt =>
        cases hc
        obtain ⟨p, hp, _⟩ := hr.pri
        simp only [identitySign, hp] at hs
        obtain ⟨s', h1, h2, _, h3, h4, h5⟩ := hE.sign_verify root.key newKey.pub .sha512 nonce hr
        rw [h1] at hs; cases hs
        refine ⟨⟨⟨hv.1, by simp only; omega⟩, hk.pub, fun _ => ⟨s, rfl, h3, ?_⟩⟩, rfl, rfl, rfl, ?_⟩
        · rw [h2]; exact h4
        · exact ⟨s, rfl, h5 _ rfl⟩

/-- A concrete identity meeting `WfIdentity`, with its round trip through bytes. -/
example : WfIdentity toyEngine toyChain.node :=
  ⟨by decide, (toyKey_pair 7 (by decide)).pub, fun _ => ⟨_, rfl, by decide, by decide⟩⟩
set_option maxRecDepth 8192 in
example : (chainSerialize toyChain false).bind (chainFromBuffer toyEngine) =
    some (chainCreate (publicHalf toyChain.root) (publicHalf toyChain.node)) ∧
    publicHalf toyChain.root ≠ toyChain.root := by decide
set_option maxRecDepth 8192 in
example : (chainSerialize toyChain true).bind (chainFromBuffer toyEngine) = some toyChain := by decide
set_option maxRecDepth 8192 in
example : (nodeSerialize toyNode).bind (nodeFromBuffer toyEngine) = some (nodeCreate [9]
    (chainCreate (publicHalf toyChain.root) (publicHalf toyChain.node))
    (toyNode.eph.map ephMakePublic)) := by decide

end Wickr
