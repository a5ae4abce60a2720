import Verif.Lemmas.SceneProto
/-
C86-C88 and C90 for writing and reading identities, chains, ephemeral keys, nodes, storage keys and contexts, and for exporting and
importing contexts.
-/
namespace Wickr
open Asrt Spec

variable {E : Engine}

/-! ### Writing -/

/-- `wickr_identity_serialize`.  Without memory for the padding of the signature it is written without padding, which is not reported: see
`C86_identity_serialize_unpadded`. -/
theorem C86_identity_serialize (a : Addr) (i : Identity) :
    ComputesAmong (packsOf (idWrites i false) PIdentity.pack) (fun h => Has isId h a i) isBuf (identitySerialize i) (hIdSerialize (some a)) :=
  ComputesAmong.of ((id_serialize_vs a i).mono fun _ _ => among_le)

theorem C87_identity_serialize (a : Addr) (i : Identity) : Tidy (fun h => Has isId h a i) isBuf (hIdSerialize (some a)) :=
  Tidy.ofAm (id_serialize_vs a i)

theorem C87_identity_serialize_sturdy (a : Addr) (i : Identity) : Sturdy (fun h => Has isId h a i) (hIdSerialize (some a)) :=
  Sturdy.of (id_serialize_vs a i) not_false

theorem C88_identity_serialize (a : Addr) (i : Identity) :
    Discreet (fun h => Has isId h a i) (sigForms i.sig) (hIdSerialize (some a)) :=
  Discreet.of (id_serialize_vs a i) fun _ h => h

/-- `wickr_identity_chain_serialize` and `wickr_identity_chain_serialize_private`. -/
theorem C86_chain_serialize (a : Addr) (v : Chain) (isPrivate : Bool) :
    ComputesAmong (packsOf (chainWrites v isPrivate) PChain.pack) (fun h => Has isChain h a v) isBuf
      ((chainBuildProto v isPrivate).bind fun m => protoPack m.pack) (hChainSerialize (some a) isPrivate) :=
  ComputesAmong.of ((chain_serialize_vs a v isPrivate).mono fun _ _ => among_le)

theorem C87_chain_serialize (a : Addr) (v : Chain) (isPrivate : Bool) :
    Tidy (fun h => Has isChain h a v) isBuf (hChainSerialize (some a) isPrivate) :=
  Tidy.ofAm (chain_serialize_vs a v isPrivate)

theorem C87_chain_serialize_sturdy (a : Addr) (v : Chain) (isPrivate : Bool) :
    Sturdy (fun h => Has isChain h a v) (hChainSerialize (some a) isPrivate) :=
  Sturdy.of (chain_serialize_vs a v isPrivate) not_false

/-- Private keys are not left in released memory. -/
theorem C88_chain_serialize (a : Addr) (v : Chain) (isPrivate : Bool) :
    Discreet (fun h => Has isChain h a v) (chainForms v) (hChainSerialize (some a) isPrivate) :=
  Discreet.of (chain_serialize_vs a v isPrivate) fun _ h => h

/-- `wickr_ephemeral_keypair_serialize`. -/
theorem C86_ephemeral_serialize (a : Addr) (v : EphKey) :
    ComputesAmong (packsOf (ephWrites v) PEphKey.pack) (fun h => Has isEph h a v) isBuf (ephSerialize v) (hEphSerialize (some a)) :=
  ComputesAmong.of ((eph_serialize_vs a v).mono fun _ _ => among_le)

theorem C87_ephemeral_serialize (a : Addr) (v : EphKey) : Tidy (fun h => Has isEph h a v) isBuf (hEphSerialize (some a)) :=
  Tidy.ofAm (eph_serialize_vs a v)

theorem C87_ephemeral_serialize_sturdy (a : Addr) (v : EphKey) : Sturdy (fun h => Has isEph h a v) (hEphSerialize (some a)) :=
  Sturdy.of (eph_serialize_vs a v) not_false

theorem C88_ephemeral_serialize (a : Addr) (v : EphKey) :
    Discreet (fun h => Has isEph h a v) (sigForms v.sig) (hEphSerialize (some a)) :=
  Discreet.of (eph_serialize_vs a v) fun _ h => h

/-- `wickr_node_serialize`; it leaks without memory: see `C87_node_serialize_leaks`. -/
theorem C86_node_serialize (a : Addr) (v : Node) :
    ComputesAmong (packsOf (nodeWrites v) PNode.pack) (fun h => Has isNode h a v) isBuf (nodeSerialize v) (hNodeSerialize (some a)) :=
  ComputesAmong.of (node_serialize_vs a v)

theorem C87_node_serialize_sturdy (a : Addr) (v : Node) : Sturdy (fun h => Has isNode h a v) (hNodeSerialize (some a)) :=
  Sturdy.of (node_serialize_vs a v) not_false

theorem C88_node_serialize (a : Addr) (v : Node) : Discreet (fun h => Has isNode h a v) (nodeForms v) (hNodeSerialize (some a)) :=
  Discreet.of (node_serialize_vs a v) fun _ h => h

/-- `wickr_storage_keys_serialize`. -/
theorem C86_storage_serialize (a : Addr) (v : StorageKeys) :
    Computes (fun h => Has isStorage h a v) isBuf (storageSerialize v).toOption (hStorageSerialize (some a)) :=
  Computes.of (storage_serialize_vs a v)

theorem C87_storage_serialize (a : Addr) (v : StorageKeys) :
    Tidy (fun h => Has isStorage h a v) isBuf (hStorageSerialize (some a)) :=
  Tidy.of (storage_serialize_vs a v)

/-- The two keys are released unwiped, as `C90_storage_serialize_not_wiped` says, but nothing else. -/
theorem C88_storage_serialize_partial (a : Addr) (v : StorageKeys) :
    Discreet (fun h => Has isStorage h a v) (storageForms v) (hStorageSerialize (some a)) :=
  Discreet.of (storage_serialize_vs a v) fun _ h => h

/-- `wickr_ctx_serialize`. -/
theorem C86_ctx_serialize (a : Addr) (v : Ctx) :
    ComputesAmong (packsOf (ctxWrites v) PCtx.pack) (fun h => Has isCtx h a v) isBuf (ctxSerialize v) (hCtxSerialize (some a)) :=
  ComputesAmong.of ((ctx_serialize_vs a v).mono fun _ _ => among_le)

theorem C87_ctx_serialize (a : Addr) (v : Ctx) : Tidy (fun h => Has isCtx h a v) isBuf (hCtxSerialize (some a)) :=
  Tidy.ofAm (ctx_serialize_vs a v)

/-- The storage keys are not wiped; the private keys of the identities are. -/
theorem C88_ctx_serialize_partial (a : Addr) (v : Ctx) :
    Discreet (fun h => Has isCtx h a v) (chainForms v.chain ++ storageForms v.storage) (hCtxSerialize (some a)) :=
  Discreet.of (ctx_serialize_vs a v) fun _ h => h

/-- `wickr_ctx_export`: the result is an export of one of the forms that the context may be written in. -/
theorem C86_ctx_export (hE : E.Fits) (a p : Addr) (v : Ctx) (pass rnd salt iv : Bytes) (hs : ValidBuf salt)
    (hl : salt.length = scrypt17.saltSize.toNat) :
    ComputesAmong (exportsOf E (packsOf (ctxWrites v) PCtx.pack) pass salt iv) (fun h => Has isCtx h a v ∧ Has isBuf h p pass) isBuf
      (ctxExport E v pass salt iv) (hCtxExport E (some a) (some p) rnd salt iv) :=
  ComputesAmong.of (ctx_export_vs hE a p v pass rnd salt iv hs hl)

/-- What is written is wiped; the copies of the storage keys that were made for it are not. -/
theorem C90_ctx_export_partial (hE : E.Fits) (a p : Addr) (v : Ctx) (pass rnd salt iv : Bytes) (hs : ValidBuf salt)
    (hl : salt.length = scrypt17.saltSize.toNat) :
    DiscreetWithMemory (fun h => Has isCtx h a v ∧ Has isBuf h p pass)
      (chainForms v.chain ++ storageForms v.storage ++ (ctxSerialize v).toList.flatMap fun b =>
        kdfCipherPubs E scrypt17 defaultCipher b pass salt iv) (hCtxExport E (some a) (some p) rnd salt iv) :=
  DiscreetWithMemory.of (ctx_export_vs hE a p v pass rnd salt iv hs hl) fun _ h => h

/-- `wickr_ctx_export_storage_keys`. -/
theorem C86_ctx_export_storage (hE : E.Fits) (a p : Addr) (v : Ctx) (pass rnd salt iv : Bytes) (hs : ValidBuf salt)
    (hl : salt.length = scrypt17.saltSize.toNat) :
    Computes (fun h => Has isCtx h a v ∧ Has isBuf h p pass) isBuf (ctxExportStorage E v pass salt iv).toOption
      (hCtxExportStorage E (some a) (some p) rnd salt iv) :=
  Computes.ofN (ctx_export_storage_vs hE a p v pass rnd salt iv hs hl)

theorem C90_ctx_export_storage_partial (hE : E.Fits) (a p : Addr) (v : Ctx) (pass rnd salt iv : Bytes) (hs : ValidBuf salt)
    (hl : salt.length = scrypt17.saltSize.toNat) :
    DiscreetWithMemory (fun h => Has isCtx h a v ∧ Has isBuf h p pass)
      (storageForms v.storage ++ (storageSerialize v.storage).toOption.toList.flatMap fun b =>
        kdfCipherPubs E scrypt17 defaultCipher b pass salt iv) (hCtxExportStorage E (some a) (some p) rnd salt iv) :=
  DiscreetWithMemory.of (ctx_export_storage_vs hE a p v pass rnd salt iv hs hl) fun _ h => h

/-! ### Reading -/

/-- `wickr_identity_create_from_buffer`. -/
theorem C86_identity_parse (hE : E.Fits) (a : Addr) (b : Bytes) :
    Computes (fun h => Has isBuf h a b) isId (identityFromBuffer E b) (hIdFromBuffer E (some a)) :=
  Computes.of (id_parse_vs hE a b)

theorem C87_identity_parse (hE : E.Fits) (a : Addr) (b : Bytes) : Tidy (fun h => Has isBuf h a b) isId (hIdFromBuffer E (some a)) :=
  Tidy.of (id_parse_vs hE a b)

/-- The parts of the message are released as they were read; if it holds a private key, that too. -/
theorem C88_identity_parse_partial (hE : E.Fits) (a : Addr) (b : Bytes) :
    Discreet (fun h => Has isBuf h a b) (idReadPubs E b) (hIdFromBuffer E (some a)) :=
  Discreet.of (id_parse_vs hE a b) fun _ h => h

/-- `wickr_identity_chain_create_from_buffer`. -/
theorem C86_chain_parse (hE : E.Fits) (a : Addr) (b : Bytes) :
    Computes (fun h => Has isBuf h a b) isChain (chainFromBuffer E b) (hChainFromBuffer E (some a)) :=
  Computes.of (chain_parse_vs hE a b)

theorem C87_chain_parse (hE : E.Fits) (a : Addr) (b : Bytes) : Tidy (fun h => Has isBuf h a b) isChain (hChainFromBuffer E (some a)) :=
  Tidy.of (chain_parse_vs hE a b)

/-- The private keys of a chain that was written with them are not wiped: see `C90_chain_parse_not_wiped`. -/
theorem C88_chain_parse_partial (hE : E.Fits) (a : Addr) (b : Bytes) :
    Discreet (fun h => Has isBuf h a b) (chainReadPubs E b) (hChainFromBuffer E (some a)) :=
  Discreet.of (chain_parse_vs hE a b) fun _ h => h

/-- `wickr_ephemeral_keypair_create_from_buffer`. -/
theorem C86_ephemeral_parse (hE : E.Fits) (a : Addr) (b : Bytes) :
    Computes (fun h => Has isBuf h a b) isEph (ephFromBuffer E b) (hEphFromBuffer E (some a)) :=
  Computes.of (eph_parse_vs hE a b)

theorem C87_ephemeral_parse (hE : E.Fits) (a : Addr) (b : Bytes) : Tidy (fun h => Has isBuf h a b) isEph (hEphFromBuffer E (some a)) :=
  Tidy.of (eph_parse_vs hE a b)

theorem C88_ephemeral_parse (hE : E.Fits) (a : Addr) (b : Bytes) :
    Discreet (fun h => Has isBuf h a b) (ephReadPubs E b) (hEphFromBuffer E (some a)) :=
  Discreet.of (eph_parse_vs hE a b) fun _ h => h

/-- `wickr_node_create_from_buffer`. -/
theorem C86_node_parse (hE : E.Fits) (a : Addr) (b : Bytes) :
    Computes (fun h => Has isBuf h a b) isNode (nodeFromBuffer E b) (hNodeFromBuffer E (some a)) :=
  Computes.of (node_parse_vs hE a b)

theorem C87_node_parse (hE : E.Fits) (a : Addr) (b : Bytes) : Tidy (fun h => Has isBuf h a b) isNode (hNodeFromBuffer E (some a)) :=
  Tidy.of (node_parse_vs hE a b)

theorem C88_node_parse (hE : E.Fits) (a : Addr) (b : Bytes) :
    Discreet (fun h => Has isBuf h a b) (nodeReadPubs E b) (hNodeFromBuffer E (some a)) :=
  Discreet.of (node_parse_vs hE a b) fun _ h => h

/-- `wickr_storage_keys_create_from_buffer`. -/
theorem C86_storage_parse (a : Addr) (b : Bytes) :
    Computes (fun h => Has isBuf h a b) isStorage (storageFromBuffer b) (hStorageFromBuffer (some a)) :=
  Computes.of (storage_parse_vs a b)

theorem C87_storage_parse (a : Addr) (b : Bytes) : Tidy (fun h => Has isBuf h a b) isStorage (hStorageFromBuffer (some a)) :=
  Tidy.of (storage_parse_vs a b)

/-- The unpacked keys are not wiped: see `C90_storage_parse_not_wiped`. -/
theorem C88_storage_parse_partial (a : Addr) (b : Bytes) :
    Discreet (fun h => Has isBuf h a b) (storageReadPubs b) (hStorageFromBuffer (some a)) :=
  Discreet.of (storage_parse_vs a b) fun _ h => h

/-- `wickr_ctx_create_from_buffer`. -/
theorem C86_ctx_from_buffer (hE : E.Fits) (p a : Addr) (d : DevInfo) (b : Bytes) :
    AdoptsFrom (fun h => Has isBuf h a b) isDev p d isCtx (ctxFromBuffer E d b) (hCtxFromBuffer E (some p) (some a)) :=
  AdoptsFrom.of (ctx_from_vs hE p a d b)

/-- The unpacked message, with the private keys, is not wiped. -/
theorem C88_ctx_from_buffer_partial (hE : E.Fits) (p a : Addr) (d : DevInfo) (b : Bytes) :
    AdoptsFromDiscreetly (fun h => Has isBuf h a b) isDev p d (ctxReadPubs E b) (hCtxFromBuffer E (some p) (some a)) :=
  AdoptsFromDiscreetly.of (ctx_from_vs hE p a d b) fun _ h => h

/-- `wickr_ctx_import_storage_keys`, where the cipher text can be read or no key can be derived (see C86 for `wickr_kdf_decipher`). -/
theorem C86_ctx_import_storage_partial (hE : E.Fits) (p q : Addr) (b pass : Bytes)
    (hw : ∀ m, kdfMetaFromBuffer b = some m → E.kdf m pass = none ∨ cipherResultFromBuffer (b.drop (kdfMetaSize b).toNat) ≠ none) :
    Computes (fun h => Has isBuf h p b ∧ Has isBuf h q pass) isStorage (ctxImportStorage E b pass)
      (hCtxImportStorage E (some p) (some q)) :=
  Computes.ofN (ctx_import_storage_vs hE p q b pass hw)

theorem C90_ctx_import_storage_partial (hE : E.Fits) (p q : Addr) (b pass : Bytes)
    (hw : ∀ m, kdfMetaFromBuffer b = some m → E.kdf m pass = none ∨ cipherResultFromBuffer (b.drop (kdfMetaSize b).toNat) ≠ none) :
    DiscreetWithMemory (fun h => Has isBuf h p b ∧ Has isBuf h q pass)
      (kdfDecipherPubs b pass ++ (kdfDecipher E b pass).toList.flatMap storageReadPubs) (hCtxImportStorage E (some p) (some q)) :=
  DiscreetWithMemory.of (ctx_import_storage_vs hE p q b pass hw) fun _ h => h

/-- `wickr_ctx_import`, likewise. -/
theorem C86_ctx_import_partial (hE : E.Fits) (a p q : Addr) (v : DevInfo) (b pass : Bytes)
    (hw : ∀ m, kdfMetaFromBuffer b = some m → E.kdf m pass = none ∨ cipherResultFromBuffer (b.drop (kdfMetaSize b).toNat) ≠ none) :
    AdoptsFrom (fun h => Has isBuf h p b ∧ Has isBuf h q pass) isDev a v isCtx (ctxImport E v b pass)
      (hCtxImport E (some a) (some p) (some q)) :=
  AdoptsFrom.of (ctx_import_vs hE a p q v b pass hw)

theorem C90_ctx_import_partial (hE : E.Fits) (a p q : Addr) (v : DevInfo) (b pass : Bytes)
    (hw : ∀ m, kdfMetaFromBuffer b = some m → E.kdf m pass = none ∨ cipherResultFromBuffer (b.drop (kdfMetaSize b).toNat) ≠ none) :
    AdoptsFromDiscreetlyWithMemory (fun h => Has isBuf h p b ∧ Has isBuf h q pass) isDev a v
      (kdfDecipherPubs b pass ++ (kdfDecipher E b pass).toList.flatMap (ctxReadPubs E)) (hCtxImport E (some a) (some p) (some q)) :=
  AdoptsFromDiscreetlyWithMemory.of (ctx_import_vs hE a p q v b pass hw) fun _ h => h

/-! ### There are such objects -/

example : ∃ (s : St) (x : Wr), s.oom = false ∧ x.In s.heap := by
  obtain ⟨x, s, h1, h2, -⟩ := wrScene.run (P := fun _ _ => true) (by decide +kernel)
  exact ⟨s, x, h1, h2⟩

example : (nodeSerialize toyPeerNode).isSome ∧ (ctxSerialize (toyCtx 4)).isSome ∧ (identitySerialize toyLongId).isSome ∧
    storageFromBuffer toyKeysWire = some toyStorage ∧ chainFromBuffer toyEngine toyChainWire = some toyChain ∧
    ((nodeSerialize toyPeerNode).bind (nodeFromBuffer toyEngine)).isSome := by decide +kernel

example : ((ctxExport toyEngine (toyCtx 4) [1, 2, 3] (List.replicate 16 3) (List.replicate 12 3)).bind fun b =>
    ctxImport toyEngine toyDev b [1, 2, 3]).isSome := by decide +kernel

/-! ### What does not hold -/

abbrev wrNode (x : Wr) (h : Heap) : Prop := Has isNode h x.node toyPeerNode
abbrev wrCtx (x : Wr) (h : Heap) : Prop := Has isCtx h x.ctx (toyCtx 4)
abbrev wrKeys (x : Wr) (h : Heap) : Prop := Has isStorage h x.keys toyStorage

/-- Without memory for the last structure the chain is leaked: node_priv.c:42-45. -/
theorem C87_node_serialize_leaks : ¬ ∀ x, Tidy (wrNode x) isBuf (hNodeSerialize (some x.node)) :=
  wrScene.not_tidy [103] 95 (fun _ _ h => h.node) (by decide +kernel)

/-- Without memory for the structure NULL is dereferenced: storage_priv.c:25-27. -/
theorem C87_storage_serialize_not_sturdy : ¬ ∀ x, Sturdy (wrKeys x) (hStorageSerialize (some x.keys)) :=
  wrScene.not_sturdy [89] (fun _ _ h => h.keys) (by decide +kernel)

/-- Without memory for a key likewise: storage.c:61. -/
theorem C87_storage_serialize_key_not_sturdy : ¬ ∀ x, Sturdy (wrKeys x) (hStorageSerialize (some x.keys)) :=
  wrScene.not_sturdy [91] (fun _ _ h => h.keys) (by decide +kernel)

theorem C87_ctx_serialize_not_sturdy : ¬ ∀ x, Sturdy (wrCtx x) (hCtxSerialize (some x.ctx)) :=
  wrScene.not_sturdy [97] (fun _ _ h => h.ctx) (by decide +kernel)

/-- The storage keys are left in released memory although everything succeeds: storage_priv.c:8-17. -/
theorem C90_storage_serialize_not_wiped : ¬ ∀ x, DiscreetWithMemory (wrKeys x) [] (hStorageSerialize (some x.keys)) :=
  wrScene.not_discreetWithMemory (fun _ _ h => h.keys) (by decide +kernel)

/-- So are those of a context that is exported. -/
theorem C90_ctx_export_not_wiped : ¬ ∀ x : Wr, DiscreetWithMemory (fun h => Has isCtx h x.ctx (toyCtx 4) ∧ Has isBuf h x.pass [1, 2, 3])
    (chainForms toyChain ++ (ctxSerialize (toyCtx 4)).toList.flatMap fun b =>
      kdfCipherPubs toyEngine scrypt17 defaultCipher b [1, 2, 3] (List.replicate 16 3) (List.replicate 12 3))
    (hCtxExport toyEngine (some x.ctx) (some x.pass) [] (List.replicate 16 3) (List.replicate 12 3)) :=
  wrScene.not_discreetWithMemory (fun _ _ h => ⟨h.ctx, h.pass⟩) (by decide +kernel)

/-- Reading storage keys leaves them in released memory: storage.c:75-88. -/
theorem C90_storage_parse_not_wiped : ¬ ∀ x : Wr, DiscreetWithMemory (fun h => Has isBuf h x.keysWire toyKeysWire) []
    (hStorageFromBuffer (some x.keysWire)) :=
  wrScene.not_discreetWithMemory (fun _ _ h => h.keysWire) (by decide +kernel)

/-- Reading a chain with private keys leaves those in released memory: identity.c:335-351. -/
theorem C90_chain_parse_not_wiped : ¬ ∀ x : Wr, DiscreetWithMemory (fun h => Has isBuf h x.chainWire toyChainWire)
    ([toyChain.root.identifier, toyChain.node.identifier] ++ chainForms toyChain) (hChainFromBuffer toyEngine (some x.chainWire)) :=
  wrScene.not_discreetWithMemory (fun _ _ h => h.chainWire) (by decide +kernel)

/-- With no memory for the copy of a signature NULL is dereferenced. -/
theorem C87_chain_parse_not_sturdy : ¬ ∀ x : Wr, Sturdy (fun h => Has isBuf h x.chainWire toyChainWire)
    (hChainFromBuffer toyEngine (some x.chainWire)) :=
  wrScene.not_sturdy [112] (fun _ _ h => h.chainWire) (by decide +kernel)

theorem bufProbe (b : Addr) (v : Bytes) : Reads (isBuf b v)
    (do
      let x ← readBuf (some b)
      Pure.pure (decide (x ≠ v))) false := by
  intro c f
  intro A s F hf hs
  obtain ⟨h1, h2, d, e, g1, g2⟩ := hs
  have hr : Reads (keep h1) (do let x ← readBuf (some b); Pure.pure (decide (x ≠ v))) false := by
    refine Reads.bind (readBuf_keep g1) (F := emp) (by rw [Asrt.star_emp]) ?_
    rw [decide_eq_false (by simp)]
    exact Reads.ret false
  have := hr c f A s F hf ⟨h1, h2, d, e, rfl, g2⟩
  revert this
  cases (do let x ← readBuf (some b); Pure.pure (decide (x ≠ v)) : H Bool) A s with
  | ub => exact id
  | crash s' => exact id
  | ret r s' => exact fun h => ⟨Asrt.le_star (Asrt.le_star (Asrt.le_refl _) (fun x (hx : x = h1) => by rw [hx]; exact g1)) (Asrt.le_refl _) _ h.1, h.2⟩

/-- Without memory for the padding a signature is written without it, although its first bytes say that there is padding:
openssl_suite.c, `wickr_ecdsa_result_serialize`; there is a result. -/
theorem C86_identity_serialize_unpadded : ¬ ∀ x : Wr, Computes (fun h => Has isId h x.id toyLongId) isBuf (identitySerialize toyLongId)
    (hIdSerialize (some x.id)) := by
  have e : identitySerialize toyLongId = some ((identitySerialize toyLongId).getD []) := by decide +kernel
  rw [e]
  exact wrScene.not_exact (probe := fun p => do
      let x ← readBuf p
      Pure.pure (decide (x ≠ (identitySerialize toyLongId).getD []))) [90] (fun _ _ h => h.id) (fun b => bufProbe b _) (by decide +kernel)

end Wickr
