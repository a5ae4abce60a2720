import Verif.Lemmas.SepProto
import Verif.Lemmas.SepProtoRead
import Verif.Lemmas.Adopt
import Verif.Lemmas.ViewSpecsCtx
/-
The functions that write and read identities, nodes and contexts, ready for the properties.
-/
namespace Wickr
open Asrt Spec

variable {E : Engine}

theorem sigForms_of {s : EcdsaResult} {o : Option EcdsaResult} (ho : o = some s) {b : Bytes} (h : sigWrites s b) : b ∈ sigForms o := by
  obtain ⟨b₀, h1, h2⟩ := h
  subst ho
  simp only [sigForms, Option.toList_some, List.flatMap_cons, List.flatMap_nil, List.append_nil, List.mem_append, Option.mem_toList]
  rcases h2 with rfl | h2
  · exact Or.inl h1
  · exact Or.inr h2

theorem chainForms_pub {c : Rules} {v : Chain} (h : ∀ b ∈ chainForms v, c.pub b) : chainSigPub c v :=
  ⟨fun _ hs b hb => h b (List.mem_append_left _ (sigForms_of hs hb)), fun _ hs b hb => h b (List.mem_append_right _ (sigForms_of hs hb))⟩

theorem nodeForms_pub {c : Rules} {v : Node} (h : ∀ b ∈ nodeForms v, c.pub b) : nodeSigPub c v :=
  ⟨chainForms_pub fun b hb => h b (List.mem_append_left _ hb), fun k hk s hs b hb =>
    h b (List.mem_append_right _ (sigForms_of (by rw [hk]; exact hs) hb))⟩

theorem storageForms_pub {c : Rules} {v : StorageKeys} (h : ∀ b ∈ storageForms v, c.pub b) :
    ∀ b, cipherKeySerialize v.loc = some b ∨ cipherKeySerialize v.rem = some b → c.pub b := fun b hb =>
  h b (by simp only [storageForms, List.mem_append, Option.mem_toList]; exact hb)

theorem id_serialize_vs (a : Addr) (i : Identity) :
    ViewSpec (onlyStrict (sigForms i.sig)) (fun h => Has isId h a i)
      (among isBuf (packsOf (idWrites i false) PIdentity.pack) (identitySerialize i)) (hIdSerialize (some a)) :=
  fun f h ha => hIdSerialize_view _ f h a i ha fun _ hs _ hb => sigForms_of hs hb

theorem chain_serialize_vs (a : Addr) (v : Chain) (isPrivate : Bool) :
    ViewSpec (onlyStrict (chainForms v)) (fun h => Has isChain h a v)
      (among isBuf (packsOf (chainWrites v isPrivate) PChain.pack) ((chainBuildProto v isPrivate).bind fun m => protoPack m.pack))
      (hChainSerialize (some a) isPrivate) :=
  fun f h ha => hChainSerialize_view _ f h a v isPrivate ha (chainForms_pub fun _ h => h)

theorem eph_serialize_vs (a : Addr) (v : EphKey) :
    ViewSpec (onlyStrict (sigForms v.sig)) (fun h => Has isEph h a v)
      (among isBuf (packsOf (ephWrites v) PEphKey.pack) (ephSerialize v)) (hEphSerialize (some a)) :=
  fun f h ha => hEphSerialize_view _ f h a v ha fun _ hs _ hb => sigForms_of hs hb

theorem node_serialize_vs (a : Addr) (v : Node) :
    ViewSpec (onlyStrict (nodeForms v)) (fun h => Has isNode h a v)
      (amongA isBuf (packsOf (nodeWrites v) PNode.pack) (nodeSerialize v)) (hNodeSerialize (some a)) :=
  fun f h ha => hNodeSerialize_view _ f h a v ha (nodeForms_pub fun _ h => h)

theorem storage_serialize_vs (a : Addr) (v : StorageKeys) :
    ViewSpec (only (storageForms v)) (fun h => Has isStorage h a v) (gives isBuf (storageSerialize v).toOption)
      (hStorageSerialize (some a)) :=
  fun f h ha => hStorageSerialize_view _ trivial f h a v ha (storageForms_pub fun _ h => h)

theorem ctx_serialize_vs (a : Addr) (v : Ctx) :
    ViewSpec (only (chainForms v.chain ++ storageForms v.storage)) (fun h => Has isCtx h a v)
      (among isBuf (packsOf (ctxWrites v) PCtx.pack) (ctxSerialize v)) (hCtxSerialize (some a)) :=
  fun f h ha => hCtxSerialize_view _ trivial f h a v ha
    ⟨chainForms_pub fun _ h => List.mem_append_left _ h, storageForms_pub fun _ h => List.mem_append_right _ h⟩

theorem ctx_export_vs (hE : E.Fits) (a p : Addr) (v : Ctx) (pass rnd salt iv : Bytes) (hs : ValidBuf salt)
    (hl : salt.length = scrypt17.saltSize.toNat) :
    ViewSpec (onlyLax (chainForms v.chain ++ storageForms v.storage ++ (ctxSerialize v).toList.flatMap fun b =>
        kdfCipherPubs E scrypt17 defaultCipher b pass salt iv)) (fun h => Has isCtx h a v ∧ Has isBuf h p pass)
      (amongA isBuf (exportsOf E (packsOf (ctxWrites v) PCtx.pack) pass salt iv) (ctxExport E v pass salt iv))
      (hCtxExport E (some a) (some p) rnd salt iv) :=
  fun f h ha => hCtxExport_view hE _ trivial f h a p v pass rnd salt iv ha.1 ha.2
    ⟨chainForms_pub fun _ h => by simp [h], storageForms_pub fun _ h => by simp [h]⟩ hs hl
    (fun b hb _ hx => List.mem_append_right _ (List.mem_flatMap.2 ⟨b, Option.mem_toList.2 hb, hx⟩)) trivial

theorem ctx_export_storage_vs (hE : E.Fits) (a p : Addr) (v : Ctx) (pass rnd salt iv : Bytes) (hs : ValidBuf salt)
    (hl : salt.length = scrypt17.saltSize.toNat) :
    ViewSpec (onlyLax (storageForms v.storage ++ (storageSerialize v.storage).toOption.toList.flatMap fun b =>
        kdfCipherPubs E scrypt17 defaultCipher b pass salt iv)) (fun h => Has isCtx h a v ∧ Has isBuf h p pass)
      (givesN isBuf (ctxExportStorage E v pass salt iv).toOption) (hCtxExportStorage E (some a) (some p) rnd salt iv) :=
  fun f h ha => hCtxExportStorage_view hE _ trivial f h a p v pass rnd salt iv ha.1 ha.2
    (storageForms_pub fun _ h => List.mem_append_left _ h) hs hl
    (fun b hb _ hx => List.mem_append_right _ (List.mem_flatMap.2 ⟨b, Option.mem_toList.2 hb, hx⟩)) fun _ _ => Or.inr trivial

theorem id_parse_vs (hE : E.Fits) (a : Addr) (b : Bytes) :
    ViewSpec (only (idReadPubs E b)) (fun h => Has isBuf h a b) (gives isId (identityFromBuffer E b)) (hIdFromBuffer E (some a)) :=
  fun f h ha => hIdFromBuffer_view hE _ f trivial h a b (fun _ h => h) ha

theorem chain_parse_vs (hE : E.Fits) (a : Addr) (b : Bytes) :
    ViewSpec (only (chainReadPubs E b)) (fun h => Has isBuf h a b) (gives isChain (chainFromBuffer E b)) (hChainFromBuffer E (some a)) :=
  fun f h ha => hChainFromBuffer_view hE _ f trivial h a b (fun _ h => h) ha

theorem eph_parse_vs (hE : E.Fits) (a : Addr) (b : Bytes) :
    ViewSpec (only (ephReadPubs E b)) (fun h => Has isBuf h a b) (gives isEph (ephFromBuffer E b)) (hEphFromBuffer E (some a)) :=
  fun f h ha => hEphFromBuffer_view hE _ f trivial h a b (fun _ h => h) ha

theorem node_parse_vs (hE : E.Fits) (a : Addr) (b : Bytes) :
    ViewSpec (only (nodeReadPubs E b)) (fun h => Has isBuf h a b) (gives isNode (nodeFromBuffer E b)) (hNodeFromBuffer E (some a)) :=
  fun f h ha => hNodeFromBuffer_view hE _ f trivial h a b (fun _ h => h) ha

theorem storage_parse_vs (a : Addr) (b : Bytes) :
    ViewSpec (only (storageReadPubs b)) (fun h => Has isBuf h a b) (gives isStorage (storageFromBuffer b)) (hStorageFromBuffer (some a)) :=
  fun f h ha => hStorageFromBuffer_view _ f trivial h a b (fun _ h => h) ha

theorem ctx_from_vs (hE : E.Fits) (p a : Addr) (d : DevInfo) (b : Bytes) :
    AdoptFromSpec (only (ctxReadPubs E b)) (fun h => Has isBuf h a b) isDev p d isCtx (ctxFromBuffer E d b)
      (hCtxFromBuffer E (some p) (some a)) :=
  fun f h ha => hCtxFromBuffer_spec hE _ f trivial h p a d b (fun _ h => h) ha

theorem ctx_import_storage_vs (hE : E.Fits) (p q : Addr) (b pass : Bytes)
    (hw : ∀ m, kdfMetaFromBuffer b = some m → E.kdf m pass = none ∨ cipherResultFromBuffer (b.drop (kdfMetaSize b).toNat) ≠ none) :
    ViewSpec (onlyLax (kdfDecipherPubs b pass ++ (kdfDecipher E b pass).toList.flatMap storageReadPubs))
      (fun h => Has isBuf h p b ∧ Has isBuf h q pass) (givesN isStorage (ctxImportStorage E b pass))
      (hCtxImportStorage E (some p) (some q)) :=
  fun f h ha => hCtxImportStorage_view hE _ f trivial h p q b pass hw (fun _ h => List.mem_append_left _ h) trivial
    (fun d hd _ hx => List.mem_append_right _ (List.mem_flatMap.2 ⟨d, Option.mem_toList.2 hd, hx⟩)) ha.1 ha.2

theorem ctx_import_vs (hE : E.Fits) (a p q : Addr) (v : DevInfo) (b pass : Bytes)
    (hw : ∀ m, kdfMetaFromBuffer b = some m → E.kdf m pass = none ∨ cipherResultFromBuffer (b.drop (kdfMetaSize b).toNat) ≠ none) :
    AdoptFromSpec (onlyLax (kdfDecipherPubs b pass ++ (kdfDecipher E b pass).toList.flatMap (ctxReadPubs E)))
      (fun h => Has isBuf h p b ∧ Has isBuf h q pass) isDev a v isCtx (ctxImport E v b pass)
      (hCtxImport E (some a) (some p) (some q)) :=
  fun f h ha => hCtxImport_spec hE _ f trivial h a p q v b pass hw (fun _ h => List.mem_append_left _ h) trivial
    (fun d hd _ hx => List.mem_append_right _ (List.mem_flatMap.2 ⟨d, Option.mem_toList.2 hd, hx⟩)) ha.1 ha.2

end Wickr
