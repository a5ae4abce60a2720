import Verif.Lemmas.Witness
/-
C78: copying an object.  C79: releasing one.
-/
set_option linter.unusedVariables false
namespace Wickr
open Asrt Spec


/-- `wickr_buffer_copy` -/
theorem C78_buf : CopySafe isBuf (fun _ => True) id hBufCopy := CopySafe.of (KeepSpec.wasteful (KeepSpec.leaky (KeepSpec.freshL (bufKeep (cr := True)))))

example : ∃ (s : St) (a : Addr), s.oom = false ∧ Has isBuf s.heap a ([1] : Bytes) := exists_has (litBuf_spec _ _ trivial [1] (by decide)) (by decide +kernel)

/-- `wickr_ec_key_copy` -/
theorem C78_key : CopySafe isKey (fun _ => True) id hKeyCopy := CopySafe.of (KeepSpec.wasteful (KeepSpec.leaky (KeepSpec.freshL keyKeep)))

example : ∃ (s : St) (a : Addr), s.oom = false ∧ Has isKey s.heap a exKey := exists_has (mkKey_spec _ _ trivial) (by decide +kernel)

/-- `wickr_ecdsa_result_copy` -/
theorem C78_sig : CopySafe isSig (fun _ => True) id hSigCopy := CopySafe.of (KeepSpec.wasteful (KeepSpec.leaky (KeepSpec.freshL sigKeep)))

example : ∃ (s : St) (a : Addr), s.oom = false ∧ Has isSig s.heap a exSig := exists_has (mkSig_spec _ _ trivial) (by decide +kernel)

/-- `wickr_identity_copy` -/
theorem C78_id : CopySafe isId (fun _ => True) id hIdCopy := CopySafe.of (KeepSpec.wasteful (KeepSpec.leaky idKeep))

example : ∃ (s : St) (a : Addr), s.oom = false ∧ Has isId s.heap a exId := exists_has (mkId_spec _ _ trivial) (by decide +kernel)

/-- `wickr_identity_chain_copy` -/
theorem C78_chain : CopySafe isChain (fun _ => True) id hChainCopy := CopySafe.of (KeepSpec.wasteful (KeepSpec.leaky chainKeep))

example : ∃ (s : St) (a : Addr), s.oom = false ∧ Has isChain s.heap a exChain := exists_has (mkChain_spec _ _ trivial) (by decide +kernel)

/-- `wickr_cipher_key_copy` -/
theorem C78_cKey : CopySafe isCKey (fun _ => True) id hCKeyCopy := CopySafe.of (KeepSpec.wasteful (KeepSpec.leaky (KeepSpec.freshL cKeyKeep)))

example : ∃ (s : St) (a : Addr), s.oom = false ∧ Has isCKey s.heap a exCKey := exists_has (mkCKey_spec _ _ trivial) (by decide +kernel)

/-- `wickr_cipher_result_copy` -/
theorem C78_cRes : CopySafe isCRes (fun _ => True) id hCResCopy := CopySafe.of (KeepSpec.wasteful cResKeep)

example : ∃ (s : St) (a : Addr), s.oom = false ∧ Has isCRes s.heap a exCRes := exists_has (mkCRes_spec _ _ trivial) (by decide +kernel)

/-- `wickr_ephemeral_keypair_copy` -/
theorem C78_eph : CopySafe isEph (fun _ => True) id hEphCopy := CopySafe.of (KeepSpec.wasteful (KeepSpec.leaky (KeepSpec.freshL ephKeep)))

example : ∃ (s : St) (a : Addr), s.oom = false ∧ Has isEph s.heap a exEph := exists_has (mkEph_spec _ _ trivial) (by decide +kernel)

/-- `wickr_node_copy` -/
theorem C78_node : CopySafe isNode (fun _ => True) id hNodeCopy := CopySafe.of (KeepSpec.wasteful (KeepSpec.leaky nodeKeep))

example : ∃ (s : St) (a : Addr), s.oom = false ∧ Has isNode s.heap a exNode := exists_has (mkNode_spec _ _ trivial) (by decide +kernel)

/-- `wickr_node_array_copy` -/
theorem C78_nodes : CopySafe (isArr isNode) (fun _ => True) id hNodesCopy := CopySafe.of (KeepSpec.wasteful (KeepSpec.leaky nodesKeep))

example : ∃ (s : St) (a : Addr), s.oom = false ∧ Has (isArr isNode) s.heap a exNodes := exists_has (mkNodes_spec _ _ trivial) (by decide +kernel)

/-- `wickr_packet_meta_copy` -/
theorem C78_info : CopySafe isInfo (fun _ => True) id hInfoCopy := CopySafe.of (KeepSpec.wasteful (KeepSpec.leaky (KeepSpec.freshL infoKeep)))

example : ∃ (s : St) (a : Addr), s.oom = false ∧ Has isInfo s.heap a exInfo := exists_has (mkInfo_spec _ _ trivial) (by decide +kernel)

/-- `wickr_payload_copy` -/
theorem C78_payload : CopySafe isPayload (fun _ => True) id hPayloadCopy := CopySafe.of (KeepSpec.wasteful (KeepSpec.leaky (KeepSpec.freshL payloadKeep)))

example : ∃ (s : St) (a : Addr), s.oom = false ∧ Has isPayload s.heap a exPayload := exists_has (mkPayload_spec _ _ trivial) (by decide +kernel)

/-- `wickr_key_exchange_copy` -/
theorem C78_ex : CopySafe isEx (fun _ => True) id hExCopy := CopySafe.of (KeepSpec.wasteful exKeep)

example : ∃ (s : St) (a : Addr), s.oom = false ∧ Has isEx s.heap a exEx := exists_has (mkEx_spec _ _ trivial) (by decide +kernel)

/-- `wickr_exchange_array_copy` -/
theorem C78_exs : CopySafe (isArr isEx) (fun _ => True) id hExsCopy := CopySafe.of (KeepSpec.wasteful exsKeep)

example : ∃ (s : St) (a : Addr), s.oom = false ∧ Has (isArr isEx) s.heap a exExs := exists_has (mkExs_spec _ _ trivial) (by decide +kernel)

/-- `wickr_key_exchange_set_copy` -/
theorem C78_set : CopySafe isSet (fun _ => True) id hSetCopy := CopySafe.of (KeepSpec.wasteful setKeep)

example : ∃ (s : St) (a : Addr), s.oom = false ∧ Has isSet s.heap a exSet := exists_has (mkSet_spec _ _ trivial) (by decide +kernel)

/-- `wickr_packet_copy` -/
theorem C78_packet : CopySafe isPacket (fun _ => True) id hPacketCopy := CopySafe.of (KeepSpec.wasteful (KeepSpec.leaky (KeepSpec.freshL packetKeep)))

example : ∃ (s : St) (a : Addr), s.oom = false ∧ Has isPacket s.heap a exPacket := exists_has (mkPacket_spec _ _ trivial) (by decide +kernel)

/-- `wickr_encoder_result_copy` -/
theorem C78_enc : CopySafe isEnc (fun _ => True) id hEncCopy := CopySafe.of (KeepSpec.wasteful (KeepSpec.leaky (KeepSpec.freshL encKeep)))

example : ∃ (s : St) (a : Addr), s.oom = false ∧ Has isEnc s.heap a exEnc := exists_has (mkEnc_spec _ _ trivial) (by decide +kernel)

/-- `wickr_decode_result_copy` -/
theorem C78_dec : CopySafe isDec (fun _ => True) id hDecCopy := CopySafe.of (KeepSpec.wasteful decKeep)

example : ∃ (s : St) (a : Addr), s.oom = false ∧ Has isDec s.heap a exDec := exists_has (mkDec_spec _ _ trivial) (by decide +kernel)

/-- `wickr_parse_result_copy` -/
theorem C78_parse : CopySafe isParse (fun _ => True) id hParseCopy := CopySafe.of parseKeep

example : ∃ (s : St) (a : Addr), s.oom = false ∧ Has isParse s.heap a exParse := exists_has (mkParse_spec _ _ trivial) (by decide +kernel)

/-- `wickr_storage_keys_copy` -/
theorem C78_storage : CopySafe isStorage (fun _ => True) id hStorageCopy := CopySafe.of (KeepSpec.wasteful (KeepSpec.leaky (KeepSpec.freshL storageKeep)))

example : ∃ (s : St) (a : Addr), s.oom = false ∧ Has isStorage s.heap a exStorage := exists_has (mkStorage_spec _ _ trivial) (by decide +kernel)

/-- `wickr_root_keys_copy` -/
theorem C78_root : CopySafe isRoot (fun _ => True) id hRootCopy := CopySafe.of (KeepSpec.wasteful (KeepSpec.leaky (KeepSpec.freshL rootKeep)))

example : ∃ (s : St) (a : Addr), s.oom = false ∧ Has isRoot s.heap a exRoot := exists_has (mkRoot_spec _ _ trivial) (by decide +kernel)

/-- `wickr_dev_info_copy` -/
theorem C78_dev : CopySafe isDev (fun v => v.systemSalt.isSome) id hDevCopy := CopySafe.of (KeepSpec.wasteful (KeepSpec.leaky (KeepSpec.freshL (devKeep (cr := True)))))

example : ∃ (s : St) (a : Addr), s.oom = false ∧ Has isDev s.heap a exDev := exists_has (mkDev_spec _ _ trivial) (by decide +kernel)

/-- `wickr_kdf_meta_copy` -/
theorem C78_kdfMeta : CopySafe isKdfMeta (fun _ => True) id hKdfMetaCopy := CopySafe.of (KeepSpec.wasteful (kdfMetaKeep (cr := True)))

example : ∃ (s : St) (a : Addr), s.oom = false ∧ Has isKdfMeta s.heap a exKdfMeta := exists_has (mkKdfMeta_spec _ _ trivial) (by decide +kernel)

/-- `wickr_kdf_result_copy` -/
theorem C78_kdfRes : CopySafe isKdfRes (fun _ => True) id hKdfResCopy := CopySafe.of (KeepSpec.wasteful (kdfResKeep (cr := True)))

example : ∃ (s : St) (a : Addr), s.oom = false ∧ Has isKdfRes s.heap a exKdfRes := exists_has (mkKdfRes_spec _ _ trivial) (by decide +kernel)

/-- `wickr_stream_key_copy` -/
theorem C78_sKey : CopySafe isSKey (fun _ => True) id hSKeyCopy := CopySafe.of (KeepSpec.wasteful (KeepSpec.leaky (KeepSpec.freshL sKeyKeep)))

example : ∃ (s : St) (a : Addr), s.oom = false ∧ Has isSKey s.heap a exSKey := exists_has (mkSKey_spec _ _ trivial) (by decide +kernel)

/-- `wickr_stream_iv_copy` -/
theorem C78_sIv : CopySafe isSIv (fun _ => True) id hSIvCopy := CopySafe.of (KeepSpec.wasteful (KeepSpec.leaky (KeepSpec.freshL (sIvKeep (cr := True)))))

example : ∃ (s : St) (a : Addr), s.oom = false ∧ Has isSIv s.heap a exSIv := exists_has (mkSIv_spec _ _ trivial) (by decide +kernel)

/-- `wickr_stream_ctx_copy` -/
theorem C78_sCtx : CopySafe isSCtx (fun _ => True) (fun v => { v with ref := 1 }) hSCtxCopy := CopySafe.of (KeepSpec.wasteful (KeepSpec.leaky (KeepSpec.freshL sCtxKeep)))

example : ∃ (s : St) (a : Addr), s.oom = false ∧ Has isSCtx s.heap a exSCtx := exists_has (mkSCtx_spec _ _ trivial) (by decide +kernel)

/-- `wickr_transport_root_key_copy` -/
theorem C78_tRoot : CopySafe isTRoot (fun _ => True) id hTRootCopy := CopySafe.of (KeepSpec.wasteful (KeepSpec.leaky (KeepSpec.freshL (tRootKeep (cr := True)))))

example : ∃ (s : St) (a : Addr), s.oom = false ∧ Has isTRoot s.heap a exTRoot := exists_has (mkTRoot_spec _ _ trivial) (by decide +kernel)

/-- `wickr_ecdh_cipher_ctx_copy` -/
theorem C78_ecdh : CopySafe isEcdh (fun _ => True) id hEcdhCopy := CopySafe.of (KeepSpec.wasteful (KeepSpec.leaky (KeepSpec.freshL ecdhKeep)))

example : ∃ (s : St) (a : Addr), s.oom = false ∧ Has isEcdh s.heap a exEcdh := exists_has (mkEcdh_spec _ _ trivial) (by decide +kernel)

theorem C79_buf_destroy : DestroySafe isBuf (fun _ => True) hBufDestroy := DestroySafe.of (pubs := (fun v => [v])) bufFree

theorem C79_bufZero_destroy : DestroySafe isBuf (fun _ => True) hBufDestroyZero := DestroySafe.of (pubs := (fun _ => [])) bufZeroFree

theorem C79_key_destroy : DestroySafe isKey (fun _ => True) hKeyDestroy := DestroySafe.of (pubs := (fun _ => [])) keyFree

theorem C79_sig_destroy : DestroySafe isSig (fun _ => True) hSigDestroy := DestroySafe.of (pubs := (fun v => [v.sig])) sigFree

theorem C79_id_destroy : DestroySafe isId (fun _ => True) hIdDestroy := DestroySafe.of (pubs := (fun v => v.publics)) idFree

theorem C79_chain_destroy : DestroySafe isChain (fun _ => True) hChainDestroy := DestroySafe.of (pubs := (fun v => v.publics)) chainFree

theorem C79_cKey_destroy : DestroySafe isCKey (fun _ => True) hCKeyDestroy := DestroySafe.of (pubs := (fun _ => [])) cKeyFree

theorem C79_cRes_destroy : DestroySafe isCRes (fun _ => True) hCResDestroy := DestroySafe.of (pubs := (fun v => v.publics)) cResFree

theorem C79_eph_destroy : DestroySafe isEph (fun _ => True) hEphDestroy := DestroySafe.of (pubs := (fun v => v.publics)) ephFree

theorem C79_node_destroy : DestroySafe isNode (fun _ => True) hNodeDestroy := DestroySafe.of (pubs := (fun v => v.publics)) nodeFree

theorem C79_info_destroy : DestroySafe isInfo (fun _ => True) hInfoDestroy := DestroySafe.of (pubs := (fun v => [v.channelTag])) infoFree

theorem C79_payload_destroy : DestroySafe isPayload (fun _ => True) hPayloadDestroy := DestroySafe.of (pubs := (fun v => v.publics)) payloadFree

theorem C79_ex_destroy : DestroySafe isEx (fun _ => True) hExDestroy := DestroySafe.of (pubs := (fun v => v.publics)) exFree

theorem C79_exs_destroy : DestroySafe (isArr isEx) (fun _ => True) hExsDestroy := DestroySafe.of (pubs := (fun v => (exsPublics v))) exsFree

theorem C79_set_destroy : DestroySafe isSet (fun _ => True) hSetDestroy := DestroySafe.of (pubs := (fun v => v.publics)) setFree

theorem C79_packet_destroy : DestroySafe isPacket (fun _ => True) hPacketDestroy := DestroySafe.of (pubs := (fun v => v.publics)) packetFree

theorem C79_enc_destroy : DestroySafe isEnc (fun _ => True) hEncDestroy := DestroySafe.of (pubs := (fun v => v.publics)) encFree

theorem C79_dec_destroy : DestroySafe isDec (fun _ => True) hDecDestroy := DestroySafe.of (pubs := (fun v => v.publics)) decFree

theorem C79_parse_destroy : DestroySafe isParse (fun _ => True) hParseDestroy := DestroySafe.of (pubs := (fun v => v.publics)) parseFree

theorem C79_storage_destroy : DestroySafe isStorage (fun _ => True) hStorageDestroy := DestroySafe.of (pubs := (fun _ => [])) storageFree

theorem C79_root_destroy : DestroySafe isRoot (fun _ => True) hRootDestroy := DestroySafe.of (pubs := (fun _ => [])) rootFree

theorem C79_dev_destroy : DestroySafe isDev (fun _ => True) hDevDestroy := DestroySafe.of (pubs := (fun _ => [])) devFree

theorem C79_kdfMeta_destroy : DestroySafe isKdfMeta (fun _ => True) hKdfMetaDestroy := DestroySafe.of (pubs := (fun v => v.publics)) kdfMetaFree

theorem C79_kdfRes_destroy : DestroySafe isKdfRes (fun _ => True) hKdfResDestroy := DestroySafe.of (pubs := (fun v => v.publics)) kdfResFree

theorem C79_sKey_destroy : DestroySafe isSKey (fun _ => True) hSKeyDestroy := DestroySafe.of (pubs := (fun v => v.publics)) sKeyFree

theorem C79_sIv_destroy : DestroySafe isSIv (fun _ => True) hSIvDestroy := DestroySafe.of (pubs := (fun v => [v.seed])) sIvFree

theorem C79_sCtx_destroy : DestroySafe isSCtx (fun v => v.ref = 0 ∨ v.ref = 1) hSCtxDestroy := DestroySafe.of (pubs := (fun v => v.publics)) sCtxFree

theorem C79_tRoot_destroy : DestroySafe isTRoot (fun _ => True) hTRootDestroy := DestroySafe.of (pubs := (fun _ => [])) tRootFree

theorem C79_ecdh_destroy : DestroySafe isEcdh (fun _ => True) hEcdhDestroy := DestroySafe.of (pubs := (fun _ => [])) ecdhFree

theorem C79_buf_copy : CopyUndone isBuf (fun _ => True) hBufCopy hBufDestroy := CopyUndone.of (KeepSpec.leaky (KeepSpec.freshL (bufKeep (cr := True)))) C79_buf_destroy (fun _ _ _ _ => trivial)

theorem C79_key_copy : CopyUndone isKey (fun _ => True) hKeyCopy hKeyDestroy := CopyUndone.of (KeepSpec.leaky (KeepSpec.freshL keyKeep)) C79_key_destroy (fun _ _ _ _ => trivial)

theorem C79_sig_copy : CopyUndone isSig (fun _ => True) hSigCopy hSigDestroy := CopyUndone.of (KeepSpec.leaky (KeepSpec.freshL sigKeep)) C79_sig_destroy (fun _ _ _ _ => trivial)

theorem C79_id_copy : CopyUndone isId (fun _ => True) hIdCopy hIdDestroy := CopyUndone.of (KeepSpec.leaky idKeep) C79_id_destroy (fun _ _ _ _ => trivial)

theorem C79_chain_copy : CopyUndone isChain (fun _ => True) hChainCopy hChainDestroy := CopyUndone.of (KeepSpec.leaky chainKeep) C79_chain_destroy (fun _ _ _ _ => trivial)

theorem C79_cKey_copy : CopyUndone isCKey (fun _ => True) hCKeyCopy hCKeyDestroy := CopyUndone.of (KeepSpec.leaky (KeepSpec.freshL cKeyKeep)) C79_cKey_destroy (fun _ _ _ _ => trivial)

theorem C79_cRes_copy : CopyUndone isCRes (fun _ => True) hCResCopy hCResDestroy := CopyUndone.of cResKeep C79_cRes_destroy (fun _ _ _ _ => trivial)

theorem C79_eph_copy : CopyUndone isEph (fun _ => True) hEphCopy hEphDestroy := CopyUndone.of (KeepSpec.leaky (KeepSpec.freshL ephKeep)) C79_eph_destroy (fun _ _ _ _ => trivial)

theorem C79_node_copy : CopyUndone isNode (fun _ => True) hNodeCopy hNodeDestroy := CopyUndone.of (KeepSpec.leaky nodeKeep) C79_node_destroy (fun _ _ _ _ => trivial)

theorem C79_info_copy : CopyUndone isInfo (fun _ => True) hInfoCopy hInfoDestroy := CopyUndone.of (KeepSpec.leaky (KeepSpec.freshL infoKeep)) C79_info_destroy (fun _ _ _ _ => trivial)

theorem C79_payload_copy : CopyUndone isPayload (fun _ => True) hPayloadCopy hPayloadDestroy := CopyUndone.of (KeepSpec.leaky (KeepSpec.freshL payloadKeep)) C79_payload_destroy (fun _ _ _ _ => trivial)

theorem C79_ex_copy : CopyUndone isEx (fun _ => True) hExCopy hExDestroy := CopyUndone.of exKeep C79_ex_destroy (fun _ _ _ _ => trivial)

theorem C79_exs_copy : CopyUndone (isArr isEx) (fun _ => True) hExsCopy hExsDestroy := CopyUndone.of exsKeep C79_exs_destroy (fun _ _ _ _ => trivial)

theorem C79_set_copy : CopyUndone isSet (fun _ => True) hSetCopy hSetDestroy := CopyUndone.of setKeep C79_set_destroy (fun _ _ _ _ => trivial)

theorem C79_packet_copy : CopyUndone isPacket (fun _ => True) hPacketCopy hPacketDestroy := CopyUndone.of (KeepSpec.leaky (KeepSpec.freshL packetKeep)) C79_packet_destroy (fun _ _ _ _ => trivial)

theorem C79_enc_copy : CopyUndone isEnc (fun _ => True) hEncCopy hEncDestroy := CopyUndone.of (KeepSpec.leaky (KeepSpec.freshL encKeep)) C79_enc_destroy (fun _ _ _ _ => trivial)

theorem C79_dec_copy : CopyUndone isDec (fun _ => True) hDecCopy hDecDestroy := CopyUndone.of decKeep C79_dec_destroy (fun _ _ _ _ => trivial)

theorem C79_storage_copy : CopyUndone isStorage (fun _ => True) hStorageCopy hStorageDestroy := CopyUndone.of (KeepSpec.leaky (KeepSpec.freshL storageKeep)) C79_storage_destroy (fun _ _ _ _ => trivial)

theorem C79_root_copy : CopyUndone isRoot (fun _ => True) hRootCopy hRootDestroy := CopyUndone.of (KeepSpec.leaky (KeepSpec.freshL rootKeep)) C79_root_destroy (fun _ _ _ _ => trivial)

theorem C79_dev_copy : CopyUndone isDev (fun v => v.systemSalt.isSome) hDevCopy hDevDestroy := CopyUndone.of (KeepSpec.leaky (KeepSpec.freshL (devKeep (cr := True)))) C79_dev_destroy (fun _ _ _ _ => trivial)

theorem C79_kdfMeta_copy : CopyUndone isKdfMeta (fun _ => True) hKdfMetaCopy hKdfMetaDestroy := CopyUndone.of (kdfMetaKeep (cr := True)) C79_kdfMeta_destroy (fun _ _ _ _ => trivial)

theorem C79_kdfRes_copy : CopyUndone isKdfRes (fun _ => True) hKdfResCopy hKdfResDestroy := CopyUndone.of (kdfResKeep (cr := True)) C79_kdfRes_destroy (fun _ _ _ _ => trivial)

theorem C79_sKey_copy : CopyUndone isSKey (fun _ => True) hSKeyCopy hSKeyDestroy := CopyUndone.of (KeepSpec.leaky (KeepSpec.freshL sKeyKeep)) C79_sKey_destroy (fun _ _ _ _ => trivial)

theorem C79_sIv_copy : CopyUndone isSIv (fun _ => True) hSIvCopy hSIvDestroy := CopyUndone.of (KeepSpec.leaky (KeepSpec.freshL (sIvKeep (cr := True)))) C79_sIv_destroy (fun _ _ _ _ => trivial)

theorem C79_sCtx_copy : CopyUndone isSCtx (fun _ => True) hSCtxCopy hSCtxDestroy := CopyUndone.of (KeepSpec.leaky (KeepSpec.freshL sCtxKeep)) C79_sCtx_destroy (fun v v' _ h => h ▸ Or.inr rfl)

theorem C79_tRoot_copy : CopyUndone isTRoot (fun _ => True) hTRootCopy hTRootDestroy := CopyUndone.of (KeepSpec.leaky (KeepSpec.freshL (tRootKeep (cr := True)))) C79_tRoot_destroy (fun _ _ _ _ => trivial)

theorem C79_ecdh_copy : CopyUndone isEcdh (fun _ => True) hEcdhCopy hEcdhDestroy := CopyUndone.of (KeepSpec.leaky (KeepSpec.freshL ecdhKeep)) C79_ecdh_destroy (fun _ _ _ _ => trivial)

end Wickr
