import Verif.Lemmas.Witness
/-
C83: secrets are wiped before their memory is released.
-/
set_option linter.unusedVariables false
namespace Wickr
open Asrt Spec


theorem C83_buf_copy : Wipes isBuf (fun _ => True) (fun _ => []) hBufCopy := Wipes.of (bufKeep (cr := True))

theorem C83_key_copy : Wipes isKey (fun _ => True) (fun v => [v.pub]) hKeyCopy := Wipes.of keyKeep

theorem C83_sig_copy : Wipes isSig (fun _ => True) (fun v => [v.sig]) hSigCopy := Wipes.of sigKeep

theorem C83_id_copy : Wipes isId (fun _ => True) (fun v => v.publics) hIdCopy := Wipes.of idKeep

theorem C83_chain_copy : Wipes isChain (fun _ => True) (fun v => v.publics) hChainCopy := Wipes.of chainKeep

theorem C83_cKey_copy : Wipes isCKey (fun _ => True) (fun _ => []) hCKeyCopy := Wipes.of cKeyKeep

theorem C83_cRes_copy : Wipes isCRes (fun _ => True) (fun v => v.publics) hCResCopy := Wipes.of cResKeep

theorem C83_eph_copy : Wipes isEph (fun _ => True) (fun v => v.publics) hEphCopy := Wipes.of ephKeep

theorem C83_node_copy : Wipes isNode (fun _ => True) (fun v => v.publics) hNodeCopy := Wipes.of nodeKeep

theorem C83_nodes_copy : Wipes (isArr isNode) (fun _ => True) (fun v => (nodesPublics v)) hNodesCopy := Wipes.of nodesKeep

theorem C83_info_copy : Wipes isInfo (fun _ => True) (fun v => [v.channelTag]) hInfoCopy := Wipes.of infoKeep

theorem C83_payload_copy : Wipes isPayload (fun _ => True) (fun v => v.publics) hPayloadCopy := Wipes.of payloadKeep

theorem C83_ex_copy : Wipes isEx (fun _ => True) (fun v => v.publics) hExCopy := Wipes.of exKeep

theorem C83_exs_copy : Wipes (isArr isEx) (fun _ => True) (fun v => (exsPublics v)) hExsCopy := Wipes.of exsKeep

theorem C83_set_copy : Wipes isSet (fun _ => True) (fun v => v.publics) hSetCopy := Wipes.of setKeep

theorem C83_packet_copy : Wipes isPacket (fun _ => True) (fun v => v.publics) hPacketCopy := Wipes.of packetKeep

theorem C83_enc_copy : Wipes isEnc (fun _ => True) (fun v => v.publics) hEncCopy := Wipes.of encKeep

theorem C83_dec_copy : Wipes isDec (fun _ => True) (fun v => v.publics) hDecCopy := Wipes.of decKeep

theorem C83_parse_copy : Wipes isParse (fun _ => True) (fun v => v.publics) hParseCopy := Wipes.of parseKeep

theorem C83_storage_copy : Wipes isStorage (fun _ => True) (fun _ => []) hStorageCopy := Wipes.of storageKeep

theorem C83_root_copy : Wipes isRoot (fun _ => True) (fun v => [v.sigRoot.pub]) hRootCopy := Wipes.of rootKeep

theorem C83_dev_copy : Wipes isDev (fun v => v.systemSalt.isSome) (fun _ => []) hDevCopy := Wipes.of (devKeep (cr := True))

theorem C83_kdfMeta_copy_partial : Wipes isKdfMeta (fun _ => True) (fun v => v.salt.toList) hKdfMetaCopy := Wipes.of (kdfMetaKeep (cr := True))

theorem C83_kdfMeta_copy_spills : ¬ Wipes isKdfMeta (fun _ => True) KdfMeta.publics hKdfMetaCopy := not_wipes [7] trivial (mkKdfMeta_spec _ _ trivial) (by decide +kernel)

theorem C83_kdfRes_copy_partial : Wipes isKdfRes (fun _ => True) (fun v => (v.info.salt.toList ++ v.publics)) hKdfResCopy := Wipes.of (kdfResKeep (cr := True))

theorem C83_kdfRes_copy_spills : ¬ Wipes isKdfRes (fun _ => True) KdfResult.publics hKdfResCopy := not_wipes [10] trivial (mkKdfRes_spec _ _ trivial) (by decide +kernel)

theorem C83_sKey_copy : Wipes isSKey (fun _ => True) (fun v => v.publics) hSKeyCopy := Wipes.of sKeyKeep

theorem C83_sIv_copy : Wipes isSIv (fun _ => True) (fun v => [v.seed]) hSIvCopy := Wipes.of (sIvKeep (cr := True))

theorem C83_sCtx_copy : Wipes isSCtx (fun _ => True) (fun v => v.publics) hSCtxCopy := Wipes.of sCtxKeep

theorem C83_tRoot_copy : Wipes isTRoot (fun _ => True) (fun _ => []) hTRootCopy := Wipes.of (tRootKeep (cr := True))

theorem C83_ecdh_copy : Wipes isEcdh (fun _ => True) (fun v => [v.key.pub]) hEcdhCopy := Wipes.of ecdhKeep

theorem C83_buf_destroy : Wipes isBuf (fun _ => True) (fun v => [v]) hBufDestroy := Wipes.ofDestroy bufFree

theorem C83_bufZero_destroy : Wipes isBuf (fun _ => True) (fun _ => []) hBufDestroyZero := Wipes.ofDestroy bufZeroFree

theorem C83_key_destroy : Wipes isKey (fun _ => True) (fun _ => []) hKeyDestroy := Wipes.ofDestroy keyFree

theorem C83_sig_destroy : Wipes isSig (fun _ => True) (fun v => [v.sig]) hSigDestroy := Wipes.ofDestroy sigFree

theorem C83_id_destroy : Wipes isId (fun _ => True) (fun v => v.publics) hIdDestroy := Wipes.ofDestroy idFree

theorem C83_chain_destroy : Wipes isChain (fun _ => True) (fun v => v.publics) hChainDestroy := Wipes.ofDestroy chainFree

theorem C83_cKey_destroy : Wipes isCKey (fun _ => True) (fun _ => []) hCKeyDestroy := Wipes.ofDestroy cKeyFree

theorem C83_cRes_destroy : Wipes isCRes (fun _ => True) (fun v => v.publics) hCResDestroy := Wipes.ofDestroy cResFree

theorem C83_eph_destroy : Wipes isEph (fun _ => True) (fun v => v.publics) hEphDestroy := Wipes.ofDestroy ephFree

theorem C83_node_destroy : Wipes isNode (fun _ => True) (fun v => v.publics) hNodeDestroy := Wipes.ofDestroy nodeFree

theorem C83_info_destroy : Wipes isInfo (fun _ => True) (fun v => [v.channelTag]) hInfoDestroy := Wipes.ofDestroy infoFree

theorem C83_payload_destroy : Wipes isPayload (fun _ => True) (fun v => v.publics) hPayloadDestroy := Wipes.ofDestroy payloadFree

theorem C83_ex_destroy : Wipes isEx (fun _ => True) (fun v => v.publics) hExDestroy := Wipes.ofDestroy exFree

theorem C83_exs_destroy : Wipes (isArr isEx) (fun _ => True) (fun v => (exsPublics v)) hExsDestroy := Wipes.ofDestroy exsFree

theorem C83_set_destroy : Wipes isSet (fun _ => True) (fun v => v.publics) hSetDestroy := Wipes.ofDestroy setFree

theorem C83_packet_destroy : Wipes isPacket (fun _ => True) (fun v => v.publics) hPacketDestroy := Wipes.ofDestroy packetFree

theorem C83_enc_destroy : Wipes isEnc (fun _ => True) (fun v => v.publics) hEncDestroy := Wipes.ofDestroy encFree

theorem C83_dec_destroy : Wipes isDec (fun _ => True) (fun v => v.publics) hDecDestroy := Wipes.ofDestroy decFree

theorem C83_parse_destroy : Wipes isParse (fun _ => True) (fun v => v.publics) hParseDestroy := Wipes.ofDestroy parseFree

theorem C83_storage_destroy : Wipes isStorage (fun _ => True) (fun _ => []) hStorageDestroy := Wipes.ofDestroy storageFree

theorem C83_root_destroy : Wipes isRoot (fun _ => True) (fun _ => []) hRootDestroy := Wipes.ofDestroy rootFree

theorem C83_dev_destroy : Wipes isDev (fun _ => True) (fun _ => []) hDevDestroy := Wipes.ofDestroy devFree

theorem C83_kdfMeta_destroy : Wipes isKdfMeta (fun _ => True) (fun v => v.publics) hKdfMetaDestroy := Wipes.ofDestroy kdfMetaFree

theorem C83_kdfRes_destroy : Wipes isKdfRes (fun _ => True) (fun v => v.publics) hKdfResDestroy := Wipes.ofDestroy kdfResFree

theorem C83_sKey_destroy : Wipes isSKey (fun _ => True) (fun v => v.publics) hSKeyDestroy := Wipes.ofDestroy sKeyFree

theorem C83_sIv_destroy : Wipes isSIv (fun _ => True) (fun v => [v.seed]) hSIvDestroy := Wipes.ofDestroy sIvFree

theorem C83_sCtx_destroy : Wipes isSCtx (fun v => v.ref = 0 ∨ v.ref = 1) (fun v => v.publics) hSCtxDestroy := Wipes.ofDestroy sCtxFree

theorem C83_tRoot_destroy : Wipes isTRoot (fun _ => True) (fun _ => []) hTRootDestroy := Wipes.ofDestroy tRootFree

theorem C83_ecdh_destroy : Wipes isEcdh (fun _ => True) (fun _ => []) hEcdhDestroy := Wipes.ofDestroy ecdhFree

end Wickr
