import Verif.Lemmas.Witness
/-
C80: copies that fail leak nothing.  C81: copies are faithful.  C82: NULL is never dereferenced.  All while allocations fail.
-/
set_option linter.unusedVariables false
namespace Wickr
open Asrt Spec


theorem C80_buf : CopyNoLeak isBuf (fun _ => True) hBufCopy := CopyNoLeak.of (KeepSpec.freshL (bufKeep (cr := True)))

theorem C80_key : CopyNoLeak isKey (fun _ => True) hKeyCopy := CopyNoLeak.of (KeepSpec.freshL keyKeep)

theorem C80_sig : CopyNoLeak isSig (fun _ => True) hSigCopy := CopyNoLeak.of (KeepSpec.freshL sigKeep)

theorem C80_id : CopyNoLeak isId (fun _ => True) hIdCopy := CopyNoLeak.of idKeep

theorem C80_chain : CopyNoLeak isChain (fun _ => True) hChainCopy := CopyNoLeak.of chainKeep

theorem C80_cKey : CopyNoLeak isCKey (fun _ => True) hCKeyCopy := CopyNoLeak.of (KeepSpec.freshL cKeyKeep)

theorem C80_cRes_leaks : ¬ CopyNoLeak isCRes (fun _ => True) hCResCopy := not_noLeak [7] 8 trivial (mkCRes_spec _ _ trivial) (by decide +kernel)

theorem C80_eph : CopyNoLeak isEph (fun _ => True) hEphCopy := CopyNoLeak.of (KeepSpec.freshL ephKeep)

theorem C80_node : CopyNoLeak isNode (fun _ => True) hNodeCopy := CopyNoLeak.of nodeKeep

theorem C80_nodes : CopyNoLeak (isArr isNode) (fun _ => True) hNodesCopy := CopyNoLeak.of nodesKeep

theorem C80_info : CopyNoLeak isInfo (fun _ => True) hInfoCopy := CopyNoLeak.of (KeepSpec.freshL infoKeep)

theorem C80_payload : CopyNoLeak isPayload (fun _ => True) hPayloadCopy := CopyNoLeak.of (KeepSpec.freshL payloadKeep)

theorem C80_ex_leaks : ¬ CopyNoLeak isEx (fun _ => True) hExCopy := not_noLeak [10] 11 trivial (mkEx_spec _ _ trivial) (by decide +kernel)

theorem C80_exs_leaks : ¬ CopyNoLeak (isArr isEx) (fun _ => True) hExsCopy := not_noLeak [16] 17 trivial (mkExs_spec _ _ trivial) (by decide +kernel)

theorem C80_set_leaks : ¬ CopyNoLeak isSet (fun _ => True) hSetCopy := not_noLeak [27] 28 trivial (mkSet_spec _ _ trivial) (by decide +kernel)

theorem C80_packet : CopyNoLeak isPacket (fun _ => True) hPacketCopy := CopyNoLeak.of (KeepSpec.freshL packetKeep)

theorem C80_enc : CopyNoLeak isEnc (fun _ => True) hEncCopy := CopyNoLeak.of (KeepSpec.freshL encKeep)

theorem C80_dec_leaks : ¬ CopyNoLeak isDec (fun _ => True) hDecCopy := not_noLeak [19] 16 trivial (mkDec_spec _ _ trivial) (by decide +kernel)

theorem C80_storage : CopyNoLeak isStorage (fun _ => True) hStorageCopy := CopyNoLeak.of (KeepSpec.freshL storageKeep)

theorem C80_root : CopyNoLeak isRoot (fun _ => True) hRootCopy := CopyNoLeak.of (KeepSpec.freshL rootKeep)

theorem C80_dev : CopyNoLeak isDev (fun v => v.systemSalt.isSome) hDevCopy := CopyNoLeak.of (KeepSpec.freshL (devKeep (cr := True)))

theorem C80_kdfMeta_leaks : ¬ CopyNoLeak isKdfMeta (fun _ => True) hKdfMetaCopy := not_noLeak [9] 5 trivial (mkKdfMeta_spec _ _ trivial) (by decide +kernel)

theorem C80_kdfRes_leaks : ¬ CopyNoLeak isKdfRes (fun _ => True) hKdfResCopy := not_noLeak [12] 8 trivial (mkKdfRes_spec _ _ trivial) (by decide +kernel)

theorem C80_sKey : CopyNoLeak isSKey (fun _ => True) hSKeyCopy := CopyNoLeak.of (KeepSpec.freshL sKeyKeep)

theorem C80_sIv : CopyNoLeak isSIv (fun _ => True) hSIvCopy := CopyNoLeak.of (KeepSpec.freshL (sIvKeep (cr := True)))

theorem C80_sCtx : CopyNoLeak isSCtx (fun _ => True) hSCtxCopy := CopyNoLeak.of (KeepSpec.freshL sCtxKeep)

theorem C80_tRoot : CopyNoLeak isTRoot (fun _ => True) hTRootCopy := CopyNoLeak.of (KeepSpec.freshL (tRootKeep (cr := True)))

theorem C80_ecdh : CopyNoLeak isEcdh (fun _ => True) hEcdhCopy := CopyNoLeak.of (KeepSpec.freshL ecdhKeep)

theorem C81_buf : CopyFaithful isBuf (fun _ => True) id hBufCopy := CopyFaithful.of (KeepSpec.wasteful (KeepSpec.leaky (KeepSpec.freshL (bufKeep (cr := True)))))

theorem C81_key : CopyFaithful isKey (fun _ => True) id hKeyCopy := CopyFaithful.of (KeepSpec.wasteful (KeepSpec.leaky (KeepSpec.freshL keyKeep)))

theorem C81_sig : CopyFaithful isSig (fun _ => True) id hSigCopy := CopyFaithful.of (KeepSpec.wasteful (KeepSpec.leaky (KeepSpec.freshL sigKeep)))

theorem C81_id_partial : CopyUpTo isId (fun _ => True) idLoss hIdCopy := CopyUpTo.of (c := fun v => ⟨(· ∈ v.publics), True, False⟩) (KeepSpec.wasteful (KeepSpec.leaky idKeep))

theorem C81_id_loses : ¬ CopyFaithful isId (fun _ => True) id hIdCopy := by
  refine not_faithful (probe := probe [2]) [18] trivial (mkId_spec _ _ trivial) ?_ (by decide +kernel)
  intro b c f
  simp only [probe]
  try dsimp only [exId, exChain, exNode, exEx, exCRes, exDec, exParse, id]
  sopen isId
  try dsimp only [exId, exChain, exNode, exEx, exCRes, exDec, exParse]
  sopt <;> sgo

theorem C81_chain_partial : CopyUpTo isChain (fun _ => True) chainLoss hChainCopy := CopyUpTo.of (c := fun v => ⟨(· ∈ v.publics), True, False⟩) (KeepSpec.wasteful (KeepSpec.leaky chainKeep))

theorem C81_chain_loses : ¬ CopyFaithful isChain (fun _ => True) id hChainCopy := by
  refine not_faithful (probe := probe [0, 2]) [30] trivial (mkChain_spec _ _ trivial) ?_ (by decide +kernel)
  intro b c f
  simp only [probe]
  try dsimp only [exId, exChain, exNode, exEx, exCRes, exDec, exParse, id]
  sopen isChain
  sopen isId
  try dsimp only [exId, exChain, exNode, exEx, exCRes, exDec, exParse]
  sopt <;> sgo

theorem C81_cKey : CopyFaithful isCKey (fun _ => True) id hCKeyCopy := CopyFaithful.of (KeepSpec.wasteful (KeepSpec.leaky (KeepSpec.freshL cKeyKeep)))

theorem C81_cRes_partial : CopyUpTo isCRes (fun _ => True) cresLoss hCResCopy := CopyUpTo.of (c := fun v => ⟨(· ∈ v.publics), True, False⟩) (KeepSpec.wasteful cResKeep)

theorem C81_cRes_loses : ¬ CopyFaithful isCRes (fun _ => True) id hCResCopy := by
  refine not_faithful (probe := probe [1]) [9] trivial (mkCRes_spec _ _ trivial) ?_ (by decide +kernel)
  intro b c f
  simp only [probe]
  try dsimp only [exId, exChain, exNode, exEx, exCRes, exDec, exParse, id]
  sopen isCRes
  try dsimp only [exId, exChain, exNode, exEx, exCRes, exDec, exParse]
  sopt <;> sgo

theorem C81_eph : CopyFaithful isEph (fun _ => True) id hEphCopy := CopyFaithful.of (KeepSpec.wasteful (KeepSpec.leaky (KeepSpec.freshL ephKeep)))

theorem C81_node_partial : CopyUpTo isNode (fun _ => True) nodeLoss hNodeCopy := CopyUpTo.of (c := fun v => ⟨(· ∈ v.publics), True, False⟩) (KeepSpec.wasteful (KeepSpec.leaky nodeKeep))

theorem C81_node_loses : ¬ CopyFaithful isNode (fun _ => True) id hNodeCopy := by
  refine not_faithful (probe := probe [1, 0, 2]) [44] trivial (mkNode_spec _ _ trivial) ?_ (by decide +kernel)
  intro b c f
  simp only [probe]
  try dsimp only [exId, exChain, exNode, exEx, exCRes, exDec, exParse, id]
  sopen isNode
  sopen isChain
  sopen isId
  try dsimp only [exId, exChain, exNode, exEx, exCRes, exDec, exParse]
  sopt <;> sgo

theorem C81_nodes_partial : CopyUpTo (isArr isNode) (fun _ => True) (arrLoss nodeLoss) hNodesCopy := CopyUpTo.of (c := fun v => ⟨(· ∈ (nodesPublics v)), True, False⟩) (KeepSpec.wasteful (KeepSpec.leaky nodesKeep))

theorem C81_info : CopyFaithful isInfo (fun _ => True) id hInfoCopy := CopyFaithful.of (KeepSpec.wasteful (KeepSpec.leaky (KeepSpec.freshL infoKeep)))

theorem C81_payload : CopyFaithful isPayload (fun _ => True) id hPayloadCopy := CopyFaithful.of (KeepSpec.wasteful (KeepSpec.leaky (KeepSpec.freshL payloadKeep)))

theorem C81_ex_partial : CopyUpTo isEx (fun _ => True) exLoss hExCopy := CopyUpTo.of (c := fun v => ⟨(· ∈ v.publics), True, False⟩) (KeepSpec.wasteful exKeep)

theorem C81_ex_loses : ¬ CopyFaithful isEx (fun _ => True) id hExCopy := by
  refine not_faithful (probe := probe [1, 1]) [12] trivial (mkEx_spec _ _ trivial) ?_ (by decide +kernel)
  intro b c f
  simp only [probe]
  try dsimp only [exId, exChain, exNode, exEx, exCRes, exDec, exParse, id]
  sopen isEx
  sopen isCRes
  try dsimp only [exId, exChain, exNode, exEx, exCRes, exDec, exParse]
  sopt <;> sgo

theorem C81_exs_partial : CopyUpTo (isArr isEx) (fun _ => True) (arrLoss exLoss) hExsCopy := CopyUpTo.of (c := fun v => ⟨(· ∈ (exsPublics v)), True, False⟩) (KeepSpec.wasteful exsKeep)

theorem C81_set_partial : CopyUpTo isSet (fun _ => True) setLoss hSetCopy := CopyUpTo.of (c := fun v => ⟨(· ∈ v.publics), True, False⟩) (KeepSpec.wasteful setKeep)

theorem C81_packet : CopyFaithful isPacket (fun _ => True) id hPacketCopy := CopyFaithful.of (KeepSpec.wasteful (KeepSpec.leaky (KeepSpec.freshL packetKeep)))

theorem C81_enc : CopyFaithful isEnc (fun _ => True) id hEncCopy := CopyFaithful.of (KeepSpec.wasteful (KeepSpec.leaky (KeepSpec.freshL encKeep)))

theorem C81_dec_partial : CopyUpTo isDec (fun _ => True) decLoss hDecCopy := CopyUpTo.of (c := fun v => ⟨(· ∈ v.publics), True, False⟩) (KeepSpec.wasteful decKeep)

theorem C81_dec_loses : ¬ CopyFaithful isDec (fun _ => True) id hDecCopy := by
  refine not_faithful (probe := probe [0]) [10] trivial (mkDec_spec _ _ trivial) ?_ (by decide +kernel)
  intro b c f
  simp only [probe]
  try dsimp only [exId, exChain, exNode, exEx, exCRes, exDec, exParse, id]
  sopen isDec
  try dsimp only [exId, exChain, exNode, exEx, exCRes, exDec, exParse]
  sopt <;> sgo

theorem C81_parse_partial : CopyUpTo isParse (fun _ => True) parseLoss hParseCopy := CopyUpTo.of (c := fun v => ⟨(· ∈ v.publics), True, False⟩) parseKeep

theorem C81_parse_loses : ¬ CopyFaithful isParse (fun _ => True) id hParseCopy := by
  refine not_faithful (probe := probe [0]) [37] trivial (mkParse_spec _ _ trivial) ?_ (by decide +kernel)
  intro b c f
  simp only [probe]
  try dsimp only [exId, exChain, exNode, exEx, exCRes, exDec, exParse, id]
  sopen isParse
  try dsimp only [exId, exChain, exNode, exEx, exCRes, exDec, exParse]
  sopt <;> sgo

theorem C81_storage : CopyFaithful isStorage (fun _ => True) id hStorageCopy := CopyFaithful.of (KeepSpec.wasteful (KeepSpec.leaky (KeepSpec.freshL storageKeep)))

theorem C81_root : CopyFaithful isRoot (fun _ => True) id hRootCopy := CopyFaithful.of (KeepSpec.wasteful (KeepSpec.leaky (KeepSpec.freshL rootKeep)))

theorem C81_dev : CopyFaithful isDev (fun v => v.systemSalt.isSome) id hDevCopy := CopyFaithful.of (KeepSpec.wasteful (KeepSpec.leaky (KeepSpec.freshL (devKeep (cr := True)))))

theorem C81_kdfMeta : CopyFaithful isKdfMeta (fun _ => True) id hKdfMetaCopy := CopyFaithful.of (KeepSpec.wasteful (kdfMetaKeep (cr := True)))

theorem C81_kdfRes : CopyFaithful isKdfRes (fun _ => True) id hKdfResCopy := CopyFaithful.of (KeepSpec.wasteful (kdfResKeep (cr := True)))

theorem C81_sKey : CopyFaithful isSKey (fun _ => True) id hSKeyCopy := CopyFaithful.of (KeepSpec.wasteful (KeepSpec.leaky (KeepSpec.freshL sKeyKeep)))

theorem C81_sIv : CopyFaithful isSIv (fun _ => True) id hSIvCopy := CopyFaithful.of (KeepSpec.wasteful (KeepSpec.leaky (KeepSpec.freshL (sIvKeep (cr := True)))))

theorem C81_sCtx : CopyFaithful isSCtx (fun _ => True) (fun v => { v with ref := 1 }) hSCtxCopy := CopyFaithful.of (KeepSpec.wasteful (KeepSpec.leaky (KeepSpec.freshL sCtxKeep)))

theorem C81_tRoot : CopyFaithful isTRoot (fun _ => True) id hTRootCopy := CopyFaithful.of (KeepSpec.wasteful (KeepSpec.leaky (KeepSpec.freshL (tRootKeep (cr := True)))))

theorem C81_ecdh : CopyFaithful isEcdh (fun _ => True) id hEcdhCopy := CopyFaithful.of (KeepSpec.wasteful (KeepSpec.leaky (KeepSpec.freshL ecdhKeep)))

theorem C82_buf : CopyNoCrash isBuf (fun _ => True) hBufCopy := CopyNoCrash.of (pubs := (fun _ => [])) (bufKeep (cr := False))

theorem C82_key_crashes : ¬ CopyNoCrash isKey (fun _ => True) hKeyCopy := not_noCrash [9] trivial (mkKey_spec _ _ trivial) (by decide +kernel)

theorem C82_sig_crashes : ¬ CopyNoCrash isSig (fun _ => True) hSigCopy := not_noCrash [5] trivial (mkSig_spec _ _ trivial) (by decide +kernel)

theorem C82_id_crashes : ¬ CopyNoCrash isId (fun _ => True) hIdCopy := not_noCrash [17] trivial (mkId_spec _ _ trivial) (by decide +kernel)

theorem C82_chain_crashes : ¬ CopyNoCrash isChain (fun _ => True) hChainCopy := not_noCrash [29] trivial (mkChain_spec _ _ trivial) (by decide +kernel)

theorem C82_cKey_crashes : ¬ CopyNoCrash isCKey (fun _ => True) hCKeyCopy := not_noCrash [5] trivial (mkCKey_spec _ _ trivial) (by decide +kernel)

theorem C82_cRes_crashes : ¬ CopyNoCrash isCRes (fun _ => True) hCResCopy := not_noCrash [13] trivial (mkCRes_spec _ _ trivial) (by decide +kernel)

theorem C82_eph_crashes : ¬ CopyNoCrash isEph (fun _ => True) hEphCopy := not_noCrash [13] trivial (mkEph_spec _ _ trivial) (by decide +kernel)

theorem C82_node_crashes : ¬ CopyNoCrash isNode (fun _ => True) hNodeCopy := not_noCrash [43] trivial (mkNode_spec _ _ trivial) (by decide +kernel)

theorem C82_nodes_crashes : ¬ CopyNoCrash (isArr isNode) (fun _ => True) hNodesCopy := not_noCrash [49] trivial (mkNodes_spec _ _ trivial) (by decide +kernel)

theorem C82_info_crashes : ¬ CopyNoCrash isInfo (fun _ => True) hInfoCopy := not_noCrash [5] trivial (mkInfo_spec _ _ trivial) (by decide +kernel)

theorem C82_payload_crashes : ¬ CopyNoCrash isPayload (fun _ => True) hPayloadCopy := not_noCrash [8] trivial (mkPayload_spec _ _ trivial) (by decide +kernel)

theorem C82_ex_crashes : ¬ CopyNoCrash isEx (fun _ => True) hExCopy := not_noCrash [16] trivial (mkEx_spec _ _ trivial) (by decide +kernel)

theorem C82_exs_crashes : ¬ CopyNoCrash (isArr isEx) (fun _ => True) hExsCopy := not_noCrash [22] trivial (mkExs_spec _ _ trivial) (by decide +kernel)

theorem C82_set_crashes : ¬ CopyNoCrash isSet (fun _ => True) hSetCopy := not_noCrash [23] trivial (mkSet_spec _ _ trivial) (by decide +kernel)

theorem C82_packet_crashes : ¬ CopyNoCrash isPacket (fun _ => True) hPacketCopy := not_noCrash [10] trivial (mkPacket_spec _ _ trivial) (by decide +kernel)

theorem C82_enc_crashes : ¬ CopyNoCrash isEnc (fun _ => True) hEncCopy := not_noCrash [12] trivial (mkEnc_spec _ _ trivial) (by decide +kernel)

theorem C82_dec_crashes : ¬ CopyNoCrash isDec (fun _ => True) hDecCopy := not_noCrash [12] trivial (mkDec_spec _ _ trivial) (by decide +kernel)

theorem C82_parse_crashes : ¬ CopyNoCrash isParse (fun _ => True) hParseCopy := not_noCrash [41] trivial (mkParse_spec _ _ trivial) (by decide +kernel)

theorem C82_storage_crashes : ¬ CopyNoCrash isStorage (fun _ => True) hStorageCopy := not_noCrash [9] trivial (mkStorage_spec _ _ trivial) (by decide +kernel)

theorem C82_root_crashes : ¬ CopyNoCrash isRoot (fun _ => True) hRootCopy := not_noCrash [16] trivial (mkRoot_spec _ _ trivial) (by decide +kernel)

theorem C82_dev : CopyNoCrash isDev (fun v => v.systemSalt.isSome) hDevCopy := CopyNoCrash.of (pubs := (fun _ => [])) (devKeep (cr := False))

theorem C82_kdfMeta : CopyNoCrash isKdfMeta (fun _ => True) hKdfMetaCopy := CopyNoCrash.of (pubs := (fun v => v.salt.toList)) (kdfMetaKeep (cr := False))

theorem C82_kdfRes : CopyNoCrash isKdfRes (fun _ => True) hKdfResCopy := CopyNoCrash.of (pubs := (fun v => (v.info.salt.toList ++ v.publics))) (kdfResKeep (cr := False))

theorem C82_sKey_crashes : ¬ CopyNoCrash isSKey (fun _ => True) hSKeyCopy := not_noCrash [10] trivial (mkSKey_spec _ _ trivial) (by decide +kernel)

theorem C82_sIv : CopyNoCrash isSIv (fun _ => True) hSIvCopy := CopyNoCrash.of (pubs := (fun v => [v.seed])) (sIvKeep (cr := False))

theorem C82_sCtx_crashes : ¬ CopyNoCrash isSCtx (fun _ => True) hSCtxCopy := not_noCrash [14] trivial (mkSCtx_spec _ _ trivial) (by decide +kernel)

theorem C82_tRoot : CopyNoCrash isTRoot (fun _ => True) hTRootCopy := CopyNoCrash.of (pubs := (fun _ => [])) (tRootKeep (cr := False))

theorem C82_ecdh_crashes : ¬ CopyNoCrash isEcdh (fun _ => True) hEcdhCopy := not_noCrash [10] trivial (mkEcdh_spec _ _ trivial) (by decide +kernel)

end Wickr
