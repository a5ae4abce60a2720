import Verif.Lemmas.Memory
import Verif.Lemmas.SepArr
import Verif.Lemmas.SepKeys
/-
The copy and destroy functions, in the form that the statements about runs are derived from.
-/
set_option linter.unusedSimpArgs false
set_option linter.unusedVariables false
namespace Wickr
open Asrt

theorem bufKeep {cr : Prop} : KeepSpec (V := Bytes) (fun v => ⟨(· ∈ ([] : List Bytes)), cr, False⟩) isBuf (fun _ => True) (fun v => fresh isBuf v) hBufCopy := fun a v ho f h hx =>
  hBufCopy_keep _ f a v h hx

theorem keyKeep : KeepSpec (V := EcKey) (fun v => ⟨(· ∈ [v.pub]), True, False⟩) isKey (fun _ => True) (fun v => fresh isKey v) hKeyCopy := fun a v ho f h hx => have hc : True := trivial;
  hKeyCopy_keep _ f hc a v (by simp) h hx

theorem sigKeep : KeepSpec (V := EcdsaResult) (fun v => ⟨(· ∈ [v.sig]), True, False⟩) isSig (fun _ => True) (fun v => fresh isSig v) hSigCopy := fun a v ho f h hx => have hc : True := trivial;
  hSigCopy_keep _ f hc a v h hx

theorem idKeep : KeepSpec (V := Identity) (fun v => ⟨(· ∈ v.publics), True, False⟩) isId (fun _ => True) (fun v => freshL isId idLoss v) hIdCopy := fun a v ho f h hx => have hc : True := trivial;
  hIdCopy_keep _ f hc a v (fun _ h => h) h hx

theorem chainKeep : KeepSpec (V := Chain) (fun v => ⟨(· ∈ v.publics), True, False⟩) isChain (fun _ => True) (fun v => freshL isChain chainLoss v) hChainCopy := fun a v ho f h hx => have hc : True := trivial;
  hChainCopy_keep _ f hc a v (fun _ h => h) h hx

theorem cKeyKeep : KeepSpec (V := CipherKey) (fun v => ⟨(· ∈ ([] : List Bytes)), True, False⟩) isCKey (fun _ => True) (fun v => fresh isCKey v) hCKeyCopy := fun a v ho f h hx => have hc : True := trivial;
  hCKeyCopy_keep _ f hc a v h hx

theorem cResKeep : KeepSpec (V := CipherResult) (fun v => ⟨(· ∈ v.publics), True, False⟩) isCRes (fun _ => True) (fun v => leaky isCRes cresLoss v) hCResCopy := fun a v ho f h hx => have hc : True := trivial;
  hCResCopy_keep _ f hc a v h hx

theorem ephKeep : KeepSpec (V := EphKey) (fun v => ⟨(· ∈ v.publics), True, False⟩) isEph (fun _ => True) (fun v => fresh isEph v) hEphCopy := fun a v ho f h hx => have hc : True := trivial;
  hEphCopy_keep _ f hc a v (fun _ h => h) h hx

theorem nodeKeep : KeepSpec (V := Node) (fun v => ⟨(· ∈ v.publics), True, False⟩) isNode (fun _ => True) (fun v => freshL isNode nodeLoss v) hNodeCopy := fun a v ho f h hx => have hc : True := trivial;
  hNodeCopy_keep _ f hc a v (fun _ h => h) h hx

theorem nodesKeep : KeepSpec (V := List (Option Node)) (fun v => ⟨(· ∈ (nodesPublics v)), True, False⟩) (isArr isNode) (fun _ => True) (fun v => freshL (isArr isNode) (arrLoss nodeLoss) v) hNodesCopy := fun a v ho f h hx => have hc : True := trivial;
  hNodesCopy_keep _ f hc a v (fun _ h => h) h hx

theorem infoKeep : KeepSpec (V := PktInfo) (fun v => ⟨(· ∈ [v.channelTag]), True, False⟩) isInfo (fun _ => True) (fun v => fresh isInfo v) hInfoCopy := fun a v ho f h hx => have hc : True := trivial;
  hInfoCopy_keep _ f hc a v h hx

theorem payloadKeep : KeepSpec (V := Payload) (fun v => ⟨(· ∈ v.publics), True, False⟩) isPayload (fun _ => True) (fun v => fresh isPayload v) hPayloadCopy := fun a v ho f h hx => have hc : True := trivial;
  hPayloadCopy_keep _ f hc a v (fun _ h => h) h hx

theorem exKeep : KeepSpec (V := KeyExchange) (fun v => ⟨(· ∈ v.publics), True, False⟩) isEx (fun _ => True) (fun v => leaky isEx exLoss v) hExCopy := fun a v ho f h hx => have hc : True := trivial;
  hExCopy_keep _ f hc a v (fun _ h => h) h hx

theorem exsKeep : KeepSpec (V := List (Option KeyExchange)) (fun v => ⟨(· ∈ (exsPublics v)), True, False⟩) (isArr isEx) (fun _ => True) (fun v => leaky (isArr isEx) (arrLoss exLoss) v) hExsCopy := fun a v ho f h hx => have hc : True := trivial;
  hExsCopy_keep _ f hc a v (fun _ h => h) h hx

theorem setKeep : KeepSpec (V := KeyExchangeSet) (fun v => ⟨(· ∈ v.publics), True, False⟩) isSet (fun _ => True) (fun v => leaky isSet setLoss v) hSetCopy := fun a v ho f h hx => have hc : True := trivial;
  hSetCopy_keep _ f hc a v (fun _ h => h) h hx

theorem packetKeep : KeepSpec (V := Msg) (fun v => ⟨(· ∈ v.publics), True, False⟩) isPacket (fun _ => True) (fun v => fresh isPacket v) hPacketCopy := fun a v ho f h hx => have hc : True := trivial;
  hPacketCopy_keep _ f hc a v (fun _ h => h) h hx

theorem encKeep : KeepSpec (V := Encoded) (fun v => ⟨(· ∈ v.publics), True, False⟩) isEnc (fun _ => True) (fun v => fresh isEnc v) hEncCopy := fun a v ho f h hx => have hc : True := trivial;
  hEncCopy_keep _ f hc a v (fun _ h => h) h hx

theorem decKeep : KeepSpec (V := DecodeResult) (fun v => ⟨(· ∈ v.publics), True, False⟩) isDec (fun _ => True) (fun v => leaky isDec decLoss v) hDecCopy := fun a v ho f h hx => have hc : True := trivial;
  hDecCopy_keep _ f hc a v (fun _ h => h) h hx

theorem parseKeep : KeepSpec (V := ParseResult) (fun v => ⟨(· ∈ v.publics), True, False⟩) isParse (fun _ => True) (fun v => wasteful isParse parseLoss v) hParseCopy := fun a v ho f h hx => have hc : True := trivial;
  hParseCopy_keep _ f hc a v (fun _ h => h) h hx

theorem storageKeep : KeepSpec (V := StorageKeys) (fun v => ⟨(· ∈ ([] : List Bytes)), True, False⟩) isStorage (fun _ => True) (fun v => fresh isStorage v) hStorageCopy := fun a v ho f h hx => have hc : True := trivial;
  hStorageCopy_keep _ f hc a v h hx

theorem rootKeep : KeepSpec (V := RootKeys) (fun v => ⟨(· ∈ [v.sigRoot.pub]), True, False⟩) isRoot (fun _ => True) (fun v => fresh isRoot v) hRootCopy := fun a v ho f h hx => have hc : True := trivial;
  hRootCopy_keep _ f hc a v (by simp) h hx

theorem devKeep {cr : Prop} : KeepSpec (V := DevInfo) (fun v => ⟨(· ∈ ([] : List Bytes)), cr, False⟩) isDev (fun v => v.systemSalt.isSome) (fun v => fresh isDev v) hDevCopy := fun a v ho f h hx =>
  hDevCopy_keep _ f a v ho h hx

theorem kdfMetaKeep {cr : Prop} : KeepSpec (V := KdfMeta) (fun v => ⟨(· ∈ v.salt.toList), cr, False⟩) isKdfMeta (fun _ => True) (fun v => leaky isKdfMeta Eq v) hKdfMetaCopy := fun a v ho f h hx =>
  hKdfMetaCopy_keep _ f a v (by simp) h hx

theorem kdfResKeep {cr : Prop} : KeepSpec (V := KdfResult) (fun v => ⟨(· ∈ (v.info.salt.toList ++ v.publics)), cr, False⟩) isKdfRes (fun _ => True) (fun v => leaky isKdfRes Eq v) hKdfResCopy := fun a v ho f h hx =>
  hKdfResCopy_keep _ f a v (by simp +contextual) (by simp +contextual) h hx

theorem sKeyKeep : KeepSpec (V := StreamKey) (fun v => ⟨(· ∈ v.publics), True, False⟩) isSKey (fun _ => True) (fun v => fresh isSKey v) hSKeyCopy := fun a v ho f h hx => have hc : True := trivial;
  hSKeyCopy_keep _ f hc a v (fun _ h => h) h hx

theorem sIvKeep {cr : Prop} : KeepSpec (V := StreamIv) (fun v => ⟨(· ∈ [v.seed]), cr, False⟩) isSIv (fun _ => True) (fun v => fresh isSIv v) hSIvCopy := fun a v ho f h hx =>
  hSIvCopy_keep _ f a v (by simp) h hx

theorem sCtxKeep : KeepSpec (V := StreamCtx) (fun v => ⟨(· ∈ v.publics), True, False⟩) isSCtx (fun _ => True) (fun v => fresh isSCtx ({ v with ref := 1 })) hSCtxCopy := fun a v ho f h hx => have hc : True := trivial;
  hSCtxCopy_keep _ f hc a v (fun _ h => h) h hx

theorem tRootKeep {cr : Prop} : KeepSpec (V := RootKey) (fun v => ⟨(· ∈ ([] : List Bytes)), cr, False⟩) isTRoot (fun _ => True) (fun v => fresh isTRoot v) hTRootCopy := fun a v ho f h hx =>
  hTRootCopy_keep _ f a v h hx

theorem ecdhKeep : KeepSpec (V := EcdhCtx) (fun v => ⟨(· ∈ [v.key.pub]), True, False⟩) isEcdh (fun _ => True) (fun v => fresh isEcdh v) hEcdhCopy := fun a v ho f h hx => have hc : True := trivial;
  hEcdhCopy_keep _ f hc a v (by simp) h hx

theorem bufFree (a : Addr) (v : Bytes) (ho : True) : Destroys (tight [v]) (isBuf a v) (hBufDestroy (some a)) :=
  hBufDestroy_spec (Or.inr (by simp [tight]))

theorem bufZeroFree (a : Addr) (v : Bytes) (ho : True) : Destroys (tight []) (isBuf a v) (hBufDestroyZero (some a)) :=
  hBufDestroyZero_spec

theorem keyFree (a : Addr) (v : EcKey) (ho : True) : Destroys (tight []) (isKey a v) (hKeyDestroy (some a)) :=
  hKeyDestroy_spec _ a v

theorem sigFree (a : Addr) (v : EcdsaResult) (ho : True) : Destroys (tight [v.sig]) (isSig a v) (hSigDestroy (some a)) :=
  hSigDestroy_spec (by simp [tight])

theorem idFree (a : Addr) (v : Identity) (ho : True) : Destroys (tight v.publics) (isId a v) (hIdDestroy (some a)) :=
  hIdDestroy_spec (fun _ h => h)

theorem chainFree (a : Addr) (v : Chain) (ho : True) : Destroys (tight v.publics) (isChain a v) (hChainDestroy (some a)) :=
  hChainDestroy_spec (fun _ h => h)

theorem cKeyFree (a : Addr) (v : CipherKey) (ho : True) : Destroys (tight []) (isCKey a v) (hCKeyDestroy (some a)) :=
  hCKeyDestroy_spec _ a v

theorem cResFree (a : Addr) (v : CipherResult) (ho : True) : Destroys (tight v.publics) (isCRes a v) (hCResDestroy (some a)) :=
  hCResDestroy_spec (fun _ h => h)

theorem ephFree (a : Addr) (v : EphKey) (ho : True) : Destroys (tight v.publics) (isEph a v) (hEphDestroy (some a)) :=
  hEphDestroy_spec (fun _ h => h)

theorem nodeFree (a : Addr) (v : Node) (ho : True) : Destroys (tight v.publics) (isNode a v) (hNodeDestroy (some a)) :=
  hNodeDestroy_spec (fun _ h => h)

theorem infoFree (a : Addr) (v : PktInfo) (ho : True) : Destroys (tight [v.channelTag]) (isInfo a v) (hInfoDestroy (some a)) :=
  hInfoDestroy_spec (by simp [tight])

theorem payloadFree (a : Addr) (v : Payload) (ho : True) : Destroys (tight v.publics) (isPayload a v) (hPayloadDestroy (some a)) :=
  hPayloadDestroy_spec (fun _ h => h)

theorem exFree (a : Addr) (v : KeyExchange) (ho : True) : Destroys (tight v.publics) (isEx a v) (hExDestroy (some a)) :=
  hExDestroy_spec (fun _ h => h)

theorem exsFree (a : Addr) (v : List (Option KeyExchange)) (ho : True) : Destroys (tight (exsPublics v)) ((isArr isEx) a v) (hExsDestroy (some a)) :=
  hExsDestroy_spec (fun _ h => h)

theorem setFree (a : Addr) (v : KeyExchangeSet) (ho : True) : Destroys (tight v.publics) (isSet a v) (hSetDestroy (some a)) :=
  hSetDestroy_spec (fun _ h => h)

theorem packetFree (a : Addr) (v : Msg) (ho : True) : Destroys (tight v.publics) (isPacket a v) (hPacketDestroy (some a)) :=
  hPacketDestroy_spec (fun _ h => h)

theorem encFree (a : Addr) (v : Encoded) (ho : True) : Destroys (tight v.publics) (isEnc a v) (hEncDestroy (some a)) :=
  hEncDestroy_spec (fun _ h => h)

theorem decFree (a : Addr) (v : DecodeResult) (ho : True) : Destroys (tight v.publics) (isDec a v) (hDecDestroy (some a)) :=
  hDecDestroy_spec (fun _ h => h)

theorem parseFree (a : Addr) (v : ParseResult) (ho : True) : Destroys (tight v.publics) (isParse a v) (hParseDestroy (some a)) :=
  hParseDestroy_spec (fun _ h => h)

theorem storageFree (a : Addr) (v : StorageKeys) (ho : True) : Destroys (tight []) (isStorage a v) (hStorageDestroy (some a)) :=
  hStorageDestroy_spec _ a v

theorem rootFree (a : Addr) (v : RootKeys) (ho : True) : Destroys (tight []) (isRoot a v) (hRootDestroy (some a)) :=
  hRootDestroy_spec _ a v

theorem devFree (a : Addr) (v : DevInfo) (ho : True) : Destroys (tight []) (isDev a v) (hDevDestroy (some a)) :=
  hDevDestroy_spec _ a v

theorem kdfMetaFree (a : Addr) (v : KdfMeta) (ho : True) : Destroys (tight v.publics) (isKdfMeta a v) (hKdfMetaDestroy (some a)) :=
  hKdfMetaDestroy_spec (fun _ h => h)

theorem kdfResFree (a : Addr) (v : KdfResult) (ho : True) : Destroys (tight v.publics) (isKdfRes a v) (hKdfResDestroy (some a)) :=
  hKdfResDestroy_spec (fun _ h => h)

theorem sKeyFree (a : Addr) (v : StreamKey) (ho : True) : Destroys (tight v.publics) (isSKey a v) (hSKeyDestroy (some a)) :=
  hSKeyDestroy_spec (fun _ h => h)

theorem sIvFree (a : Addr) (v : StreamIv) (ho : True) : Destroys (tight [v.seed]) (isSIv a v) (hSIvDestroy (some a)) :=
  hSIvDestroy_spec (by simp [tight])

theorem sCtxFree (a : Addr) (v : StreamCtx) (ho : v.ref = 0 ∨ v.ref = 1) : Destroys (tight v.publics) (isSCtx a v) (hSCtxDestroy (some a)) :=
  hSCtxDestroy_spec ho (fun _ h => h)

theorem tRootFree (a : Addr) (v : RootKey) (ho : True) : Destroys (tight []) (isTRoot a v) (hTRootDestroy (some a)) :=
  hTRootDestroy_spec _ a v

theorem ecdhFree (a : Addr) (v : EcdhCtx) (ho : True) : Destroys (tight []) (isEcdh a v) (hEcdhDestroy (some a)) :=
  hEcdhDestroy_spec _ a v

end Wickr
