import Verif.Model.Message
import Verif.Model.Storage
import Verif.Model.KdfCipher
/-
Model of wickr_ctx.c (and encoder_result.c).  Random values are arguments.
-/
namespace Wickr

/-- wickr_ctx.c:26-55 `__wickr_ctx_gen_header_key`. -/
def genHeaderKey (E : Engine) (c : Cipher) (chain : Chain) : Option CipherKey :=
  (E.digest chain.root.identifier (some chain.node.identifier) (digestMatchingCipher c)).bind (cipherKeyCreate c)

/-- wickr_ctx.h:73-80 `wickr_ctx_t` without the engine. -/
structure Ctx where
  dev : DevInfo
  chain : Chain
  storage : StorageKeys
  headerKey : CipherKey
  version : UInt8
deriving Repr, DecidableEq

/-- wickr_ctx.c:385-416 `wickr_ctx_create` (non-NULL arguments). -/
def ctxCreate (E : Engine) (dev : DevInfo) (chain : Chain) (storage : StorageKeys) : Option Ctx :=
  (genHeaderKey E defaultCipher chain).map fun k => ⟨dev, chain, storage, k, 4⟩

/-- wickr_ctx.c:418-456 `wickr_ctx_copy`; line 453 writes through the copy even when it is NULL. -/
def ctxCopy (E : Engine) (c : Ctx) : Res Ctx :=
  match devInfoCopy c.dev with
  | none => .null
  | some d =>
    match chainCopy c.chain with
    | none => .null
    | some ch =>
      match storageCopy c.storage with
      | none => .null
      | some s =>
        match ctxCreate E d ch s with
        | none => .ub
        | some n => .ok { n with version := c.version }

/-- wickr_ctx.h `wickr_ctx_gen_result_t`. -/
structure GenResult where
  ctx : Ctx
  recoveryKey : CipherKey
  rootKeys : RootKeys
deriving Repr, DecidableEq

/-- The random values drawn while a context is generated: key and identifier of the node, signing
nonce, recovery key. -/
structure GenRand where
  nodeKey : EcKey
  nodeId : Bytes
  nonce : Bytes
  recovery : CipherKey

/-- wickr_ctx.c:180-274 `wickr_ctx_gen_with_root_keys` (non-NULL arguments).  Line 259 tests the wrong
pointer, but `__wickr_ctx_gen_result_create` (9) refuses the NULL copy. -/
def ctxGenWithRootKeys (E : Engine) (dev : DevInfo) (keys : RootKeys) (identifier : Bytes) (rnd : GenRand) :
    Option GenResult :=
  (ecKeyCopy keys.sigRoot).bind fun k => (dup identifier).bind fun i =>
    (identityCreate .root i k none).bind fun root =>
      (nodeIdentityGen E root rnd.nodeKey rnd.nodeId rnd.nonce).bind fun node =>
        let v := chainValidate E (chainCreate root node)
        if !v.2 then none
        else (rootKeysLocalize E keys dev).bind fun st => (devInfoCopy dev).bind fun d =>
          (ctxCreate E d v.1 st).bind fun ctx =>
            (rootKeysCopy keys).map fun rk => ⟨ctx, rnd.recovery, rk⟩

/-- wickr_ctx.c:57-73 `wickr_ctx_gen_new`; `keys` are the root keys drawn by `wickr_root_keys_generate`
(root_keys.c:30-66). -/
def ctxGenNew (E : Engine) (dev : DevInfo) (identifier : Bytes) (keys : RootKeys) (rnd : GenRand) :
    Option GenResult := ctxGenWithRootKeys E dev keys identifier rnd

/-- wickr_ctx.c:75-100 `wickr_ctx_gen_new_with_sig_key`. -/
def ctxGenNewWithSigKey (E : Engine) (dev : DevInfo) (sigKey : EcKey) (identifier : Bytes) (keys : RootKeys)
    (rnd : GenRand) : Option GenResult :=
  (ecKeyCopy sigKey).bind fun k => ctxGenWithRootKeys E dev { keys with sigRoot := k } identifier rnd

/-- wickr_ctx.c:127-150 `wickr_ctx_gen_import_recovery`. -/
def importRecovery (E : Engine) (data : Bytes) (key : CipherKey) : Option RootKeys :=
  (cipherResultFromBuffer data).bind fun r => (E.decrypt r none key true).bind (rootKeysFromBuffer E)

/-- wickr_ctx.c:152-177 `wickr_ctx_gen_with_recovery`; line 168 dereferences the generation result
without a NULL test. -/
def ctxGenWithRecovery (E : Engine) (dev : DevInfo) (data : Bytes) (key : CipherKey) (identifier : Bytes)
    (rnd : GenRand) : Res GenResult :=
  match importRecovery E data key with
  | none => .null
  | some keys =>
    match ctxGenWithRootKeys E dev keys identifier rnd with
    | none => .ub
    | some g => Res.ofOption ((cipherKeyCopy key).map fun k => { g with recoveryKey := k })

/-- wickr_ctx.c:295-311 `wickr_ctx_gen_import_recovery_key_passphrase`. -/
def importRecoveryKeyPass (E : Engine) (exported pass : Bytes) : Option CipherKey :=
  (kdfDecipher E exported pass).bind cipherKeyFromBuffer

/-- wickr_ctx.c:102-125 `wickr_ctx_gen_with_passphrase`. -/
def ctxGenWithPassphrase (E : Engine) (dev : DevInfo) (exported pass data identifier : Bytes) (rnd : GenRand) :
    Res GenResult :=
  match (kdfDecipher E exported pass).bind cipherKeyFromBuffer with
  | none => .null
  | some key => ctxGenWithRecovery E dev data key identifier rnd

/-- wickr_ctx.c:277-293 `wickr_ctx_gen_export_recovery_key_passphrase`. -/
def exportRecoveryKeyPass (E : Engine) (g : GenResult) (pass salt iv : Bytes) : Option Bytes :=
  (cipherKeySerialize g.recoveryKey).bind fun b => kdfCipher E scrypt17 defaultCipher b pass salt iv

/-- wickr_ctx.c:314-330 `wickr_ctx_gen_result_make_recovery`. -/
def makeRecovery (E : Engine) (g : GenResult) (iv : Bytes) : Res Bytes :=
  (rootKeysExport E g.rootKeys g.recoveryKey iv).bind fun r => Res.ofOption (cipherResultSerialize r)

/-- wickr_ctx.c:332-367 `wickr_ctx_gen_result_copy`. -/
def genResultCopy (E : Engine) (g : GenResult) : Res GenResult :=
  (ctxCopy E g.ctx).bind fun c => (Res.ofOption (cipherKeyCopy g.recoveryKey)).bind fun k =>
    (Res.ofOption (rootKeysCopy g.rootKeys)).bind fun r => .ok ⟨c, k, r⟩

/-- wickr_ctx.c:484-516 `__wickr_ctx_to_proto`. -/
def ctxToProto (c : Ctx) : Option PCtx :=
  (chainBuildProto c.chain true).bind fun ch => (storageToProto c.storage).map fun s => ⟨some s, some ch⟩

/-- wickr_ctx.c:518-548 `__wickr_ctx_create_from_proto`. -/
def ctxFromProto (E : Engine) (dev : DevInfo) (p : PCtx) : Option Ctx :=
  match p.idChain, p.storage with
  | some ch, some s =>
    (chainFromProto E ch).bind fun ch => (storageFromProto s).bind fun s => ctxCreate E dev ch s
  | _, _ => none

/-- wickr_ctx.c:550-574 `wickr_ctx_serialize`. -/
def ctxSerialize (c : Ctx) : Option Bytes := (ctxToProto c).bind fun p => protoPack p.pack

/-- wickr_ctx.c:576-591 `wickr_ctx_create_from_buffer`. -/
def ctxFromBuffer (E : Engine) (dev : DevInfo) (b : Bytes) : Option Ctx :=
  ((fieldsDec b).bind PCtx.unpack).bind (ctxFromProto E dev)

/-- wickr_ctx.c:593-609 `wickr_ctx_export`. -/
def ctxExport (E : Engine) (c : Ctx) (pass salt iv : Bytes) : Option Bytes :=
  (ctxSerialize c).bind fun b => kdfCipher E scrypt17 defaultCipher b pass salt iv

/-- wickr_ctx.c:611-630 `wickr_ctx_import`. -/
def ctxImport (E : Engine) (dev : DevInfo) (exported pass : Bytes) : Option Ctx :=
  (kdfDecipher E exported pass).bind (ctxFromBuffer E dev)

/-- wickr_ctx.c:633-649 `wickr_ctx_export_storage_keys`. -/
def ctxExportStorage (E : Engine) (c : Ctx) (pass salt iv : Bytes) : Res Bytes :=
  (storageSerialize c.storage).bind fun b => Res.ofOption (kdfCipher E scrypt17 defaultCipher b pass salt iv)

/-- wickr_ctx.c:651-667 `wickr_ctx_import_storage_keys`. -/
def ctxImportStorage (E : Engine) (exported pass : Bytes) : Option StorageKeys :=
  (kdfDecipher E exported pass).bind storageFromBuffer

/-- wickr_ctx.c:670-677 `wickr_ctx_cipher_local`. -/
def cipherLocal (E : Engine) (c : Ctx) (pt iv : Bytes) : Option CipherResult := E.encrypt pt none c.storage.loc iv
/-- wickr_ctx.c:679-686 `wickr_ctx_decipher_local`. -/
def decipherLocal (E : Engine) (c : Ctx) (r : CipherResult) : Option Bytes := E.decrypt r none c.storage.loc true
/-- wickr_ctx.c:689-696 `wickr_ctx_cipher_remote`. -/
def cipherRemote (E : Engine) (c : Ctx) (pt iv : Bytes) : Option CipherResult := E.encrypt pt none c.storage.rem iv
/-- wickr_ctx.c:698-705 `wickr_ctx_decipher_remote`. -/
def decipherRemote (E : Engine) (c : Ctx) (r : CipherResult) : Option Bytes := E.decrypt r none c.storage.rem true

/-- wickr_ctx.c:708-715 `wickr_ctx_ephemeral_keypair_gen`. -/
def ctxEphGen (E : Engine) (c : Ctx) (keyId : UInt64) (newKey : EcKey) (nonce : Bytes) : Option EphKey :=
  ephGenerate E keyId c.chain.node newKey nonce

/-- encoder_result.h `wickr_encoder_result_t`. -/
structure Encoded where
  key : CipherKey
  packet : Msg
deriving Repr, DecidableEq

/-- wickr_ctx.c:751-786 `wickr_ctx_encode_packet`: the nodes after the call and the result.
`payloadKey` and `exKey` are the random keys of lines 758 and 765. -/
def ctxEncode (E : Engine) (c : Ctx) (p : Payload) (nodes : List (Option Node)) (payloadKey : CipherKey)
    (exKey : EcKey) (rnd : MsgRand) : List (Option Node) × Res Encoded :=
  let r := msgCreate E c.headerKey payloadKey exKey p nodes c.chain c.version rnd
  (r.1, r.2.bind fun m => .ok ⟨payloadKey, m⟩)

/-- wickr_ctx.h `wickr_ctx_packet_t`. -/
structure CtxPacket where
  packet : Msg
  sender : Chain
  parse : ParseResult
deriving Repr, DecidableEq

/-- wickr_ctx.c:788-828 `__wickr_ctx_read_packet` (non-NULL engine and buffer).  Also
`wickr_ctx_stateless_parse_packet` (830-833). -/
def readPacket (E : Engine) (b : Bytes) (nodeId : Option Bytes) (sender : Option Chain) : Res CtxPacket :=
  match msgFromBuffer b with
  | none => .null
  | some m =>
    (parseFromPacket E m nodeId (genHeaderKey E) sender).bind fun r =>
      match sender.bind chainCopy with
      | none => .null
      | some s => .ok ⟨m, s, r⟩

/-- wickr_ctx.c:835-838 `wickr_ctx_parse_packet`. -/
def ctxParse (E : Engine) (c : Ctx) (b : Bytes) (sender : Option Chain) : Res CtxPacket :=
  readPacket E b (some c.chain.node.identifier) sender

/-- wickr_ctx.c:840-843 `wickr_ctx_parse_packet_no_decode`. -/
def ctxParseNoDecode (E : Engine) (b : Bytes) (sender : Option Chain) : Res CtxPacket :=
  readPacket E b none sender

/-- wickr_ctx.c:845-852 `wickr_ctx_decode_packet`. -/
def ctxDecode (E : Engine) (c : Ctx) (p : CtxPacket) (key : Option EcKey) : Res DecodeResult :=
  decodeFromParse E p.packet.version p.parse c.dev.msgProtoId key c.chain p.sender

end Wickr
