import Verif.Model.HeapPacket
import Verif.Model.HeapCtx
/-
Model of identity.c, identity_priv.c, ephemeral_keypair.c, ephemeral_keypair_priv.c, node.c, node_priv.c, storage.c, storage_priv.c
and wickr_ctx.c on the heap, as far as they write and read serialized objects, and of the exports and imports of contexts.

Simplifications: a protobuf structure that is made for packing is one block with the pointers it owns; what it points to in the
object (identifiers, keys) is read through the object when it is packed.  Unpacked messages are as in HeapUnpack; a submessage that
is absent has empty fields there.
-/
namespace Wickr

/-! ### Writing identities -/

/-- identity_priv.c:72-88, ephemeral_keypair_priv.c:42-58: a signature is written and its bytes are copied; NULL if either fails. -/
def hSigToProto (s : Ptr) : H Ptr :=
  onNull (hSigSerialize s) (pure none) fun b => do
    let q ← hToProto b
    let _ ← hBufDestroy b
    pure q

/-- identity_priv.c:7-17 `wickr_identity_proto_free`, ephemeral_keypair_priv.c:8-19 `wickr_ephemeral_keypair_proto_free`: the
structure owns the bytes of the signature (field 0). -/
def hSignedProtoFree (x : Ptr) : H Unit :=
  match x with
  | none => pure ()
  | some _ => do
    let q ← field x 0
    free q
    free x

/-- identity_priv.c:29-92 `__wickr_identity_build_proto`. -/
def hIdToProto (p : Ptr) (isPrivate : Bool) : H Ptr :=
  match p with
  | none => pure none
  | some _ =>
    onNull (alloc (.obj .plain [none])) (pure none) fun x => do
      let i ← field p 0
      let _ ← readBuf i
      let k ← field p 1
      let d ← field k (if isPrivate then 1 else 0)
      match d with
      | none => do
        hSignedProtoFree x
        pure none
      | some _ => do
        let .idType t ← scal p | undefined
        match t with
        | .root => pure x
        | .node => do
          let s ← field p 2
          onNull (hSigToProto s) (do hSignedProtoFree x; pure none) fun q => do
            store x (.obj .plain [q])
            pure x

/-- What is packed: the identifier and the key are read through the identity, the signature through the structure. -/
def hIdProtoRead (p x : Ptr) (isPrivate : Bool) : H PIdentity := do
  let i ← field p 0
  let ib ← readBuf i
  let k ← field p 1
  let d ← field k (if isPrivate then 1 else 0)
  let db ← readBuf d
  let .idType t ← scal p | undefined
  let q ← field x 0
  match q with
  | none => pure ⟨some ib, some db, none, some t.protoId, some isPrivate⟩
  | some _ => do
    let s ← loadBytes q
    pure ⟨some ib, some db, some s, some t.protoId, some isPrivate⟩

/-- identity.c:118-143 `wickr_identity_serialize`. -/
def hIdSerialize (p : Ptr) : H Ptr :=
  match p with
  | none => pure none
  | some _ =>
    onNull (hIdToProto p false) (pure none) fun x => do
      let m ← hIdProtoRead p x false
      let o ← hPack m.pack
      hSignedProtoFree x
      pure o

/-- identity_priv.c:19-27 `wickr_identity_chain_proto_free`. -/
def hChainProtoFree (x : Ptr) : H Unit :=
  match x with
  | none => pure ()
  | some _ => do
    let n ← field x 1
    hSignedProtoFree n
    let r ← field x 0
    hSignedProtoFree r
    free x

/-- identity_priv.c:154-202 `__wickr_identity_chain_build_proto` (and 204-212). -/
def hChainToProto (p : Ptr) (isPrivate : Bool) : H Ptr :=
  match p with
  | none => pure none
  | some _ => do
    let root ← field p 0
    onNull (hIdToProto root isPrivate) (pure none) fun r => do
      let node ← field p 1
      onNull (hIdToProto node isPrivate) (do hSignedProtoFree r; pure none) fun n =>
        onNull (alloc (.obj .plain [none, none]))
          (do
            hSignedProtoFree r
            hSignedProtoFree n
            pure none)
          fun x => do
            store x (.obj .plain [r, n])
            pure x

/-- What is packed. -/
def hChainProtoRead (p x : Ptr) (isPrivate : Bool) : H PChain := do
  let root ← field p 0
  let r ← field x 0
  let rm ← hIdProtoRead root r isPrivate
  let node ← field p 1
  let n ← field x 1
  let nm ← hIdProtoRead node n isPrivate
  pure ⟨some rm, some nm⟩

/-- identity.c:292-333 `wickr_identity_chain_serialize`, `wickr_identity_chain_serialize_private`. -/
def hChainSerialize (p : Ptr) (isPrivate : Bool) : H Ptr :=
  match p with
  | none => pure none
  | some _ =>
    onNull (hChainToProto p isPrivate) (pure none) fun x => do
      let m ← hChainProtoRead p x isPrivate
      let o ← hPack m.pack
      hChainProtoFree x
      pure o

/-! ### Writing ephemeral keys and nodes -/

/-- ephemeral_keypair_priv.c:21-64 `wickr_ephemeral_keypair_to_proto`. -/
def hEphToProto (p : Ptr) : H Ptr :=
  match p with
  | none => pure none
  | some _ => do
    let k ← field p 0
    match k with
    | none => pure none
    | some _ =>
      onNull (alloc (.obj .plain [none])) (pure none) fun x => do
        let d ← field k 0
        let _ ← readBuf d
        let s ← field p 1
        match s with
        | none => pure x
        | some _ =>
          onNull (hSigToProto s) (do hSignedProtoFree x; pure none) fun q => do
            store x (.obj .plain [q])
            pure x

/-- What is packed. -/
def hEphProtoRead (p x : Ptr) : H PEphKey := do
  let .num n ← scal p | undefined
  let k ← field p 0
  let d ← field k 0
  let db ← readBuf d
  let q ← field x 0
  match q with
  | none => pure ⟨some n, some db, none⟩
  | some _ => do
    let s ← loadBytes q
    pure ⟨some n, some db, some s⟩

/-- ephemeral_keypair.c:105-130 `wickr_ephemeral_keypair_serialize`. -/
def hEphSerialize (p : Ptr) : H Ptr :=
  match p with
  | none => pure none
  | some _ =>
    onNull (hEphToProto p) (pure none) fun x => do
      let m ← hEphProtoRead p x
      let o ← hPack m.pack
      hSignedProtoFree x
      pure o

/-- node_priv.c:10-19 `wickr_node_proto_free`. -/
def hNodeProtoFree (x : Ptr) : H Unit :=
  match x with
  | none => pure ()
  | some _ => do
    let c ← field x 0
    hChainProtoFree c
    let e ← field x 1
    hSignedProtoFree e
    free x

/-- node_priv.c:33-55: the rest of `wickr_node_to_proto`; without the structure (42-45) the chain is not released. -/
def hNodeToProtoRest (p e : Ptr) : H Ptr := do
  let ch ← field p 1
  onNull (hChainToProto ch false) (do hSignedProtoFree e; pure none) fun c =>
    onNull (alloc (.obj .plain [none, none])) (do hSignedProtoFree e; pure none) fun x => do
      let dev ← field p 0
      let _ ← readBuf dev
      store x (.obj .plain [c, e])
      pure x

/-- node_priv.c:21-56 `wickr_node_to_proto`. -/
def hNodeToProto (p : Ptr) : H Ptr :=
  match p with
  | none => pure none
  | some _ => do
    let dev ← field p 0
    match dev with
    | none => pure none
    | some _ => do
      let k ← field p 2
      match k with
      | none => hNodeToProtoRest p none
      | some _ => onNull (hEphToProto k) (pure none) fun e => hNodeToProtoRest p e

/-- What is packed. -/
def hNodeProtoRead (p x : Ptr) : H PNode := do
  let dev ← field p 0
  let db ← readBuf dev
  let ch ← field p 1
  let c ← field x 0
  let cm ← hChainProtoRead ch c false
  let e ← field x 1
  match e with
  | none => pure ⟨some db, some cm, none⟩
  | some _ => do
    let k ← field p 2
    let em ← hEphProtoRead k e
    pure ⟨some db, some cm, some em⟩

/-- node.c:176-201 `wickr_node_serialize`. -/
def hNodeSerialize (p : Ptr) : H Ptr :=
  match p with
  | none => pure none
  | some _ =>
    onNull (hNodeToProto p) (pure none) fun x => do
      let m ← hNodeProtoRead p x
      let o ← hPack m.pack
      hNodeProtoFree x
      pure o

/-! ### Writing storage keys and contexts -/

/-- cipher_priv.c:15-31 `wickr_cipher_key_to_protobytes`. -/
def hCKeyToProto (k : Ptr) : H Ptr :=
  match k with
  | none => pure none
  | some _ =>
    onNull (hCKeySerialize k) (pure none) fun b => do
      let q ← hToProto b
      let _ ← hBufDestroyZero b
      pure q

/-- storage_priv.c:8-17 `wickr_storage_keys_proto_free`: the bytes of the keys are not wiped. -/
def hStorageProtoFree (x : Ptr) : H Unit :=
  match x with
  | none => pure ()
  | some _ => do
    let l ← field x 0
    free l
    let r ← field x 1
    free r
    free x

/-- storage_priv.c:19-43 `wickr_storage_keys_to_proto`: the new structure is written without being tested (25-27). -/
def hStorageToProto (p : Ptr) : H Ptr :=
  match p with
  | none => pure none
  | some _ => do
    let x ← alloc (.obj .plain [none, none])
    store x (.obj .plain [none, none])
    let l ← field p 0
    onNull (hCKeyToProto l) (do hStorageProtoFree x; pure none) fun lq => do
      setField x 0 lq
      let r ← field p 1
      onNull (hCKeyToProto r) (do hStorageProtoFree x; pure none) fun rq => do
        setField x 1 rq
        pure x

/-- What is packed. -/
def hStorageProtoRead (x : Ptr) : H PStorageKeys := do
  let l ← field x 0
  let lb ← loadBytes l
  let r ← field x 1
  let rb ← loadBytes r
  pure ⟨1, some lb, some rb⟩

/-- storage.c:54-73 `wickr_storage_keys_serialize`: a structure that could not be made is dereferenced (61). -/
def hStorageSerialize (p : Ptr) : H Ptr :=
  match p with
  | none => pure none
  | some _ => do
    let x ← hStorageToProto p
    let m ← hStorageProtoRead x
    let o ← hPack m.pack
    hStorageProtoFree x
    pure o

/-- wickr_ctx.c:473-482 `__wickr_ctx_proto_free`. -/
def hCtxProtoFree (x : Ptr) : H Unit :=
  match x with
  | none => pure ()
  | some _ => do
    let c ← field x 0
    hChainProtoFree c
    let s ← field x 1
    hStorageProtoFree s
    free x

/-- wickr_ctx.c:484-516 `__wickr_ctx_to_proto`. -/
def hCtxToProto (p : Ptr) : H Ptr :=
  match p with
  | none => pure none
  | some _ => do
    let ch ← field p 1
    onNull (hChainToProto ch true) (pure none) fun c => do
      let st ← field p 2
      onNull (hStorageToProto st) (do hChainProtoFree c; pure none) fun s =>
        onNull (alloc (.obj .plain [none, none]))
          (do
            hChainProtoFree c
            hStorageProtoFree s
            pure none)
          fun x => do
            store x (.obj .plain [c, s])
            pure x

/-- What is packed. -/
def hCtxProtoRead (p x : Ptr) : H PCtx := do
  let s ← field x 1
  let sm ← hStorageProtoRead s
  let ch ← field p 1
  let c ← field x 0
  let cm ← hChainProtoRead ch c true
  pure ⟨some sm, some cm⟩

/-- wickr_ctx.c:550-574 `wickr_ctx_serialize`. -/
def hCtxSerialize (p : Ptr) : H Ptr :=
  match p with
  | none => pure none
  | some _ =>
    onNull (hCtxToProto p) (pure none) fun x => do
      let m ← hCtxProtoRead p x
      let o ← hPack m.pack
      hCtxProtoFree x
      pure o

/-- wickr_ctx.c:593-609 `wickr_ctx_export`. -/
def hCtxExport (E : Engine) (p pass : Ptr) (rnd salt iv : Bytes) : H Ptr :=
  match p, pass with
  | some _, some _ =>
    onNull (hCtxSerialize p) (pure none) fun s => do
      let r ← hKdfCipher E scrypt17 defaultCipher s pass rnd salt iv
      let _ ← hBufDestroyZero s
      pure r
  | _, _ => pure none

/-- wickr_ctx.c:633-649 `wickr_ctx_export_storage_keys`. -/
def hCtxExportStorage (E : Engine) (p pass : Ptr) (rnd salt iv : Bytes) : H Ptr :=
  match p, pass with
  | some _, some _ => do
    let st ← field p 2
    onNull (hStorageSerialize st) (pure none) fun s => do
      let r ← hKdfCipher E scrypt17 defaultCipher s pass rnd salt iv
      let _ ← hBufDestroyZero s
      pure r
  | _, _ => pure none

/-! ### Reading -/

/-- identity.proto `Identity`, `IdentityChain`: the fields of bytes. -/
def PIdentity.parts (m : PIdentity) : List Bytes := [optBytes m.identifier, optBytes m.sigKey, optBytes m.signature]

/-- An identity that may be absent. -/
def idParts : Option PIdentity → List Bytes
  | none => [[], [], []]
  | some m => m.parts

/-- identity.proto `IdentityChain`. -/
def PChain.parts (m : PChain) : List Bytes := idParts m.root ++ idParts m.node

/-- A chain that may be absent. -/
def chainParts : Option PChain → List Bytes
  | none => [[], [], [], [], [], []]
  | some m => m.parts

/-- ephemeral_keypair.proto. -/
def PEphKey.parts (m : PEphKey) : List Bytes := [optBytes m.ecKey, optBytes m.keySig]

/-- node.proto. -/
def PNode.parts (m : PNode) : List Bytes :=
  optBytes m.devid :: chainParts m.idChain ++ (match m.ephKey with | none => [[], []] | some e => e.parts)

/-- storage.proto `storage_keys`. -/
def PStorageKeys.parts (m : PStorageKeys) : List Bytes := [optBytes m.localStorage, optBytes m.remoteStorage]

/-- storage.proto `ctx`. -/
def PCtx.parts (m : PCtx) : List Bytes :=
  (match m.storage with | none => [[], []] | some s => s.parts) ++ chainParts m.idChain

/-- What the functions below that read a buffer have in common: the message is unpacked, an object made of it (`go`) and the message
released.  The unpacked message is not wiped. -/
def hRead {M : Type} (unpack : List Field → Option M) (parts : M → List Bytes) (go : Ptr → M → H Ptr) (p : Ptr) : H Ptr :=
  match p with
  | none => pure none
  | some _ => do
    let b ← readBuf p
    match (fieldsDec b).bind unpack with
    | none => pure none
    | some m =>
      onNull (hUnpack (parts m)) (pure none) fun x => do
        let r ← go x m
        let _ ← hFreeUnpacked x
        pure r

/-- identity_priv.c:141-151: an identity is made of its parts, which are released if it cannot be. -/
def hIdMake (t : IdType) (i k s : Ptr) : H Ptr :=
  onNull (hIdCreate t i k s)
    (do
      let _ ← hBufDestroy i
      let _ ← hKeyDestroy k
      let _ ← hSigDestroy s
      pure none)
    fun r => pure r

/-- identity_priv.c:104-152 `wickr_identity_create_from_proto` of the identity whose fields are those from `j` on of the message
`x`. -/
def hIdFromProto (E : Engine) (x : Ptr) (j : Nat) (m : PIdentity) : H Ptr :=
  match m.identifier, m.sigKey, m.type with
  | some _, some _, some ty => do
    let ib ← hPart x j
    onNull (hFromProto ib) (pure none) fun i => do
      let kb ← hPart x (j + 1)
      onNull (hImportBytes E kb (m.isPrivate.getD false)) (do let _ ← hBufDestroy i; pure none) fun k =>
        match m.signature with
        | none => hIdMake (if ty = 1 then .node else .root) i k none
        | some _ => do
          let sb ← hPart x (j + 2)
          onNull (hSigFromBytes sb)
            (do
              let _ ← hBufDestroy i
              let _ ← hKeyDestroy k
              pure none)
            fun s => hIdMake (if ty = 1 then .node else .root) i k s
  | _, _, _ => pure none

/-- identity.c:145-161 `wickr_identity_create_from_buffer`. -/
def hIdFromBuffer (E : Engine) (p : Ptr) : H Ptr :=
  hRead PIdentity.unpack PIdentity.parts (fun x m => hIdFromProto E x 0 m) p

/-- identity_priv.c:234-242: a chain is made of its parts, which are released if it cannot be. -/
def hChainJoin (r n : Ptr) : H Ptr :=
  onNull (hChainCreate r n)
    (do
      let _ ← hIdDestroy r
      let _ ← hIdDestroy n
      pure none)
    fun c => pure c

/-- identity_priv.c:214-243 `wickr_identity_chain_create_from_proto`. -/
def hChainFromProto (E : Engine) (x : Ptr) (j : Nat) (m : PChain) : H Ptr :=
  match m.root with
  | none => pure none
  | some rm =>
    onNull (hIdFromProto E x j rm) (pure none) fun r =>
      match m.node with
      | none => do
        let _ ← hIdDestroy r
        pure none
      | some nm => onNull (hIdFromProto E x (j + 3) nm) (do let _ ← hIdDestroy r; pure none) fun n => hChainJoin r n

/-- identity.c:335-351 `wickr_identity_chain_create_from_buffer`. -/
def hChainFromBuffer (E : Engine) (p : Ptr) : H Ptr :=
  hRead PChain.unpack PChain.parts (fun x m => hChainFromProto E x 0 m) p

/-- ephemeral_keypair_priv.c:94-101: a pair is made of its parts, which are released if it cannot be. -/
def hEphMake (n : UInt64) (k s : Ptr) : H Ptr :=
  onNull (hEphCreate n k s)
    (do
      let _ ← hKeyDestroy k
      let _ ← hSigDestroy s
      pure none)
    fun r => pure r

/-- ephemeral_keypair_priv.c:66-102 `wickr_ephemeral_keypair_create_from_proto`. -/
def hEphFromProto (E : Engine) (x : Ptr) (j : Nat) (m : PEphKey) : H Ptr :=
  match m.ecKey, m.identifier with
  | some _, some n => do
    let kb ← hPart x j
    onNull (hImportBytes E kb false) (pure none) fun k =>
      match m.keySig with
      | none => hEphMake n k none
      | some _ => do
        let sb ← hPart x (j + 1)
        onNull (hSigFromBytes sb) (do let _ ← hKeyDestroy k; pure none) fun s => hEphMake n k s
  | _, _ => pure none

/-- ephemeral_keypair.c:132-148 `wickr_ephemeral_keypair_create_from_buffer`. -/
def hEphFromBuffer (E : Engine) (p : Ptr) : H Ptr :=
  hRead PEphKey.unpack PEphKey.parts (fun x m => hEphFromProto E x 0 m) p

/-- node_priv.c:93-101: a node is made of its parts, which are released if it cannot be. -/
def hNodeMake (d c e : Ptr) : H Ptr :=
  onNull (hNodeCreate d c e)
    (do
      let _ ← hBufDestroy d
      let _ ← hChainDestroy c
      let _ ← hEphDestroy e
      pure none)
    fun r => pure r

/-- node_priv.c:58-102 `wickr_node_create_from_proto`. -/
def hNodeFromProto (E : Engine) (x : Ptr) (m : PNode) : H Ptr :=
  match m.devid with
  | none => pure none
  | some _ => do
    let db ← hPart x 0
    onNull (hFromProto db) (pure none) fun d =>
      match m.idChain with
      | none => do
        let _ ← hBufDestroy d
        pure none
      | some cm =>
        onNull (hChainFromProto E x 1 cm) (do let _ ← hBufDestroy d; pure none) fun c =>
          match m.ephKey with
          | none => hNodeMake d c none
          | some em =>
            onNull (hEphFromProto E x 7 em)
              (do
                let _ ← hBufDestroy d
                let _ ← hChainDestroy c
                pure none)
              fun e => hNodeMake d c e

/-- node.c:203-219 `wickr_node_create_from_buffer`. -/
def hNodeFromBuffer (E : Engine) (p : Ptr) : H Ptr :=
  hRead PNode.unpack PNode.parts (hNodeFromProto E) p

/-- storage_priv.c:45-76 `wickr_storage_keys_create_from_proto` (cipher_priv.c:5-13). -/
def hStorageFromProto (x : Ptr) (j : Nat) (m : PStorageKeys) : H Ptr :=
  match m.localStorage, m.remoteStorage with
  | some _, some _ =>
    if m.version ≠ 1 then pure none
    else do
      let lb ← hPart x j
      onNull (hCKeyFromBytes lb) (pure none) fun l => do
        let rb ← hPart x (j + 1)
        onNull (hCKeyFromBytes rb) (do let _ ← hCKeyDestroy l; pure none) fun r =>
          onNull (hStorageCreate l r)
            (do
              let _ ← hCKeyDestroy l
              let _ ← hCKeyDestroy r
              pure none)
            fun k => pure k
  | _, _ => pure none

/-- storage.c:75-88 `wickr_storage_keys_create_from_buffer`: the unpacked message, which holds the keys, is not wiped. -/
def hStorageFromBuffer (p : Ptr) : H Ptr :=
  hRead PStorageKeys.unpack PStorageKeys.parts (fun x m => hStorageFromProto x 0 m) p

/-- wickr_ctx.c:540-547: a context is made of its parts; the chain and the keys are released if it cannot be, `dev` is not. -/
def hCtxJoin (E : Engine) (dev c s : Ptr) : H Ptr :=
  onNull (hCtxCreate E dev c s)
    (do
      let _ ← hChainDestroy c
      let _ ← hStorageDestroy s
      pure none)
    fun r => pure r

/-- wickr_ctx.c:518-548 `__wickr_ctx_create_from_proto`. -/
def hCtxFromProto (E : Engine) (dev x : Ptr) (m : PCtx) : H Ptr :=
  match m.idChain, m.storage with
  | some cm, some sm =>
    onNull (hChainFromProto E x 2 cm) (pure none) fun c =>
      onNull (hStorageFromProto x 0 sm) (do let _ ← hChainDestroy c; pure none) fun s => hCtxJoin E dev c s
  | _, _ => pure none

/-- wickr_ctx.c:576-591 `wickr_ctx_create_from_buffer`: the unpacked message, which holds the private keys, is not wiped. -/
def hCtxFromBuffer (E : Engine) (dev p : Ptr) : H Ptr :=
  match dev with
  | none => pure none
  | some _ => hRead PCtx.unpack PCtx.parts (hCtxFromProto E dev) p

/-- wickr_ctx.c:611-630 `wickr_ctx_import`. -/
def hCtxImport (E : Engine) (dev exported pass : Ptr) : H Ptr :=
  match dev, exported, pass with
  | some _, some _, some _ =>
    onNull (hKdfDecipher E exported pass) (pure none) fun d => do
      let r ← hCtxFromBuffer E dev d
      let _ ← hBufDestroyZero d
      pure r
  | _, _, _ => pure none

/-- wickr_ctx.c:651-667 `wickr_ctx_import_storage_keys`. -/
def hCtxImportStorage (E : Engine) (exported pass : Ptr) : H Ptr :=
  match exported, pass with
  | some _, some _ =>
    onNull (hKdfDecipher E exported pass) (pure none) fun d => do
      let r ← hStorageFromBuffer d
      let _ ← hBufDestroyZero d
      pure r
  | _, _ => pure none

end Wickr
