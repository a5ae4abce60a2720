import Verif.Model.HeapKeyFun
import Verif.Model.Ctx
/-
Contexts on the heap: wickr_ctx.c.  The engine stored in a context is the engine `E` of the program.  As elsewhere the engine is
never NULL and random values are arguments; the default cipher is that of the OpenSSL suite.
-/
namespace Wickr

/-! ### Contexts -/

/-- wickr_ctx.c:26-55 `__wickr_ctx_gen_header_key`: a digest that is no key is released without being wiped. -/
def hHeaderKey (E : Engine) (c : Cipher) (chain : Ptr) : H Ptr :=
  match chain with
  | none => pure none
  | some _ => do
    let root ← field chain 0
    let rid ← field root 0
    let node ← field chain 1
    let nid ← field node 0
    onNull (hDigest E rid nid (digestMatchingCipher c)) (pure none) fun h =>
      onNull (hCKeyCreate c h) (do let _ ← hBufDestroy h; pure none) fun k => pure k

/-- wickr_ctx.c:385-416 `wickr_ctx_create`.  Fields: `dev_info`, `id_chain`, `storage_keys`, `packet_header_key`; the header key is
not released when the structure cannot be made (399). -/
def hCtxCreate (E : Engine) (dev chain st : Ptr) : H Ptr :=
  match dev, chain, st with
  | some _, some _, some _ =>
    onNull (hHeaderKey E defaultCipher chain) (pure none) fun k =>
      onNull (alloc (.obj (.ver 0) [none, none, none, none])) (pure none) fun p => do
        store p (.obj (.ver 4) [dev, chain, st, k])
        pure p
  | _, _, _ => pure none

/-- wickr_ctx.c:458-471 `wickr_ctx_destroy`. -/
def hCtxDestroy (p : Ptr) : H Ptr :=
  match p with
  | none => pure none
  | some _ => do
    destroyField hDevDestroy p 0
    destroyField hChainDestroy p 1
    destroyField hStorageDestroy p 2
    destroyField hCKeyDestroy p 3
    free p
    pure none

/-- wickr_ctx.c:418-456 `wickr_ctx_copy`: the version is written into the copy whether there is one or not (453). -/
def hCtxCopy (E : Engine) (p : Ptr) : H Ptr :=
  match p with
  | none => pure none
  | some _ => do
    let s ← field p 0
    onNull (hDevCopy s) (pure none) fun dev => do
      let s ← field p 1
      onNull (hChainCopy s) (do let _ ← hDevDestroy dev; pure none) fun chain => do
        let s ← field p 2
        onNull (hStorageCopy s)
          (do
            let _ ← hDevDestroy dev
            let _ ← hChainDestroy chain
            pure none)
          fun st => do
            let .ver v ← scal p | undefined
            onNull (hCtxCreate E dev chain st)
              (do
                let _ ← hDevDestroy dev
                let _ ← hChainDestroy chain
                let _ ← hStorageDestroy st
                setScal none (.ver v)
                pure none)
              fun copy => do
                setScal copy (.ver v)
                pure copy

/-! ### Making contexts -/

/-- wickr_ctx.c:6-24 `__wickr_ctx_gen_result_create`.  Fields: `ctx`, `recovery_key`, `root_keys`. -/
def hGenCreate (ctx key root : Ptr) : H Ptr :=
  match ctx, key, root with
  | some _, some _, some _ =>
    onNull (alloc (.obj .plain [none, none, none])) (pure none) fun p => do
      store p (.obj .plain [ctx, key, root])
      pure p
  | _, _, _ => pure none

/-- wickr_ctx.c:369-381 `wickr_ctx_gen_result_destroy`. -/
def hGenDestroy (p : Ptr) : H Ptr :=
  match p with
  | none => pure none
  | some _ => do
    destroyField hCtxDestroy p 0
    destroyField hCKeyDestroy p 1
    destroyField hRootDestroy p 2
    free p
    pure none

/-- wickr_ctx.c:332-367 `wickr_ctx_gen_result_copy`. -/
def hGenCopy (E : Engine) (p : Ptr) : H Ptr :=
  match p with
  | none => pure none
  | some _ => do
    let s ← field p 0
    onNull (hCtxCopy E s) (pure none) fun ctx => do
      let s ← field p 1
      onNull (hCKeyCopy s) (do let _ ← hCtxDestroy ctx; pure none) fun key => do
        let s ← field p 2
        onNull (hRootCopy s)
          (do
            let _ ← hCtxDestroy ctx
            let _ ← hCKeyDestroy key
            pure none)
          fun root =>
            onNull (hGenCreate ctx key root)
              (do
                let _ ← hCtxDestroy ctx
                let _ ← hCKeyDestroy key
                let _ ← hRootDestroy root
                pure none)
              fun copy => pure copy

/-- wickr_ctx.c:190-210: the root identity is made of copies. -/
def hRootIdentity (roots identifier : Ptr) : H Ptr := do
  let s ← field roots 0
  onNull (hKeyCopy s) (pure none) fun k =>
    onNull (hBufCopy identifier) (do let _ ← hKeyDestroy k; pure none) fun i =>
      onNull (hIdCreate .root i k none)
        (do
          let _ ← hBufDestroy i
          let _ ← hKeyDestroy k
          pure none)
        fun r => pure r

/-- wickr_ctx.c:219-225: a chain is made and validated.  A chain that is not valid is not released, only its identities are. -/
def hChainMake (E : Engine) (root node : Ptr) : H Ptr :=
  onNull (hChainCreate root node)
    (do
      let _ ← hIdDestroy node
      let _ ← hIdDestroy root
      pure none)
    fun ch => do
      let ok ← hChainValidate E ch
      if ok then pure ch
      else do
        let _ ← hIdDestroy node
        let _ ← hIdDestroy root
        pure none

/-- wickr_ctx.c:190-225: the identity chain of a new context; `pub`, `pri`, `rid` and `nonce` are drawn by
`wickr_node_identity_gen`. -/
def hChainGen (E : Engine) (roots identifier : Ptr) (cv : Curve) (pub pri rid nonce : Bytes) : H Ptr :=
  onNull (hRootIdentity roots identifier) (pure none) fun root =>
    onNull (hNodeIdentityGen E root none cv pub pri rid nonce) (do let _ ← hIdDestroy root; pure none) fun node =>
      hChainMake E root node

/-- wickr_ctx.c:227-250: the context of a chain. -/
def hCtxOf (E : Engine) (dev roots ch : Ptr) : H Ptr :=
  onNull (hRootLocalize E roots dev) (do let _ ← hChainDestroy ch; pure none) fun st =>
    onNull (hDevCopy dev)
      (do
        let _ ← hChainDestroy ch
        let _ ← hStorageDestroy st
        pure none)
      fun d =>
        onNull (hCtxCreate E d ch st)
          (do
            let _ ← hChainDestroy ch
            let _ ← hStorageDestroy st
            let _ ← hDevDestroy d
            pure none)
          fun ctx => pure ctx

/-- wickr_ctx.c:180-274 `wickr_ctx_gen_with_root_keys`.  Line 259 tests the wrong pointer, but `__wickr_ctx_gen_result_create`
refuses a missing copy. -/
def hCtxGen (E : Engine) (dev roots identifier : Ptr) (cv : Curve) (pub pri rid nonce : Bytes) (recovery : CipherKey) : H Ptr :=
  match dev, roots, identifier with
  | some _, some _, some _ =>
    onNull (hChainGen E roots identifier cv pub pri rid nonce) (pure none) fun ch =>
      onNull (hCtxOf E dev roots ch) (pure none) fun ctx =>
        onNull (hRandCKey recovery) (do let _ ← hCtxDestroy ctx; pure none) fun k => do
          let r ← hRootCopy roots
          onNull (hGenCreate ctx k r)
            (do
              let _ ← hCtxDestroy ctx
              let _ ← hCKeyDestroy k
              let _ ← hRootDestroy r
              pure none)
            fun g => pure g
  | _, _, _ => pure none

/-- wickr_ctx.c:68-70, 95-97, 164-165: a context is made and the root keys are released. -/
def hCtxGenOnce (E : Engine) (dev roots identifier : Ptr) (cv : Curve) (pub pri rid nonce : Bytes) (recovery : CipherKey) :
    H Ptr := do
  let g ← hCtxGen E dev roots identifier cv pub pri rid nonce recovery
  let _ ← hRootDestroy roots
  pure g

/-- wickr_ctx.c:57-73 `wickr_ctx_gen_new`; `node`, `rem`, `rpub` and `rpri` are drawn by `wickr_root_keys_generate`. -/
def hCtxGenNew (E : Engine) (dev identifier : Ptr) (node rem : CipherKey) (rcv : Curve) (rpub rpri : Bytes) (cv : Curve)
    (pub pri rid nonce : Bytes) (recovery : CipherKey) : H Ptr :=
  match dev, identifier with
  | some _, some _ =>
    onNull (hRootGenerate node rem rcv rpub rpri) (pure none) fun roots =>
      hCtxGenOnce E dev roots identifier cv pub pri rid nonce recovery
  | _, _ => pure none

/-- wickr_ctx.c:87-93: the signing key of root keys is replaced. -/
def hSwapSig (roots sigKey : Ptr) : H Ptr := do
  destroyField hKeyDestroy roots 0
  let k ← hKeyCopy sigKey
  setField roots 0 k
  match k with
  | none => do
    let _ ← hRootDestroy roots
    pure none
  | some _ => pure roots

/-- wickr_ctx.c:75-100 `wickr_ctx_gen_new_with_sig_key`. -/
def hCtxGenSig (E : Engine) (dev sigKey identifier : Ptr) (node rem : CipherKey) (rcv : Curve) (rpub rpri : Bytes) (cv : Curve)
    (pub pri rid nonce : Bytes) (recovery : CipherKey) : H Ptr :=
  match dev, identifier with
  | some _, some _ =>
    onNull (hRootGenerate node rem rcv rpub rpri) (pure none) fun roots =>
      onNull (hSwapSig roots sigKey) (pure none) fun roots =>
        hCtxGenOnce E dev roots identifier cv pub pri rid nonce recovery
  | _, _ => pure none

/-! ### Recovery -/

/-- wickr_ctx.c:139-140: a cipher result is decrypted and released. -/
def hUnseal (E : Engine) (cr key : Ptr) : H Ptr := do
  let d ← hDecrypt E cr none key true
  let _ ← hCResDestroy cr
  pure d

/-- wickr_ctx.c:127-150 `wickr_ctx_gen_import_recovery`. -/
def hImportRecovery (E : Engine) (data key : Ptr) : H Ptr :=
  match key, data with
  | some _, some _ =>
    onNull (hCResFromBuffer data) (pure none) fun cr =>
      onNull (hUnseal E cr key) (pure none) fun d => do
        let r ← hRootFromBuffer E d
        let _ ← hBufDestroyZero d
        pure r
  | _, _ => pure none

/-- wickr_ctx.c:167-176: the recovery key is replaced; a missing result is dereferenced. -/
def hSwapRecovery (g key : Ptr) : H Ptr := do
  destroyField hCKeyDestroy g 1
  let k ← hCKeyCopy key
  setField g 1 k
  match k with
  | none => do
    let _ ← hGenDestroy g
    pure none
  | some _ => pure g

/-- wickr_ctx.c:152-177 `wickr_ctx_gen_with_recovery`. -/
def hCtxGenRecovery (E : Engine) (dev data key identifier : Ptr) (cv : Curve) (pub pri rid nonce : Bytes) (recovery : CipherKey) :
    H Ptr :=
  match dev, data, key, identifier with
  | some _, some _, some _, some _ =>
    onNull (hImportRecovery E data key) (pure none) fun roots => do
      let g ← hCtxGenOnce E dev roots identifier cv pub pri rid nonce recovery
      hSwapRecovery g key
  | _, _, _, _ => pure none

/-- wickr_ctx.c:114-115, 307-308: a cipher key is read and the buffer is wiped. -/
def hCKeyOpen (b : Ptr) : H Ptr := do
  let k ← hCKeyFromBuffer b
  let _ ← hBufDestroyZero b
  pure k

/-- wickr_ctx.c:295-311 `wickr_ctx_gen_import_recovery_key_passphrase`. -/
def hImportRecoveryKey (E : Engine) (exported pass : Ptr) : H Ptr :=
  match exported, pass with
  | some _, some _ => onNull (hKdfDecipher E exported pass) (pure none) fun b => hCKeyOpen b
  | _, _ => pure none

/-- wickr_ctx.c:102-125 `wickr_ctx_gen_with_passphrase`. -/
def hCtxGenPass (E : Engine) (dev exported pass data identifier : Ptr) (cv : Curve) (pub pri rid nonce : Bytes)
    (recovery : CipherKey) : H Ptr :=
  match dev, exported, pass, data, identifier with
  | some _, some _, some _, some _, some _ =>
    onNull (hImportRecoveryKey E exported pass) (pure none) fun k => do
      let g ← hCtxGenRecovery E dev data k identifier cv pub pri rid nonce recovery
      let _ ← hCKeyDestroy k
      pure g
  | _, _, _, _, _ => pure none

/-- wickr_ctx.c:277-293 `wickr_ctx_gen_export_recovery_key_passphrase`. -/
def hExportRecoveryKey (E : Engine) (p pass : Ptr) (rnd salt iv : Bytes) : H Ptr :=
  match p, pass with
  | some _, some _ => do
    let k ← field p 1
    onNull (hCKeySerialize k) (pure none) fun b => do
      let r ← hKdfCipher E scrypt17 defaultCipher b pass rnd salt iv
      let _ ← hBufDestroyZero b
      pure r
  | _, _ => pure none

/-- wickr_ctx.c:314-330 `wickr_ctx_gen_result_make_recovery`. -/
def hMakeRecovery (E : Engine) (p : Ptr) (iv : Bytes) : H Ptr :=
  match p with
  | none => pure none
  | some _ => do
    let ctx ← field p 0
    let key ← field p 1
    let root ← field p 2
    match ctx, root, key with
    | some _, some _, some _ => onNull (hRootExport E root key iv) (pure none) fun r => hCResSeal r
    | _, _, _ => pure none

/-! ### Storage data and key pairs -/

/-- wickr_ctx.c:670-677 `wickr_ctx_cipher_local` (`i = 0`), 689-696 `wickr_ctx_cipher_remote` (`i = 1`). -/
def hCipherStored (E : Engine) (i : Nat) (p pt : Ptr) (iv : Bytes) : H Ptr :=
  match p, pt with
  | some _, some _ => do
    let st ← field p 2
    let k ← field st i
    hEncrypt E pt none k iv
  | _, _ => pure none

/-- wickr_ctx.c:679-686 `wickr_ctx_decipher_local` (`i = 0`), 698-705 `wickr_ctx_decipher_remote` (`i = 1`). -/
def hDecipherStored (E : Engine) (i : Nat) (p ct : Ptr) : H Ptr :=
  match p, ct with
  | some _, some _ => do
    let st ← field p 2
    let k ← field st i
    hDecrypt E ct none k true
  | _, _ => pure none

/-- wickr_ctx.c:708-715 `wickr_ctx_ephemeral_keypair_gen`. -/
def hCtxEphGen (E : Engine) (p : Ptr) (n : UInt64) (cv : Curve) (pub pri nonce : Bytes) : H Ptr :=
  match p with
  | none => pure none
  | some _ => do
    let ch ← field p 1
    let node ← field ch 1
    hEphGenerate E n node cv pub pri nonce

end Wickr
