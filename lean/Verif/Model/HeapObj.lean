import Verif.Model.HeapBuffer
/-
The constructors, copies and destructors of keys, signatures, ciphertexts, identities and nodes on the heap.
Each program follows its C function allocation by allocation and release by release.  A structure is one block:
`alloc_zero` makes it and one `store` stands for the assignments to its fields.
-/
namespace Wickr

/-! ### eckey.c -/

/-- eckey.c:6-18 `wickr_ec_key_create`; the new block is not tested for NULL.  Fields: `pub_data`, `pri_data`. -/
def hKeyCreate (cv : Curve) (pub pri : Ptr) : H Ptr :=
  match pub with
  | none => pure none
  | some _ => do
    let p ← alloc (.obj .plain [none, none])
    store p (.obj (.curve cv) [pub, pri])
    pure p

/-- eckey.c:20-44 `wickr_ec_key_copy`. -/
def hKeyCopy (p : Ptr) : H Ptr :=
  match p with
  | none => pure none
  | some _ => do
    let s ← field p 0
    onNull (hBufCopy s) (pure none) fun pub => do
      let s ← field p 1
      match s with
      | none => do
        let .curve cv ← scal p | undefined
        hKeyCreate cv pub none
      | some _ =>
        onNull (hBufCopy s) (do let _ ← hBufDestroy pub; pure none) fun pri => do
          let .curve cv ← scal p | undefined
          hKeyCreate cv pub pri

/-- eckey.c:80-90 `wickr_ec_key_destroy`. -/
def hKeyDestroy (p : Ptr) : H Ptr :=
  match p with
  | none => pure none
  | some _ => do
    destroyField hBufDestroyZero p 0
    destroyField hBufDestroyZero p 1
    free p
    pure none

/-! ### ecdsa.c -/

/-- ecdsa.c:8-20 `wickr_ecdsa_result_create`; the new block is not tested for NULL.  Field: `sig_data`. -/
def hSigCreate (cv : Curve) (d : Digest) (s : Ptr) : H Ptr :=
  match s with
  | none => pure none
  | some _ => do
    let p ← alloc (.obj .plain [none])
    store p (.obj (.sig cv d) [s])
    pure p

/-- ecdsa.c:79-88 `wickr_ecdsa_result_copy`. -/
def hSigCopy (p : Ptr) : H Ptr :=
  match p with
  | none => pure none
  | some _ => do
    let s ← field p 0
    let s ← hBufCopy s
    let .sig cv d ← scal p | undefined
    hSigCreate cv d s

/-- ecdsa.c:90-99 `wickr_ecdsa_result_destroy`. -/
def hSigDestroy (p : Ptr) : H Ptr :=
  match p with
  | none => pure none
  | some _ => do
    destroyField hBufDestroy p 0
    free p
    pure none

/-! ### identity.c -/

/-- The length field of a buffer. -/
def hBufLen (p : Ptr) : H Nat := do
  let .len n ← scal p | undefined
  pure n

/-- identity.c:6-24 `wickr_identity_create`.  Fields: `identifier`, `sig_key`, `signature`. -/
def hIdCreate (t : IdType) (identifier key sig : Ptr) : H Ptr :=
  match identifier with
  | none => pure none
  | some _ => do
    let n ← hBufLen identifier
    if n ≥ 128 then pure none
    else match key with
      | none => pure none
      | some _ =>
        onNull (alloc (.obj .plain [none, none, none])) (pure none) fun p => do
          store p (.obj (.idType t) [identifier, key, sig])
          pure p

/-- identity.c:105-116 `wickr_identity_destroy`. -/
def hIdDestroy (p : Ptr) : H Ptr :=
  match p with
  | none => pure none
  | some _ => do
    destroyField hBufDestroy p 0
    destroyField hKeyDestroy p 1
    destroyField hSigDestroy p 2
    free p
    pure none

/-- identity.c:73-103 `wickr_identity_copy`: the copy of the signature is not tested. -/
def hIdCopy (p : Ptr) : H Ptr :=
  match p with
  | none => pure none
  | some _ => do
    let s ← field p 0
    onNull (hBufCopy s) (pure none) fun identifier => do
      let s ← field p 1
      onNull (hKeyCopy s) (do let _ ← hBufDestroy identifier; pure none) fun key => do
        let s ← field p 2
        let sig ← hSigCopy s
        let .idType t ← scal p | undefined
        onNull (hIdCreate t identifier key sig)
          (do
            let _ ← hBufDestroy identifier
            let _ ← hKeyDestroy key
            let _ ← hSigDestroy sig
            pure none)
          fun copy => pure copy

/-- identity.c:212-229 `wickr_identity_chain_create`.  Fields: `root`, `node`, `_status_cache`. -/
def hChainCreate (root node : Ptr) : H Ptr :=
  match root, node with
  | some _, some _ =>
    onNull (alloc (.obj .plain [none, none, none])) (pure none) fun p => do
      store p (.obj (.status .unknown) [root, node, none])
      pure p
  | _, _ => pure none

/-- identity.c:353-365 `wickr_identity_chain_destroy`. -/
def hChainDestroy (p : Ptr) : H Ptr :=
  match p with
  | none => pure none
  | some _ => do
    destroyField hIdDestroy p 1
    destroyField hIdDestroy p 0
    destroyField hBufDestroy p 2
    free p
    pure none

/-- identity.c:231-271 `wickr_identity_chain_copy`. -/
def hChainCopy (p : Ptr) : H Ptr :=
  match p with
  | none => pure none
  | some _ => do
    let s ← field p 0
    onNull (hIdCopy s) (pure none) fun root => do
      let s ← field p 1
      onNull (hIdCopy s) (do let _ ← hIdDestroy root; pure none) fun node => do
        let s ← field p 2
        let rest (cache : Ptr) : H Ptr :=
          onNull (hChainCreate root node)
            (do
              let _ ← hIdDestroy root
              let _ ← hIdDestroy node
              let _ ← hBufDestroy cache
              pure none)
            fun copy => do
              setField copy 2 cache
              let st ← scal p
              setScal copy st
              pure copy
        match s with
        | none => rest none
        | some _ =>
          onNull (hBufCopy s)
            (do
              let _ ← hIdDestroy root
              let _ ← hIdDestroy node
              pure none)
            rest

/-! ### cipher.c -/

/-- cipher.c:166-177 `wickr_cipher_key_create`; the new block is not tested for NULL.  Field: `key_data`. -/
def hCKeyCreate (c : Cipher) (d : Ptr) : H Ptr :=
  match d with
  | none => pure none
  | some _ => do
    let n ← hBufLen d
    if n ≠ c.keyLen then pure none
    else do
      let p ← alloc (.obj .plain [none])
      store p (.obj (.cipher c) [d])
      pure p

/-- cipher.c:179-198 `wickr_cipher_key_copy`. -/
def hCKeyCopy (p : Ptr) : H Ptr :=
  match p with
  | none => pure none
  | some _ => do
    let s ← field p 0
    onNull (hBufCopy s) (pure none) fun d => do
      let .cipher c ← scal p | undefined
      onNull (hCKeyCreate c d) (do let _ ← hBufDestroyZero d; pure none) fun copy => pure copy

/-- cipher.c:200-209 `wickr_cipher_key_destroy`. -/
def hCKeyDestroy (p : Ptr) : H Ptr :=
  match p with
  | none => pure none
  | some _ => do
    destroyField hBufDestroyZero p 0
    free p
    pure none

/-- cipher.c:16-42 `wickr_cipher_result_create`; the new block is not tested for NULL.  Fields: `iv`, `cipher_text`,
`auth_tag`. -/
def hCResCreate (c : Cipher) (iv ct tag : Ptr) : H Ptr :=
  match iv with
  | none => pure none
  | some _ => do
    let n ← hBufLen iv
    if n ≠ c.ivLen then pure none
    else if c.isAuth && tag.isNone then pure none
    else do
      let m ← (match tag with
        | none => pure c.tagLen
        | some _ => hBufLen tag)
      if m ≠ c.tagLen then pure none
      else do
        let p ← alloc (.obj .plain [none, none, none])
        store p (.obj (.cipher c) [iv, ct, tag])
        pure p

/-- cipher.c:44-59 `wickr_cipher_result_copy`: no copy is tested, and none is released if there is no result. -/
def hCResCopy (p : Ptr) : H Ptr :=
  match p with
  | none => pure none
  | some _ => do
    let s ← field p 0
    let iv ← hBufCopy s
    let s ← field p 1
    let ct ← hBufCopy s
    let s ← field p 2
    let tag ← hBufCopy s
    let .cipher c ← scal p | undefined
    hCResCreate c iv ct tag

/-- cipher.c:61-74 `wickr_cipher_result_destroy`. -/
def hCResDestroy (p : Ptr) : H Ptr :=
  match p with
  | none => pure none
  | some _ => do
    destroyField hBufDestroy p 0
    destroyField hBufDestroy p 1
    destroyField hBufDestroy p 2
    free p
    pure none

/-! ### ephemeral_keypair.c -/

/-- ephemeral_keypair.c:6-23 `wickr_ephemeral_keypair_create`.  Fields: `ec_key`, `signature`. -/
def hEphCreate (n : UInt64) (key sig : Ptr) : H Ptr :=
  match key with
  | none => pure none
  | some _ =>
    onNull (alloc (.obj .plain [none, none])) (pure none) fun p => do
      store p (.obj (.num n) [key, sig])
      pure p

/-- ephemeral_keypair.c:93-103 `wickr_ephemeral_keypair_destroy`. -/
def hEphDestroy (p : Ptr) : H Ptr :=
  match p with
  | none => pure none
  | some _ => do
    destroyField hKeyDestroy p 0
    destroyField hSigDestroy p 1
    free p
    pure none

/-- ephemeral_keypair.c:55-82 `wickr_ephemeral_keypair_copy`. -/
def hEphCopy (p : Ptr) : H Ptr :=
  match p with
  | none => pure none
  | some _ => do
    let s ← field p 0
    onNull (hKeyCopy s) (pure none) fun key => do
      let s ← field p 1
      let rest (sig : Ptr) : H Ptr := do
        let .num n ← scal p | undefined
        onNull (hEphCreate n key sig)
          (do
            let _ ← hKeyDestroy key
            let _ ← hSigDestroy sig
            pure none)
          fun copy => pure copy
      match s with
      | none => rest none
      | some _ => onNull (hSigCopy s) (do let _ ← hKeyDestroy key; pure none) rest

/-- ephemeral_keypair.c:50-53 `wickr_ephemeral_keypair_make_public`. -/
def hEphMakePublic (p : Ptr) : H Unit := do
  let k ← field p 0
  destroyField hBufDestroyZero k 1
  pure ()

/-! ### node.c -/

/-- node.c:9-26 `wickr_node_create`.  Fields: `dev_id`, `id_chain`, `ephemeral_keypair`, `_status_cache`. -/
def hNodeCreate (dev chain eph : Ptr) : H Ptr :=
  match dev, chain with
  | some _, some _ =>
    onNull (alloc (.obj .plain [none, none, none, none])) (pure none) fun p => do
      store p (.obj (.status .unknown) [dev, chain, eph, none])
      pure p
  | _, _ => pure none

/-- node.c:131-143 `wickr_node_destroy`. -/
def hNodeDestroy (p : Ptr) : H Ptr :=
  match p with
  | none => pure none
  | some _ => do
    destroyField hBufDestroy p 0
    destroyField hChainDestroy p 1
    destroyField hEphDestroy p 2
    destroyField hBufDestroy p 3
    free p
    pure none

/-- node.c:79-129 `wickr_node_copy`. -/
def hNodeCopy (p : Ptr) : H Ptr :=
  match p with
  | none => pure none
  | some _ => do
    let s ← field p 0
    onNull (hBufCopy s) (pure none) fun dev => do
      let s ← field p 1
      onNull (hChainCopy s) (do let _ ← hBufDestroy dev; pure none) fun chain => do
        let s ← field p 2
        let last (eph cache : Ptr) : H Ptr :=
          onNull (hNodeCreate dev chain eph)
            (do
              let _ ← hBufDestroy dev
              let _ ← hChainDestroy chain
              let _ ← hEphDestroy eph
              let _ ← hBufDestroy cache
              pure none)
            fun copy => do
              setField copy 3 cache
              let st ← scal p
              setScal copy st
              pure copy
        let rest (eph : Ptr) : H Ptr := do
          let s ← field p 3
          match s with
          | none => last eph none
          | some _ =>
            onNull (hBufCopy s)
              (do
                let _ ← hBufDestroy dev
                let _ ← hChainDestroy chain
                let _ ← hEphDestroy eph
                pure none)
              (last eph)
        match s with
        | none => rest none
        | some _ =>
          onNull (hEphCopy s)
            (do
              let _ ← hBufDestroy dev
              let _ ← hChainDestroy chain
              pure none)
            rest

/-- node.c:28-50 `wickr_node_rotate_keypair`. -/
def hNodeRotate (p k : Ptr) (copy : Bool) : H Bool :=
  match p, k with
  | some _, some _ => do
    destroyField hEphDestroy p 2
    setScal p (.status .unknown)
    if copy then
      onNull (hEphCopy k) (pure false) fun q => do
        setField p 2 q
        pure true
    else do
      setField p 2 k
      pure true
  | _, _ => pure false

end Wickr
