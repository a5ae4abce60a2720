import Verif.Model.HeapEngine
import Verif.Model.Storage
import Verif.Model.Ecdh
import Verif.Model.KdfCipher
import Verif.Model.Stream
/-
The functions that combine objects and the crypto engine, on the heap: identities, nodes, key material and passphrase
encryption.  Each program follows its C function allocation by allocation and release by release.

Buffers and structures on the stack are values here.  The parts of a concatenation are read before the new buffer is made.  As in
the value model, random values and signature nonces are arguments, and the engine and its table are never NULL.
-/
namespace Wickr

/-! ### buffer.c -/

/-- buffer.c:126-170 `wickr_buffer_concat_multi` of parts that have been read. -/
def hConcatMulti (bs : List (Option Bytes)) : H Ptr :=
  match concatMulti bs with
  | none => pure none
  | some b => hOut b

/-- buffer.c:99-124 `wickr_buffer_concat` of parts that have been read. -/
def hConcat (x y : Option Bytes) : H Ptr :=
  match concat2 x y with
  | none => pure none
  | some b => hOut b

/-- buffer.c:187-209 `wickr_buffer_is_equal` with `memcmp`. -/
def hIsEqual (p q : Ptr) : H Bool := do
  let x ← readOpt p
  let y ← readOpt q
  pure (bufIsEqual x y none)

/-! ### identity.c -/

/-- identity.c:26-33 `wickr_identity_sign`. -/
def hIdentitySign (E : Engine) (p data : Ptr) (nonce : Bytes) : H Ptr :=
  match p with
  | none => pure none
  | some _ => do
    let k ← field p 1
    let pri ← field k 1
    match pri, data with
    | some _, some _ => hSign E k data .sha512 nonce
    | _, _ => pure none

/-- `wickr_identity_sign` of the public part of a key, as at identity.c:47 and ephemeral_keypair.c:33. -/
def hSignPub (E : Engine) (p key : Ptr) (nonce : Bytes) : H Ptr := do
  let d ← field key 0
  hIdentitySign E p d nonce

/-- identity.c:35-71 `wickr_node_identity_gen`; `pub`, `pri` are the encodings of the key drawn at line 41, `rid` the identifier
drawn at line 56 when none is given. -/
def hNodeIdentityGen (E : Engine) (root identifier : Ptr) (cv : Curve) (pub pri rid nonce : Bytes) : H Ptr :=
  match root with
  | none => pure none
  | some _ => do
    let .idType t ← scal root | undefined
    if t ≠ .root then pure none
    else
      onNull (hRandKey cv pub pri) (pure none) fun key =>
        onNull (hSignPub E root key nonce) (do let _ ← hKeyDestroy key; pure none) fun sig =>
          let bad : H Ptr := do
            let _ ← hKeyDestroy key
            let _ ← hSigDestroy sig
            pure none
          let rest (id : Ptr) : H Ptr :=
            onNull (hIdCreate .node id key sig)
              (do
                let _ ← hKeyDestroy key
                let _ ← hSigDestroy sig
                let _ ← hBufDestroy id
                pure none)
              fun r => pure r
          match identifier with
          | some _ => onNull (hBufCopy identifier) bad rest
          | none => onNull (hRandom rid) bad rest

/-- identity_priv.c:245-280 `wickr_identity_chain_make_status_cache`. -/
def hChainStatusCache (E : Engine) (p : Ptr) : H Ptr :=
  match p with
  | none => pure none
  | some _ => do
    let root ← field p 0
    let node ← field p 1
    let rk ← field root 1
    let sig ← field node 2
    let nk ← field node 1
    match sig with
    | none => pure none
    | some _ => do
      let .status st ← scal p | undefined
      let q ← field rk 0
      let b1 ← readBuf q
      let q ← field sig 0
      let b2 ← readBuf q
      let q ← field nk 0
      let b3 ← readBuf q
      onNull (hConcatMulti [some b1, some b2, some b3, some [st.byte]]) (pure none) fun c => do
        let r ← hDigest E c none .sha512
        let _ ← hBufDestroy c
        pure r

/-- identity_priv.c:282-296 `wickr_identity_chain_has_valid_cache`. -/
def hChainHasValidCache (E : Engine) (p : Ptr) : H Bool :=
  match p with
  | none => pure false
  | some _ => do
    let cache ← field p 2
    match cache with
    | none => pure false
    | some _ => do
      let cur ← hChainStatusCache E p
      let b ← hIsEqual cur cache
      let _ ← hBufDestroy cur
      pure b

/-- identity_priv.c:298-302 `wickr_identity_chain_update_status_cache`. -/
def hChainUpdateCache (E : Engine) (p : Ptr) : H Unit := do
  destroyField hBufDestroy p 2
  let c ← hChainStatusCache E p
  setField p 2 c

/-- The call of `ec_verify` at identity.c:284: the signature may be NULL. -/
def hChainCheck (E : Engine) (p : Ptr) : H Bool := do
  let root ← field p 0
  let node ← field p 1
  let rk ← field root 1
  let sig ← field node 2
  let nk ← field node 1
  let q ← field nk 0
  hVerify E sig rk q

/-- identity.c:273-290 `wickr_identity_chain_validate`. -/
def hChainValidate (E : Engine) (p : Ptr) : H Bool :=
  match p with
  | none => pure false
  | some _ => do
    let v ← hChainHasValidCache E p
    if v then do
      let .status st ← scal p | undefined
      pure (decide (st = .valid))
    else do
      let ok ← hChainCheck E p
      setScal p (.status (if ok then .valid else .invalid))
      hChainUpdateCache E p
      pure ok

/-! ### ephemeral_keypair.c -/

/-- ephemeral_keypair.c:25-48 `wickr_ephemeral_keypair_generate_identity`. -/
def hEphGenerate (E : Engine) (identifier : UInt64) (p : Ptr) (cv : Curve) (pub pri nonce : Bytes) : H Ptr :=
  onNull (hRandKey cv pub pri) (pure none) fun key =>
    onNull (hSignPub E p key nonce) (do let _ ← hKeyDestroy key; pure none) fun sig =>
      onNull (hEphCreate identifier key sig)
        (do
          let _ ← hKeyDestroy key
          let _ ← hSigDestroy sig
          pure none)
        fun r => pure r

/-- ephemeral_keypair.c:84-91 `wickr_ephemeral_keypair_verify_owner`. -/
def hEphVerifyOwner (E : Engine) (p owner : Ptr) : H Bool :=
  match p, owner with
  | some _, some _ => do
    let sig ← field p 1
    let k ← field owner 1
    let e ← field p 0
    let q ← field e 0
    hVerify E sig k q
  | _, _ => pure false

/-! ### node.c -/

/-- node_priv.c:104-138 `wickr_node_make_status_cache`. -/
def hNodeStatusCache (E : Engine) (p : Ptr) : H Ptr :=
  match p with
  | none => pure none
  | some _ => do
    let eph ← field p 2
    match eph with
    | none => pure none
    | some _ => do
      let chain ← field p 1
      let sig ← field eph 1
      let cache ← field chain 2
      match sig, cache with
      | some _, some _ => do
        let .status st ← scal p | undefined
        let k ← field eph 0
        let q ← field k 0
        let b1 ← readBuf q
        let q ← field sig 0
        let b2 ← readBuf q
        onNull (hConcatMulti [some b1, some b2, some [st.byte]]) (pure none) fun c => do
          let r ← hDigest E c none .sha512
          let _ ← hBufDestroy c
          pure r
      | _, _ => pure none

/-- node_priv.c:140-159 `wickr_node_has_valid_cache`. -/
def hNodeHasValidCache (E : Engine) (p : Ptr) : H Bool :=
  match p with
  | none => pure false
  | some _ => do
    let cache ← field p 3
    match cache with
    | none => pure false
    | some _ => do
      let chain ← field p 1
      let v ← hChainHasValidCache E chain
      if v then do
        let cur ← hNodeStatusCache E p
        let b ← hIsEqual cur cache
        let _ ← hBufDestroy cur
        pure b
      else pure false

/-- node_priv.c:161-165 `wickr_node_update_status_cache`. -/
def hNodeUpdateCache (E : Engine) (p : Ptr) : H Unit := do
  destroyField hBufDestroy p 3
  let c ← hNodeStatusCache E p
  setField p 3 c

/-- The call of `wickr_ephemeral_keypair_verify_owner` at node.c:71. -/
def hNodeCheck (E : Engine) (p : Ptr) : H Bool := do
  let eph ← field p 2
  let chain ← field p 1
  let node ← field chain 1
  hEphVerifyOwner E eph node

/-- The status of the chain of a node (node.c:76). -/
def hNodeChainStatus (p : Ptr) : H Status := do
  let chain ← field p 1
  let .status st ← scal chain | undefined
  pure st

/-- `wickr_identity_chain_validate` of the chain of a node (node.c:64). -/
def hNodeValidateChain (E : Engine) (p : Ptr) : H Bool := do
  let chain ← field p 1
  hChainValidate E chain

/-- node.c:52-77 `wickr_node_verify_signature_chain`. -/
def hNodeVerify (E : Engine) (p : Ptr) : H Bool :=
  match p with
  | none => pure false
  | some _ => do
    let v ← hNodeHasValidCache E p
    if v then do
      let .status st ← scal p | undefined
      pure (decide (st = .valid))
    else do
      let ok ← hNodeValidateChain E p
      if ok then do
        let own ← hNodeCheck E p
        setScal p (.status (if own then .valid else .invalid))
        hNodeUpdateCache E p
        let .status st ← scal p | undefined
        let cs ← hNodeChainStatus p
        pure (decide (st = .valid) && decide (cs = .valid))
      else do
        setScal p (.status .invalid)
        hNodeUpdateCache E p
        pure false

end Wickr
