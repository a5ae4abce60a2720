import Verif.Model.HeapObj
import Verif.Model.Handshake
import Verif.Model.Ecdh
/-
Key material on the heap: storage keys, root keys, device information, key derivation, streams.
-/
namespace Wickr

/-! ### storage.c, root_keys.c -/

/-- storage.c:7-23 `wickr_storage_keys_create`.  Fields: `local`, `remote`. -/
def hStorageCreate (loc rem : Ptr) : H Ptr :=
  match loc, rem with
  | some _, some _ =>
    onNull (alloc (.obj .plain [none, none])) (pure none) fun p => do
      store p (.obj .plain [loc, rem])
      pure p
  | _, _ => pure none

/-- storage.c:90-100 `wickr_storage_keys_destroy`. -/
def hStorageDestroy (p : Ptr) : H Ptr :=
  match p with
  | none => pure none
  | some _ => do
    destroyField hCKeyDestroy p 0
    destroyField hCKeyDestroy p 1
    free p
    pure none

/-- storage.c:25-52 `wickr_storage_keys_copy`. -/
def hStorageCopy (p : Ptr) : H Ptr :=
  match p with
  | none => pure none
  | some _ => do
    let s ← field p 0
    onNull (hCKeyCopy s) (pure none) fun loc => do
      let s ← field p 1
      onNull (hCKeyCopy s) (do let _ ← hCKeyDestroy loc; pure none) fun rem =>
        onNull (hStorageCreate loc rem)
          (do
            let _ ← hCKeyDestroy loc
            let _ ← hCKeyDestroy rem
            pure none)
          fun copy => pure copy

/-- root_keys.c:10-28 `wickr_root_keys_create`.  Fields: `node_signature_root`, `node_storage_root`,
`remote_storage_root`. -/
def hRootCreate (sig node rem : Ptr) : H Ptr :=
  match sig, node, rem with
  | some _, some _, some _ =>
    onNull (alloc (.obj .plain [none, none, none])) (pure none) fun p => do
      store p (.obj .plain [sig, node, rem])
      pure p
  | _, _, _ => pure none

/-- root_keys.c:275-286 `wickr_root_keys_destroy`. -/
def hRootDestroy (p : Ptr) : H Ptr :=
  match p with
  | none => pure none
  | some _ => do
    destroyField hKeyDestroy p 0
    destroyField hCKeyDestroy p 1
    destroyField hCKeyDestroy p 2
    free p
    pure none

/-- root_keys.c:237-273 `wickr_root_keys_copy`. -/
def hRootCopy (p : Ptr) : H Ptr :=
  match p with
  | none => pure none
  | some _ => do
    let s ← field p 0
    onNull (hKeyCopy s) (pure none) fun sig => do
      let s ← field p 1
      onNull (hCKeyCopy s) (do let _ ← hKeyDestroy sig; pure none) fun node => do
        let s ← field p 2
        onNull (hCKeyCopy s)
          (do
            let _ ← hKeyDestroy sig
            let _ ← hCKeyDestroy node
            pure none)
          fun rem =>
            onNull (hRootCreate sig node rem)
              (do
                let _ ← hKeyDestroy sig
                let _ ← hCKeyDestroy node
                let _ ← hCKeyDestroy rem
                pure none)
              fun copy => pure copy

/-! ### devinfo.c -/

/-- devinfo.c:5-23 `wickr_dev_info_create`.  Fields: `dev_salt`, `system_salt`, `msg_proto_id`, `srv_comm_id`. -/
def hDevCreate (salt sys msg srv : Ptr) : H Ptr :=
  match salt, msg, srv with
  | some _, some _, some _ =>
    onNull (alloc (.obj .plain [none, none, none, none])) (pure none) fun p => do
      store p (.obj .plain [salt, sys, msg, srv])
      pure p
  | _, _, _ => pure none

/-- devinfo.c:152-165 `wickr_dev_info_destroy`. -/
def hDevDestroy (p : Ptr) : H Ptr :=
  match p with
  | none => pure none
  | some _ => do
    destroyField hBufDestroyZero p 1
    destroyField hBufDestroyZero p 0
    destroyField hBufDestroyZero p 2
    destroyField hBufDestroyZero p 3
    free p
    pure none

/-- devinfo.c:103-150 `wickr_dev_info_copy`. -/
def hDevCopy (p : Ptr) : H Ptr :=
  match p with
  | none => pure none
  | some _ => do
    let s ← field p 1
    onNull (hBufCopy s) (pure none) fun sys => do
      let s ← field p 0
      onNull (hBufCopy s) (do let _ ← hBufDestroyZero sys; pure none) fun salt => do
        let s ← field p 2
        onNull (hBufCopy s)
          (do
            let _ ← hBufDestroyZero sys
            let _ ← hBufDestroyZero salt
            pure none)
          fun msg => do
            let s ← field p 3
            onNull (hBufCopy s)
              (do
                let _ ← hBufDestroyZero sys
                let _ ← hBufDestroyZero salt
                let _ ← hBufDestroyZero msg
                pure none)
              fun srv =>
                onNull (hDevCreate salt sys msg srv)
                  (do
                    let _ ← hBufDestroyZero sys
                    let _ ← hBufDestroyZero salt
                    let _ ← hBufDestroyZero msg
                    let _ ← hBufDestroyZero srv
                    pure none)
                  fun copy => pure copy

/-! ### kdf.c -/

/-- kdf.c:32-57 `wickr_kdf_meta_create`.  Fields: `salt`, `info`. -/
def hKdfMetaCreate (a : KdfAlgo) (salt info : Ptr) : H Ptr := do
  let ok ← (if a.kind = .hkdf then pure (salt.isSome || info.isSome)
    else match salt with
      | none => pure false
      | some _ => do
        let n ← hBufLen salt
        pure (decide (n = a.saltSize.toNat)))
  if !ok then pure none
  else
    onNull (alloc (.obj .plain [none, none])) (pure none) fun p => do
      store p (.obj (.kdf a) [salt, info])
      pure p

/-- kdf.c:164-174 `wickr_kdf_meta_destroy`. -/
def hKdfMetaDestroy (p : Ptr) : H Ptr :=
  match p with
  | none => pure none
  | some _ => do
    destroyField hBufDestroyZero p 0
    destroyField hBufDestroy p 1
    free p
    pure none

/-- kdf.c:142-162 `wickr_kdf_meta_copy`: the copies are not released when there is no result. -/
def hKdfMetaCopy (p : Ptr) : H Ptr :=
  match p with
  | none => pure none
  | some _ => do
    let s ← field p 0
    let rest (salt : Ptr) : H Ptr := do
      let s ← field p 1
      let last (info : Ptr) : H Ptr := do
        let .kdf a ← scal p | undefined
        hKdfMetaCreate a salt info
      match s with
      | none => last none
      | some _ => onNull (hBufCopy s) (do let _ ← hBufDestroy salt; pure none) last
    match s with
    | none => rest none
    | some _ => onNull (hBufCopy s) (pure none) rest

/-- kdf.h: `wickr_kdf_result_t`. -/
structure KdfResult where
  info : KdfMeta
  hash : Bytes
deriving Repr, DecidableEq

/-- kdf.c:176-192 `wickr_kdf_result_create`.  Fields: `meta`, `hash`. -/
def hKdfResCreate (m hash : Ptr) : H Ptr :=
  match m, hash with
  | some _, some _ =>
    onNull (alloc (.obj .plain [none, none])) (pure none) fun p => do
      store p (.obj .plain [m, hash])
      pure p
  | _, _ => pure none

/-- kdf.c:216-227 `wickr_kdf_result_destroy`. -/
def hKdfResDestroy (p : Ptr) : H Ptr :=
  match p with
  | none => pure none
  | some _ => do
    destroyField hBufDestroyZero p 1
    destroyField hKdfMetaDestroy p 0
    free p
    pure none

/-- kdf.c:194-214 `wickr_kdf_result_copy`: the copies are not released when there is no result. -/
def hKdfResCopy (p : Ptr) : H Ptr :=
  match p with
  | none => pure none
  | some _ => do
    let s ← field p 0
    onNull (hKdfMetaCopy s) (pure none) fun m => do
      let s ← field p 1
      onNull (hBufCopy s) (do let _ ← hKdfMetaDestroy m; pure none) fun hash => hKdfResCreate m hash

/-! ### stream_key.c, stream_iv.c, stream_ctx.c, transport_root_key.c, ecdh_cipher_ctx.c -/

/-- stream_key.c:17-37 `wickr_stream_key_create_user_data`.  Fields: `cipher_key`, `evolution_key`, `user_data`. -/
def hSKeyCreate (key evo : Ptr) (ppe : UInt32) (user : Ptr) : H Ptr :=
  match key, evo with
  | some _, some _ =>
    if ppe < ppeMin ∨ ppe > ppeMax then pure none
    else
      onNull (alloc (.obj .plain [none, none, none])) (pure none) fun p => do
        store p (.obj (.ppe ppe) [key, evo, user])
        pure p
  | _, _ => pure none

/-- stream_key.c:150-162 `wickr_stream_key_destroy`. -/
def hSKeyDestroy (p : Ptr) : H Ptr :=
  match p with
  | none => pure none
  | some _ => do
    destroyField hCKeyDestroy p 0
    destroyField hBufDestroyZero p 1
    destroyField hBufDestroy p 2
    free p
    pure none

/-- stream_key.c:64-101 `wickr_stream_key_copy`. -/
def hSKeyCopy (p : Ptr) : H Ptr :=
  match p with
  | none => pure none
  | some _ => do
    let s ← field p 0
    onNull (hCKeyCopy s) (pure none) fun key => do
      let s ← field p 1
      onNull (hBufCopy s) (do let _ ← hCKeyDestroy key; pure none) fun evo => do
        let s ← field p 2
        let rest (user : Ptr) : H Ptr := do
          let .ppe n ← scal p | undefined
          onNull (hSKeyCreate key evo n user)
            (do
              let _ ← hCKeyDestroy key
              let _ ← hBufDestroyZero evo
              let _ ← hBufDestroy user
              pure none)
            fun copy => pure copy
        match s with
        | none => rest none
        | some _ =>
          onNull (hBufCopy s)
            (do
              let _ ← hCKeyDestroy key
              let _ ← hBufDestroyZero evo
              pure none)
            rest

/-- stream_iv.c:63-72 `wickr_stream_iv_destroy`. -/
def hSIvDestroy (p : Ptr) : H Ptr :=
  match p with
  | none => pure none
  | some _ => do
    destroyField hBufDestroy p 0
    free p
    pure none

/-- stream_iv.c:36-61 `wickr_stream_iv_copy`.  Field: `seed`. -/
def hSIvCopy (p : Ptr) : H Ptr :=
  match p with
  | none => pure none
  | some _ => do
    let s ← field p 0
    onNull (hBufCopy s) (pure none) fun seed =>
      onNull (alloc (.obj .plain [none])) (do let _ ← hBufDestroy seed; pure none) fun copy => do
        let x ← scal p
        store copy (.obj x [seed])
        pure copy

/-- stream_ctx.c:75-82, 228-242 `__wickr_stream_ctx_ref_down`, `wickr_stream_ctx_destroy`: the pointer of the caller is
set to NULL when the last reference goes. -/
def hSCtxDestroy (p : Ptr) : H Ptr :=
  match p with
  | none => pure none
  | some _ => do
    let .stream seq d ref ← scal p | undefined
    let ref := if ref ≠ 0 then ref - 1 else ref
    setScal p (.stream seq d ref)
    if ref ≠ 0 then pure p
    else do
      destroyField hSKeyDestroy p 0
      destroyField hSIvDestroy p 1
      free p
      pure none

/-- stream_ctx.c:39-73 `wickr_stream_ctx_copy`.  Fields: `key`, `iv_factory`. -/
def hSCtxCopy (p : Ptr) : H Ptr :=
  match p with
  | none => pure none
  | some _ => do
    let s ← field p 0
    onNull (hSKeyCopy s) (pure none) fun key => do
      let s ← field p 1
      let iv ← hSIvCopy s
      let .stream seq d _ ← scal p | undefined
      if iv.isNone && decide (d = .encode) then do
        let _ ← hSKeyDestroy key
        pure none
      else
        onNull (alloc (.obj .plain [none, none]))
          (do
            let _ ← hSKeyDestroy key
            let _ ← hSIvDestroy iv
            pure none)
          fun copy => do
            store copy (.obj (.stream seq d 1) [key, iv])
            pure copy

/-- transport_root_key.c:29-50 `wickr_transport_root_key_create`.  Field: `secret`. -/
def hTRootCreate (secret : Ptr) (c : Cipher) (send recv : UInt32) : H Ptr :=
  match secret with
  | none => pure none
  | some _ => do
    let n ← hBufLen secret
    if n ≠ c.keyLen then pure none
    else
      onNull (alloc (.obj .plain [none])) (pure none) fun p => do
        store p (.obj (.root c send recv) [secret])
        pure p

/-- transport_root_key.c:52-74 `wickr_transport_root_key_copy`. -/
def hTRootCopy (p : Ptr) : H Ptr :=
  match p with
  | none => pure none
  | some _ => do
    let s ← field p 0
    onNull (hBufCopy s) (pure none) fun secret => do
      let .root c send recv ← scal p | undefined
      onNull (hTRootCreate secret c send recv) (do let _ ← hBufDestroyZero secret; pure none) fun copy => pure copy

/-- transport_root_key.c:76-85 `wickr_transport_root_key_destroy`. -/
def hTRootDestroy (p : Ptr) : H Ptr :=
  match p with
  | none => pure none
  | some _ => do
    destroyField hBufDestroyZero p 0
    free p
    pure none

/-- ecdh_cipher_ctx.c:5-24 `wickr_ecdh_cipher_ctx_create_key`.  Field: `local_key`. -/
def hEcdhCreate (key : Ptr) (c : Cipher) : H Ptr :=
  match key with
  | none => pure none
  | some _ =>
    onNull (alloc (.obj .plain [none])) (pure none) fun p => do
      store p (.obj (.cipher c) [key])
      pure p

/-- ecdh_cipher_ctx.c:44-64 `wickr_ecdh_cipher_ctx_copy`. -/
def hEcdhCopy (p : Ptr) : H Ptr :=
  match p with
  | none => pure none
  | some _ => do
    let s ← field p 0
    onNull (hKeyCopy s) (pure none) fun key => do
      let .cipher c ← scal p | undefined
      onNull (hEcdhCreate key c) (do let _ ← hKeyDestroy key; pure none) fun copy => pure copy

/-- ecdh_cipher_ctx.c:66-75 `wickr_ecdh_cipher_ctx_destroy`. -/
def hEcdhDestroy (p : Ptr) : H Ptr :=
  match p with
  | none => pure none
  | some _ => do
    destroyField hKeyDestroy p 0
    free p
    pure none

end Wickr
