import Verif.Model.HeapKeyFun
import Verif.Model.Handshake
/-
Model of stream_key.c, stream_key_priv.c, stream_iv.c, stream_ctx.c and transport_root_key.c on the heap, beyond what HeapKeys has.
-/
namespace Wickr

/-! ### stream_key.c, stream_key_priv.c, buffer_priv.c -/

/-- stream_key.c:39-62 `wickr_stream_key_create_rand`; `k` and `evo` are the random keys. -/
def hSKeyRand (k : CipherKey) (evo : Bytes) (ppe : UInt32) : H Ptr :=
  onNull (hRandCKey k) (pure none) fun ck =>
    onNull (hRandom evo) (do let _ ← hCKeyDestroy ck; pure none) fun e =>
      onNull (hSKeyCreate ck e ppe none)
        (do
          let _ ← hCKeyDestroy ck
          let _ ← hBufDestroyZero e
          pure none)
        fun r => pure r

/-- buffer_priv.c:11-27 `wickr_buffer_to_protobytes`: a block with the bytes of a buffer. -/
def hToProto (p : Ptr) : H Ptr :=
  match p with
  | none => pure none
  | some _ => do
    let b ← readBuf p
    onNull (alloc (.raw b.length)) (pure none) fun q => do
      fill q b
      pure q

/-- buffer_priv.c:5-8 `wickr_buffer_from_protobytes`. -/
def hFromProto (b : Bytes) : H Ptr := hBufCreate b

/-- stream_key_priv.c:15-58 `wickr_stream_key_to_proto`.  The structure owns the bytes of the cipher key (field 0); the other
parts point into the stream key.  If the bytes cannot be copied the structure is not released (36-39). -/
def hSKeyToProto (p : Ptr) : H Ptr :=
  onNull (alloc (.obj .plain [none])) (pure none) fun x => do
    let ck ← field p 0
    onNull (hCKeySerialize ck) (do free x; pure none) fun kb =>
      onNull (hToProto kb) (do let _ ← hBufDestroyZero kb; pure none) fun q => do
        let _ ← hBufDestroyZero kb
        store x (.obj .plain [q])
        pure x

/-- stream_key_priv.c:6-13 `wickr_stream_key_proto_free`: the bytes of the cipher key are not wiped. -/
def hSKeyProtoFree (x : Ptr) : H Unit := do
  let q ← field x 0
  free q
  free x

/-- stream_key.c:105-130 `wickr_stream_key_serialize`: whether there is a structure is not tested (113). -/
def hSKeySerialize (p : Ptr) : H Ptr :=
  match p with
  | none => pure none
  | some _ => do
    let x ← hSKeyToProto p
    let q ← field x 0
    let cb ← loadBytes q
    let e ← field p 1
    let eb ← readBuf e
    let .ppe n ← scal p | undefined
    let u ← field p 2
    let ub ← readOpt u
    let o ← hPack (PStreamKey.pack ⟨some cb, some eb, some n, ub⟩)
    hSKeyProtoFree x
    pure o

/-- stream_key_priv.c:88-106: the end of `wickr_stream_key_create_from_proto`: when the parts are refused the user data are not
released. -/
def hSKeyAssemble (ck e : Ptr) (ppe : UInt32) (user : Ptr) : H Ptr :=
  onNull (hSKeyCreate ck e ppe user)
    (do
      let _ ← hCKeyDestroy ck
      let _ ← hBufDestroyZero e
      pure none)
    fun r => pure r

/-- stream_key_priv.c:60-107 `wickr_stream_key_create_from_proto`: `x` is the unpacked message. -/
def hSKeyOfProto (x : Ptr) (k : PStreamKey) : H Ptr :=
  match k.cipherKey, k.evoKey, k.ppe with
  | some _, some _, some ppe => do
    let cb ← hPart x 0
    onNull (hFromProto cb) (pure none) fun kb => do
      let ck ← hCKeyFromBuffer kb
      let _ ← hBufDestroyZero kb
      match ck with
      | none => pure none
      | some _ => do
        let eb ← hPart x 1
        onNull (hFromProto eb) (do let _ ← hCKeyDestroy ck; pure none) fun e =>
          match k.userData with
          | none => hSKeyAssemble ck e ppe none
          | some _ => do
            let ub ← hPart x 2
            onNull (hFromProto ub)
              (do
                let _ ← hCKeyDestroy ck
                let _ ← hBufDestroyZero e
                pure none)
              fun u => hSKeyAssemble ck e ppe u
  | _, _, _ => pure none

/-- stream_key.c:132-148 `wickr_stream_key_create_from_buffer`. -/
def hSKeyFromBuffer (p : Ptr) : H Ptr :=
  match p with
  | none => pure none
  | some _ => do
    let b ← readBuf p
    match (fieldsDec b).bind PStreamKey.unpack with
    | none => pure none
    | some k =>
      onNull (hUnpack k.parts) (pure none) fun x => do
        let r ← hSKeyOfProto x k
        let _ ← hFreeUnpacked x
        pure r

/-! ### stream_iv.c -/

/-- stream_iv.c:12-34 `wickr_stream_iv_create`; `seed` are the random bytes of line 15. -/
def hSIvCreate (ci : Cipher) (seed : Bytes) : H Ptr :=
  onNull (hRandom seed) (pure none) fun s =>
    onNull (alloc (.obj .plain [none])) (do let _ ← hBufDestroy s; pure none) fun p => do
      store p (.obj (.iv ci 0) [s])
      pure p

/-- stream_iv.c:74-91 `wickr_stream_iv_generate`: the HMAC of the counter, a buffer on the stack; only the length field of the
result is changed, the block stays as long as the HMAC. -/
def hSIvGenerate (E : Engine) (p : Ptr) : H Ptr :=
  match p with
  | none => pure none
  | some _ => do
    let .iv ci n ← scal p | undefined
    let s ← field p 0
    let seed ← readBuf s
    match E.hmac (le64 n) seed .sha512 with
    | none => pure none
    | some h =>
      onNull (hOut h) (pure none) fun r => do
        setScal r (.len ci.ivLen)
        setScal p (.iv ci (n + 1))
        pure r

/-! ### stream_ctx.c -/

/-- The cipher of a stream key, as it is read at stream_ctx.c:9, 16 and 114. -/
def hSKeyCipher (p : Ptr) : H Cipher := do
  let ck ← field p 0
  let .cipher ci ← scal ck | undefined
  pure ci

/-- The number of packets per evolution, as it is read at stream_ctx.c:122, 140 and 141. -/
def hSKeyPpe (p : Ptr) : H UInt32 := do
  let .ppe n ← scal p | undefined
  pure n

/-- stream_ctx.c:22-36: the end of `wickr_stream_ctx_create`: without memory the IV factory is not released. -/
def hSCtxOf (key : Ptr) (d : Dir) (iv : Ptr) : H Ptr :=
  onNull (alloc (.obj .plain [none, none])) (pure none) fun p => do
    store p (.obj (.stream 0 d 1) [key, iv])
    pure p

/-- stream_ctx.c:7-37 `wickr_stream_ctx_create`.  Fields: `key`, `iv_factory`. -/
def hSCtxCreate (key : Ptr) (d : Dir) (seed : Bytes) : H Ptr :=
  match key with
  | none => pure none
  | some _ => do
    let ci ← hSKeyCipher key
    if !ci.isAuth then pure none
    else match d with
      | .encode => onNull (hSIvCreate ci seed) (pure none) fun iv => hSCtxOf key .encode iv
      | .decode => hSCtxOf key .decode none

/-- stream_ctx.c:85-94 `wickr_stream_ctx_ref_up`. -/
def hSCtxRefUp (p : Ptr) : H Bool :=
  match p with
  | none => pure false
  | some _ => do
    let .stream seq d ref ← scal p | undefined
    if ref = 0xFFFFFFFFFFFFFFFF then pure false
    else do
      setScal p (.stream seq d (ref + 1))
      pure true

/-- stream_ctx.c:96-132 `__wickr_stream_key_create_with_evo_buffer`. -/
def hSKeyFromEvo (old evo : Ptr) : H Ptr :=
  match old, evo with
  | some _, some _ =>
    onNull (hBufSection evo 0 32) (pure none) fun ck =>
      onNull (hBufSection evo 32 32) (do let _ ← hBufDestroyZero ck; pure none) fun ek => do
        let ci ← hSKeyCipher old
        onNull (hCKeyCreate ci ck)
          (do
            let _ ← hBufDestroyZero ck
            let _ ← hBufDestroyZero ek
            pure none)
          fun key => do
            let n ← hSKeyPpe old
            onNull (hSKeyCreate key ek n none)
              (do
                let _ ← hCKeyDestroy key
                let _ ← hBufDestroyZero ek
                pure none)
              fun r => pure r
  | _, _ => pure none

/-- stream_ctx.c:159-161: the HMAC of the cipher key under the evolution key. -/
def hSKeyEvo (E : Engine) (k : Ptr) : H Ptr := do
  let ck ← field k 0
  let kd ← field ck 0
  let ek ← field k 1
  hHmac E kd ek .sha512

/-- stream_ctx.c:157-178: the loop that replaces the key by its successors; `n` is `seq_evo - curr_evo`. -/
def hEvolveLoop (E : Engine) : Nat → Ptr → H Ptr
  | 0, k => pure k
  | n + 1, k =>
    onNull (hSKeyEvo E k) (do let _ ← hSKeyDestroy k; pure none) fun evo => do
      let k' ← hSKeyFromEvo k evo
      let _ ← hSKeyDestroy k
      let _ ← hBufDestroyZero evo
      match k' with
      | none => pure none
      | some _ => hEvolveLoop E n k'

/-- stream_ctx.c:134-184 `__wickr_stream_ctx_evolove_key_material` (of a context that is there); dividing by 0 is undefined. -/
def hSEvolve (E : Engine) (p : Ptr) (seq : UInt64) : H Bool := do
  let .stream last _ _ ← scal p | undefined
  let k ← field p 0
  let n ← hSKeyPpe k
  if n = 0 then undefined
  else if seq / n.toUInt64 < last / n.toUInt64 then pure false
  else if seq / n.toUInt64 = last / n.toUInt64 then pure true
  else
    onNull (hSKeyCopy k) (pure false) fun c =>
      onNull (hEvolveLoop E (seq / n.toUInt64 - last / n.toUInt64).toNat c) (pure false) fun r => do
        destroyField hSKeyDestroy p 0
        setField p 0 r
        pure true

/-- stream_ctx.c:201-208: encryption with the current key and an IV, which is released. -/
def hSSeal (E : Engine) (p data aad iv : Ptr) (seq : UInt64) : H Ptr := do
  let k ← field p 0
  let ck ← field k 0
  let r ← hEncryptIv E data aad ck iv
  let _ ← hBufDestroy iv
  let .stream _ d ref ← scal p | undefined
  setScal p (.stream seq d ref)
  pure r

/-- stream_ctx.c:196-208: the rest of `wickr_stream_ctx_encode` once there is an IV. -/
def hSEncodeRest (E : Engine) (p data aad iv : Ptr) (seq : UInt64) : H Ptr := do
  let ok ← hSEvolve E p seq
  if ok then hSSeal E p data aad iv seq
  else do
    let _ ← hBufDestroy iv
    pure none

/-- stream_ctx.c:186-209 `wickr_stream_ctx_encode` (of a context that is there). -/
def hSEncode (E : Engine) (p data aad : Ptr) (seq : UInt64) : H Ptr :=
  match data with
  | none => pure none
  | some _ => do
    let .stream last d _ ← scal p | undefined
    if seq ≤ last ∨ d ≠ .encode then pure none
    else do
      let f ← field p 1
      onNull (hSIvGenerate E f) (pure none) fun iv => hSEncodeRest E p data aad iv seq

/-- stream_ctx.c:221-225: decryption with the current key. -/
def hSOpen (E : Engine) (p data aad : Ptr) (seq : UInt64) : H Ptr := do
  let k ← field p 0
  let ck ← field k 0
  let r ← hDecrypt E data aad ck true
  let .stream _ d ref ← scal p | undefined
  setScal p (.stream seq d ref)
  pure r

/-- stream_ctx.c:211-226 `wickr_stream_ctx_decode` (of a context that is there). -/
def hSDecode (E : Engine) (p data aad : Ptr) (seq : UInt64) : H Ptr :=
  match data with
  | none => pure none
  | some _ => do
    let .stream last d _ ← scal p | undefined
    if seq ≤ last ∨ d ≠ .decode then pure none
    else do
      let ok ← hSEvolve E p seq
      if ok then hSOpen E p data aad seq else pure none

/-! ### transport_root_key.c -/

/-- transport_root_key.c:5-27 `wickr_transport_root_key_create_random` (of an engine that is there); `secret` is random. -/
def hTRootRandom (secret : Bytes) (ci : Cipher) (send recv : UInt32) : H Ptr :=
  onNull (hRandom secret) (pure none) fun s =>
    onNull (hTRootCreate s ci send recv) (do let _ ← hBufDestroyZero s; pure none) fun r => pure r

/-- transport_root_key.c:112-129: the end of `wickr_transport_root_key_to_stream_key`. -/
def hTRootStream (ck ek : Ptr) (ppe : UInt32) : H Ptr := do
  let r ← hSKeyCreate ck ek ppe none
  match r with
  | none => do
    let _ ← hCKeyDestroy ck
    let _ ← hBufDestroyZero ek
    pure none
  | some _ => pure r

/-- transport_root_key.c:101: the length of the hash of a result. -/
def hKdfResLen (kr : Ptr) : H Nat := do
  let q ← field kr 1
  let b ← readBuf q
  pure b.length

/-- transport_root_key.c:105, 113: a part of the hash of a result. -/
def hKdfResSection (kr : Ptr) (s n : Nat) : H Ptr := do
  let q ← field kr 1
  hBufSection q s n

/-- transport_root_key.c:105-129: the key made of derived key material. -/
def hTRootSplit (kr : Ptr) (ci : Cipher) (ppe : UInt32) : H Ptr := do
  let kd ← hKdfResSection kr 0 ci.keyLen
  onNull (hCKeyCreate ci kd) (do let _ ← hBufDestroyZero kd; pure none) fun ck => do
    let ek ← hKdfResSection kr ci.keyLen ci.keyLen
    let _ ← hKdfResDestroy kr
    hTRootStream ck ek ppe

/-- transport_root_key.c:96-130: the key is derived and taken apart; the derived key material is not released when something fails before
line 114. -/
def hTRootDerive (E : Engine) (p : Ptr) (salt sid : Bytes) (d : Dir) : H Ptr := do
  let .root ci send recv ← scal p | undefined
  let sq ← field p 0
  let secret ← readBuf sq
  onNull (hKdfWith E ⟨hkdfSha512, some salt, some sid⟩ secret) (pure none) fun kr => do
    let n ← hKdfResLen kr
    if n ≠ ci.keyLen * 2 then pure none else hTRootSplit kr ci (if d = .encode then send else recv)

/-- transport_root_key.c:87-130 `wickr_transport_root_key_to_stream_key`. -/
def hTRootToStream (E : Engine) (p salt sid : Ptr) (d : Dir) : H Ptr :=
  match p, salt, sid with
  | some _, some _, some _ => do
    let s ← readBuf salt
    let i ← readBuf sid
    hTRootDerive E p s i d
  | _, _, _ => pure none

end Wickr
