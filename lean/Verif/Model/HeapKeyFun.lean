import Verif.Model.HeapFun
import Verif.Model.HeapUnpack
/-
Key material and passphrase encryption on the heap: cipher.c, kdf.c, crypto_engine.c, ecdh_cipher_ctx.c, root_keys.c, devinfo.c.

Parameters of a key derivation and cipher keys that live on the stack are values here; so are buffers that point into other
buffers.  Arguments are read when the function begins.
-/
namespace Wickr

/-! ### cipher.c -/

/-- buffer.c:86-97 `wickr_buffer_copy_section` of bytes that have been read. -/
def hSection (b : Bytes) (start len : Nat) : H Ptr :=
  match copySection b start len with
  | none => pure none
  | some d => hOut d

/-- cipher.c:93-109 `wickr_cipher_result_serialize`. -/
def hCResSerialize (p : Ptr) : H Ptr :=
  match p with
  | none => pure none
  | some _ => do
    let r ← readCRes p
    if !cipherResultIsValid r then pure none
    else if !r.cipher.isAuth then hConcatMulti [some [r.cipher.id], some r.iv, r.ct]
    else hConcatMulti [some [r.cipher.id], some r.iv, r.tag, r.ct]

/-- cipher.c:111-164 `wickr_cipher_result_from_buffer` of bytes that have been read. -/
def hCResFromBytes (b : Bytes) : H Ptr :=
  match b with
  | [] => pure none
  | b0 :: _ =>
    match Cipher.find b0 with
    | none => pure none
    | some mode =>
      let required := 1 + mode.ivLen + mode.tagLen
      if b.length < required then pure none
      else
        onNull (hSection b 1 mode.ivLen) (pure none) fun iv =>
          let rest (tag : Ptr) (pos : Nat) : H Ptr :=
            if b.length > required then
              onNull (hSection b pos (b.length - pos))
                (do
                  let _ ← hBufDestroy iv
                  let _ ← hBufDestroy tag
                  pure none)
                fun ct => hCResCreate mode iv ct tag
            else hCResCreate mode iv none tag
          if mode.isAuth then
            onNull (hSection b (1 + mode.ivLen) mode.tagLen) (do let _ ← hBufDestroy iv; pure none) fun tag =>
              rest tag (1 + mode.ivLen + mode.tagLen)
          else rest none (1 + mode.ivLen)

/-- cipher.c:111-164 of a buffer in memory. -/
def hCResFromBuffer (p : Ptr) : H Ptr :=
  match p with
  | none => pure none
  | some _ => do
    let b ← readBuf p
    hCResFromBytes b

/-- cipher.c:211-224 `wickr_cipher_key_serialize`. -/
def hCKeySerialize (p : Ptr) : H Ptr :=
  match p with
  | none => pure none
  | some _ => do
    let k ← readCKey p
    hConcat (some [k.cipher.id]) (some k.key)

/-- cipher.c:226-245 `wickr_cipher_key_from_buffer` of bytes that have been read. -/
def hCKeyFromBytes (b : Bytes) : H Ptr :=
  if b.length ≤ 1 then pure none
  else match b with
    | [] => pure none
    | b0 :: _ =>
      match Cipher.find b0 with
      | none => pure none
      | some c =>
        if b.length - 1 < c.keyLen then pure none
        else onNull (hSection b 1 c.keyLen) (pure none) fun k => hCKeyCreate c k

/-- cipher.c:226-245 of a buffer in memory. -/
def hCKeyFromBuffer (p : Ptr) : H Ptr :=
  match p with
  | none => pure none
  | some _ => do
    let b ← readBuf p
    hCKeyFromBytes b

/-! ### kdf.c -/

/-- Reading the parameters of a key derivation. -/
def readKdfMeta (p : Ptr) : H KdfMeta := do
  let .kdf a ← scal p | undefined
  let q ← field p 0
  let s ← readOpt q
  let q ← field p 1
  let i ← readOpt q
  pure ⟨a, s, i⟩

/-- kdf.c:95-120 `wickr_kdf_meta_create_with_buffer`: the salt is not released when there is no result. -/
def hKdfMetaFromBuffer (p : Ptr) : H Ptr :=
  match p with
  | none => pure none
  | some _ => do
    let b ← readBuf p
    let size := kdfMetaSize b
    if size = 0 then pure none
    else if b.length < size.toNat then pure none
    else match b with
      | [] => pure none
      | b0 :: _ => match KdfAlgo.find b0 with
        | none => pure none
        | some a => onNull (hSection b 1 a.saltSize.toNat) (pure none) fun s => hKdfMetaCreate a s none

/-- kdf.c:122-140 `wickr_kdf_meta_serialize`. -/
def hKdfMetaSerialize (p : Ptr) : H Ptr :=
  match p with
  | none => pure none
  | some _ => do
    let m ← readKdfMeta p
    if m.algo.kind = .hkdf ∧ m.salt.isNone then pure none
    else hConcat (some [m.algo.kdfId]) m.salt

/-- What the salt buffer of kdf.c:290-305 holds: header, salt, and zeros up to 64 bytes. -/
def bcryptSetting (salt : Bytes) : Bytes :=
  let b := [36, 50, 121, 36, 49, 53, 36] ++ salt
  b ++ List.replicate (64 - b.length) 0

/-- kdf.c:269-327 `__bcrypt_generate_hash` where it succeeds with `hash`.  A pass phrase buffer that cannot be made is noticed by
`wickr_buffer_modify_section` (309). -/
def hBcrypt (salt pass hash : Bytes) : H Ptr :=
  onNull (hOut (bcryptSetting salt)) (pure none) fun s =>
    onNull (hOut (pass ++ [0])) (do let _ ← hBufDestroy s; pure none) fun q => do
      let _ ← hBufDestroy q
      let r ← hOut hash
      let _ ← hBufDestroy s
      pure r

/-- kdf.c:408-424 `__kdf_algo_hash`.  What a derivation that fails allocates and releases is not modelled. -/
def hKdfHash (E : Engine) (m : KdfMeta) (pass : Bytes) : H Ptr :=
  match E.kdf m pass with
  | none => pure none
  | some h =>
    match m.algo.kind, m.salt with
    | .bcrypt, some s => hBcrypt s pass h
    | _, _ => hOut h

/-- kdf.c:142-162 `wickr_kdf_meta_copy` of parameters that have been read: the copies are not released when there is no result. -/
def hKdfMetaOf (m : KdfMeta) : H Ptr :=
  let rest (salt : Ptr) : H Ptr :=
    match m.info with
    | none => hKdfMetaCreate m.algo salt none
    | some i => onNull (hOut i) (do let _ ← hBufDestroy salt; pure none) fun info => hKdfMetaCreate m.algo salt info
  match m.salt with
  | none => rest none
  | some s => onNull (hOut s) (pure none) rest

/-- kdf.c:449-469 `wickr_perform_kdf_meta` of arguments that have been read.  When `wickr_kdf_result_create` fails, its arguments
are not released. -/
def hKdfWith (E : Engine) (m : KdfMeta) (pass : Bytes) : H Ptr :=
  onNull (hKdfHash E m pass) (pure none) fun h =>
    onNull (hKdfMetaOf m) (do let _ ← hBufDestroy h; pure none) fun r => hKdfResCreate r h

/-- kdf.c:449-469 `wickr_perform_kdf_meta`. -/
def hKdf (E : Engine) (p pass : Ptr) : H Ptr :=
  match p, pass with
  | some _, some _ => do
    let m ← readKdfMeta p
    let b ← readBuf pass
    hKdfWith E m b
  | _, _ => pure none

/-- kdf.c:229-267, 395-406 `__kdf_algo_generate_salt`: `rnd` are the random bytes bcrypt's salt is made of, `salt` is the salt. -/
def hKdfSalt (a : KdfAlgo) (rnd salt : Bytes) : H Ptr :=
  match a.kind with
  | .bcrypt =>
    onNull (hRandom rnd) (pure none) fun r =>
      onNull (hOut ([36, 50, 121, 36, 49, 53, 36] ++ salt ++ [0])) (do let _ ← hBufDestroy r; pure none) fun s => do
        let _ ← hBufDestroy r
        let x ← hOut salt
        let _ ← hBufDestroy s
        pure x
  | _ => hRandom salt

/-- kdf.c:426-447 `wickr_perform_kdf`. -/
def hKdfGen (E : Engine) (a : KdfAlgo) (pass : Ptr) (rnd salt : Bytes) : H Ptr :=
  match pass with
  | none => pure none
  | some _ =>
    onNull (hKdfSalt a rnd salt) (pure none) fun s => do
      let b ← readBuf pass
      let r ← hKdfWith E ⟨a, some salt, none⟩ b
      let _ ← hBufDestroy s
      pure r

/-! ### crypto_engine.c -/

/-- crypto_engine.c:48-71 `__wickr_cipher_key_from_kdf`. -/
def hCKeyFromKdf (p : Ptr) (c : Cipher) : H Ptr :=
  match p with
  | none => pure none
  | some _ => do
    let q ← field p 1
    let h ← readBuf q
    if h.length ≠ c.keyLen then pure none
    else onNull (hBufCopy q) (pure none) fun k => onNull (hCKeyCreate c k) (do let _ ← hBufDestroyZero k; pure none) fun r => pure r

/-- The encryption at crypto_engine.c:91-95, with a cipher key on the stack. -/
def hKdfEncrypt (E : Engine) (value kr : Ptr) (c : Cipher) (iv : Bytes) : H Ptr := do
  let v ← readBuf value
  let q ← field kr 1
  let h ← readBuf q
  hEncryptWith E v none ⟨c, h⟩ iv

/-- crypto_engine.c:112 `wickr_kdf_meta_serialize` of the parameters of a result. -/
def hKdfResMeta (kr : Ptr) : H Ptr := do
  let m ← field kr 0
  hKdfMetaSerialize m

/-- `wickr_buffer_concat` (buffer.c:99-124) of two buffers in memory. -/
def hConcatPtr (p q : Ptr) : H Ptr := do
  let x ← readOpt p
  let y ← readOpt q
  hConcat x y

/-- crypto_engine.c:101-102: a cipher result is serialized and released. -/
def hCResSeal (cr : Ptr) : H Ptr := do
  let s ← hCResSerialize cr
  let _ ← hCResDestroy cr
  pure s

/-- crypto_engine.c:109-110: the parameters of a result are serialized and the result is released. -/
def hKdfResSeal (kr : Ptr) : H Ptr := do
  let m ← hKdfResMeta kr
  let _ ← hKdfResDestroy kr
  pure m

/-- crypto_engine.c:117-119: two buffers are joined and released. -/
def hJoin (m s : Ptr) : H Ptr := do
  let r ← hConcatPtr m s
  let _ ← hBufDestroy s
  let _ ← hBufDestroy m
  pure r

/-- crypto_engine.c:73-122 `wickr_crypto_engine_kdf_cipher`. -/
def hKdfCipher (E : Engine) (a : KdfAlgo) (c : Cipher) (value pass : Ptr) (rnd salt iv : Bytes) : H Ptr :=
  match value, pass with
  | some _, some _ =>
    if a.kind ≠ .scrypt ∨ c.isAuth = false ∨ a.outputSize.toNat ≠ c.keyLen then pure none
    else
      onNull (hKdfGen E a pass rnd salt) (pure none) fun kr =>
        onNull (hKdfEncrypt E value kr c iv) (do let _ ← hKdfResDestroy kr; pure none) fun cr =>
          onNull (hCResSeal cr) (do let _ ← hKdfResDestroy kr; pure none) fun s =>
            onNull (hKdfResSeal kr) (do let _ ← hBufDestroy s; pure none) fun m => hJoin m s
  | _, _ => pure none

/-- crypto_engine.c:142-143: a key is derived and the parameters are released. -/
def hKdfOnce (E : Engine) (m pass : Ptr) : H Ptr := do
  let kr ← hKdf E m pass
  let _ ← hKdfMetaDestroy m
  pure kr

/-- crypto_engine.c:159-161: the key is taken out of a result and the result is released. -/
def hCKeyTake (kr : Ptr) (c : Cipher) : H Ptr := do
  let k ← hCKeyFromKdf kr c
  let _ ← hKdfResDestroy kr
  pure k

/-- crypto_engine.c:124-174 `wickr_crypto_engine_kdf_decipher`: without a cipher result (153-155) the key is not released. -/
def hKdfDecipher (E : Engine) (input pass : Ptr) : H Ptr :=
  match input, pass with
  | some _, some _ => do
    let b ← readBuf input
    let size := (kdfMetaSize b).toNat
    if size = 0 ∨ size ≥ b.length then pure none
    else
      onNull (hKdfMetaFromBuffer input) (pure none) fun m =>
        onNull (hKdfOnce E m pass) (pure none) fun kr =>
          onNull (hCResFromBytes (b.drop size)) (pure none) fun cr => do
            let r ← readCRes cr
            onNull (hCKeyTake kr r.cipher) (do let _ ← hCResDestroy cr; pure none) fun k => do
              let d ← hDecrypt E cr none k true
              let _ ← hCResDestroy cr
              let _ ← hCKeyDestroy k
              pure d
  | _, _ => pure none

/-! ### ecdh_cipher_ctx.c -/

/-- ecdh_cipher_ctx.c:26-42 `wickr_ecdh_cipher_ctx_create`; `pub`, `pri` are the encodings of the random key. -/
def hEcdhNew (cv : Curve) (c : Cipher) (pub pri : Bytes) : H Ptr :=
  onNull (hRandKey cv pub pri) (pure none) fun k =>
    onNull (hEcdhCreate k c) (do let _ ← hKeyDestroy k; pure none) fun r => pure r

/-- Parameters with the output size of a cipher (ecdh_cipher_ctx.c:91-99). -/
def KdfMeta.sized (m : KdfMeta) (c : Cipher) : KdfMeta :=
  if m.algo.outputSize.toNat ≠ c.keyLen then { m with algo := { m.algo with outputSize := UInt8.ofNat c.keyLen } } else m

/-- ecdh_cipher_ctx.c:116: a copy of the hash of a result. -/
def hKdfResHash (kr : Ptr) : H Ptr := do
  let q ← field kr 1
  hBufCopy q

/-- The derivation at ecdh_cipher_ctx.c:101-118: the key of the other side and the secret do not outlive it. -/
def hEcdhDerive (E : Engine) (own peer : Ptr) (m : KdfMeta) : H Ptr :=
  onNull (hSecret E own peer) (pure none) fun z => do
    let b ← readBuf z
    onNull (hKdfWith E m b) (do let _ ← hBufDestroyZero z; pure none) fun kr => do
      let k ← hKdfResHash kr
      let _ ← hKdfResDestroy kr
      let _ ← hBufDestroyZero z
      pure k

/-- ecdh_cipher_ctx.c:77-133 `__wickr_ecdh_cipher_ctx_gen_cipher_key`. -/
def hEcdhKey (E : Engine) (p peer params : Ptr) : H Ptr :=
  match p, peer, params with
  | some _, some _, some _ => do
    let m ← readKdfMeta params
    if m.algo.kind ≠ .hkdf then pure none
    else do
      let .cipher c ← scal p | undefined
      let own ← field p 0
      onNull (hEcdhDerive E own peer (m.sized c)) (pure none) fun k =>
        onNull (hCKeyCreate c k) (do let _ ← hBufDestroyZero k; pure none) fun r => pure r
  | _, _, _ => pure none

/-- ecdh_cipher_ctx.c:135-156 `wickr_ecdh_cipher_ctx_cipher`. -/
def hEcdhCipher (E : Engine) (p pt peer params : Ptr) (iv : Bytes) : H Ptr :=
  match p, pt, peer, params with
  | some _, some _, some _, some _ =>
    onNull (hEcdhKey E p peer params) (pure none) fun k => do
      let r ← hEncrypt E pt none k iv
      let _ ← hCKeyDestroy k
      pure r
  | _, _, _, _ => pure none

/-- ecdh_cipher_ctx.c:158-184 `wickr_ecdh_cipher_ctx_decipher`. -/
def hEcdhDecipher (E : Engine) (p ct peer params : Ptr) : H Ptr :=
  match p, ct, peer, params with
  | some _, some _, some _, some _ => do
    let .cipher c ← scal p | undefined
    let .cipher d ← scal ct | undefined
    if d.id ≠ c.id then pure none
    else
      onNull (hEcdhKey E p peer params) (pure none) fun k => do
        let r ← hDecrypt E ct none k false
        let _ ← hCKeyDestroy k
        pure r
  | _, _, _, _ => pure none

/-! ### root_keys.c, devinfo.c -/

/-- root_keys.c:30-66 `wickr_root_keys_generate`.  Line 53 tests the wrong pointer; a missing key is refused by
`wickr_root_keys_create`. -/
def hRootGenerate (node rem : CipherKey) (cv : Curve) (pub pri : Bytes) : H Ptr :=
  onNull (hRandCKey node) (pure none) fun n =>
    onNull (hRandCKey rem) (do let _ ← hCKeyDestroy n; pure none) fun r => do
      let s ← hRandKey cv pub pri
      onNull (hRootCreate s n r)
        (do
          let _ ← hCKeyDestroy n
          let _ ← hCKeyDestroy r
          let _ ← hKeyDestroy s
          pure none)
        fun k => pure k

/-- root_keys.c:198-235 `wickr_root_keys_localize`. -/
def hRootLocalize (E : Engine) (p dev : Ptr) : H Ptr :=
  match p, dev with
  | some _, some _ => do
    let s ← field p 2
    onNull (hCKeyCopy s) (pure none) fun r => do
      let n ← field p 1
      let .cipher c ← scal n | undefined
      let q ← field n 0
      let salt ← field dev 1
      onNull (hDigest E q salt .sha256) (do let _ ← hCKeyDestroy r; pure none) fun h =>
        onNull (hCKeyCreate c h)
          (do
            let _ ← hCKeyDestroy r
            let _ ← hBufDestroyZero h
            pure none)
          fun l =>
            onNull (hStorageCreate l r)
              (do
                let _ ← hCKeyDestroy r
                let _ ← hCKeyDestroy l
                pure none)
              fun k => pure k
  | _, _ => pure none

/-- A protobuf message is packed into a new buffer of its size, as in root_keys.c:160-171. -/
def hPack (m : List Field) : H Ptr :=
  match protoPack m with
  | none => pure none
  | some b => hOut b

/-- root_keys.c:126-178 `wickr_root_keys_serialize`; a missing private key is dereferenced (131).  The protobuf structure is on the
stack. -/
def hRootSerialize (p : Ptr) : H Ptr := do
  let k ← field p 0
  let q ← field k 1
  let s ← readBuf q
  let n ← field p 1
  onNull (hCKeySerialize n) (pure none) fun ns => do
    let r ← field p 2
    onNull (hCKeySerialize r) (do let _ ← hBufDestroyZero ns; pure none) fun rs => do
      let x ← readBuf ns
      let y ← readBuf rs
      let o ← hPack (PRootKeys.pack ⟨1, some x, some y, some s⟩)
      let _ ← hBufDestroyZero rs
      let _ ← hBufDestroyZero ns
      pure o

/-- root_keys.c:180-196 `wickr_root_keys_export`. -/
def hRootExport (E : Engine) (p key : Ptr) (iv : Bytes) : H Ptr :=
  match p, key with
  | some _, some _ =>
    onNull (hRootSerialize p) (pure none) fun s => do
      let r ← hEncrypt E s none key iv
      let _ ← hBufDestroyZero s
      pure r
  | _, _ => pure none

/-- root_keys.c:68-124 `wickr_root_keys_create_from_buffer`.  Line 99 tests the wrong pointer; a missing key is refused by
`wickr_root_keys_create`. -/
def hRootFromBuffer (E : Engine) (p : Ptr) : H Ptr :=
  match p with
  | none => pure none
  | some _ => do
    let b ← readBuf p
    match (fieldsDec b).bind PRootKeys.unpack with
    | none => pure none
    | some k =>
      onNull (hUnpack k.parts) (pure none) fun x =>
        match k.nodeStorageRoot, k.remoteStorageRoot with
        | some _, some _ =>
          if k.version > 1 then do
            let _ ← hFreeUnpacked x
            pure none
          else do
            let n ← hPart x 0
            onNull (hCKeyFromBytes n) (do let _ ← hFreeUnpacked x; pure none) fun nk => do
              let r ← hPart x 1
              let rk ← hCKeyFromBytes r
              let sb ← hPart x 2
              onNull (hImportBytes E sb true)
                (do
                  let _ ← hCKeyDestroy rk
                  let _ ← hCKeyDestroy nk
                  let _ ← hFreeUnpacked x
                  pure none)
                fun s => do
                  let o ← hRootCreate s nk rk
                  let _ ← hFreeUnpacked x
                  match o with
                  | none => do
                    let _ ← hCKeyDestroy rk
                    let _ ← hCKeyDestroy nk
                    let _ ← hKeyDestroy s
                    pure none
                  | some _ => pure o
        | _, _ => do
          let _ ← hFreeUnpacked x
          pure none

/-- devinfo.c:83-84: the second half of a digest is copied and the digest is released. -/
def hDevRest (d : Ptr) : H Ptr := do
  let s ← hBufSection d 32 32
  let _ ← hBufDestroy d
  pure s

/-- devinfo.c:50-101 `wickr_dev_info_derive`: takes over `salt` only when it succeeds. -/
def hDevDerive (E : Engine) (salt sid : Ptr) : H Ptr :=
  match salt, sid with
  | some _, some _ =>
    onNull (hDigest E sid none .sha256) (pure none) fun sys =>
      onNull (hDigest E sid salt .sha512) (do let _ ← hBufDestroy sys; pure none) fun d =>
        onNull (hBufSection d 0 32)
          (do
            let _ ← hBufDestroy sys
            let _ ← hBufDestroy d
            pure none)
          fun m =>
            onNull (hDevRest d)
              (do
                let _ ← hBufDestroy sys
                let _ ← hBufDestroy m
                pure none)
              fun s =>
                onNull (hDevCreate salt sys m s)
                  (do
                    let _ ← hBufDestroy sys
                    let _ ← hBufDestroy m
                    let _ ← hBufDestroy s
                    pure none)
                  fun r => pure r
  | _, _ => pure none

/-- devinfo.c:25-48 `wickr_dev_info_create_new`; `salt` are the 64 random bytes. -/
def hDevNew (E : Engine) (sid : Ptr) (salt : Bytes) : H Ptr :=
  match sid with
  | none => pure none
  | some _ =>
    onNull (hRandom salt) (pure none) fun s =>
      onNull (hDevDerive E s sid) (do let _ ← hBufDestroy s; pure none) fun r => pure r

end Wickr
