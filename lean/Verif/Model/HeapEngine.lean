import Verif.Model.HeapKeys
import Verif.Model.HeapMsg
import Verif.Model.OpenSsl
/-
The functions of the crypto engine on the heap (openssl_suite.c): what they read, what they allocate and what they return.  Their
values are those of the engine `E` of the value model.

Simplifications: OpenSSL's own objects are not modelled, nor are failures of OpenSSL other than those in `E`; a buffer that is
made longer than its final content (cipher texts, signatures) is made with its final length; scratch buffers of a call that fails
inside OpenSSL are not modelled.  Random values are arguments.
-/
namespace Wickr

/-! ### Reading arguments -/

/-- Reading an optional buffer. -/
def readOpt (p : Ptr) : H (Option Bytes) :=
  match p with
  | none => pure none
  | some _ => do
    let b ← readBuf p
    pure (some b)

/-- Reading a key. -/
def readKey (p : Ptr) : H EcKey := do
  let .curve cv ← scal p | undefined
  let q ← field p 0
  let pub ← readBuf q
  let q ← field p 1
  let pri ← readOpt q
  pure ⟨cv, pub, pri⟩

/-- Reading a signature. -/
def readSig (p : Ptr) : H EcdsaResult := do
  let .sig cv d ← scal p | undefined
  let q ← field p 0
  let b ← readBuf q
  pure ⟨cv, d, b⟩

/-- Reading a cipher key. -/
def readCKey (p : Ptr) : H CipherKey := do
  let .cipher c ← scal p | undefined
  let q ← field p 0
  let b ← readBuf q
  pure ⟨c, b⟩

/-- Reading a cipher result. -/
def readCRes (p : Ptr) : H CipherResult := do
  let .cipher c ← scal p | undefined
  let q ← field p 0
  let iv ← readBuf q
  let q ← field p 1
  let ct ← readOpt q
  let q ← field p 2
  let tag ← readOpt q
  pure ⟨c, iv, ct, tag⟩

/-! ### Making results -/

/-- A new buffer that is tested and then written, as in openssl_suite.c:157-170 (whether it was zeroed before makes no
difference); `wickr_buffer_create` (buffer.c:61-76) does the same. -/
def hOut (b : Bytes) : H Ptr :=
  onNull (hBufNew b.length false) (pure none) fun p => do
    let q ← field p 0
    fill q b
    pure p

/-- A new buffer that is written without being tested, as in openssl_suite.c:653-655. -/
def hOutUntested (b : Bytes) : H Ptr := do
  let p ← hBufNew b.length false
  let q ← field p 0
  fill q b
  pure p

/-- openssl_suite.c:354-369 `openssl_crypto_random`; `b` are the random bytes.  The new buffer is not tested. -/
def hRandom (b : Bytes) : H Ptr :=
  if b.length > intMax then pure none
  else hOutUntested b

/-- openssl_suite.c:371-386 `openssl_cipher_key_random`. -/
def hRandCKey (k : CipherKey) : H Ptr :=
  onNull (hRandom k.key) (pure none) fun d =>
    onNull (hCKeyCreate k.cipher d) (do let _ ← hBufDestroyZero d; pure none) fun r => pure r

/-- openssl_suite.c:723-773 `openssl_ec_rand_key`; `pub` and `pri` are the encodings of the random key (129-171). -/
def hRandKey (cv : Curve) (pub pri : Bytes) : H Ptr :=
  onNull (hOut pri) (pure none) fun q =>
    onNull (hOut pub) (do let _ ← hBufDestroyZero q; pure none) fun p =>
      onNull (hKeyCreate cv p q)
        (do
          let _ ← hBufDestroyZero q
          let _ ← hBufDestroy p
          pure none)
        fun r => pure r

/-- openssl_suite.c:807-893 `openssl_ec_key_import` of bytes that have been read. -/
def hImportBytes (E : Engine) (b : Bytes) (isPrivate : Bool) : H Ptr :=
  match E.ecImport b isPrivate with
  | none => pure none
  | some k =>
    onNull (hOut k.pub) (pure none) fun pub =>
      let rest (pri : Ptr) : H Ptr :=
        onNull (hKeyCreate k.curve pub pri)
          (do
            let _ ← hBufDestroyZero pub
            let _ ← hBufDestroyZero pri
            pure none)
          fun r => pure r
      match k.pri with
      | none => rest none
      | some d => onNull (hOut d) (do let _ ← hBufDestroy pub; pure none) rest

/-- openssl_suite.c:807-893 `openssl_ec_key_import`. -/
def hImport (E : Engine) (p : Ptr) (isPrivate : Bool) : H Ptr :=
  match p with
  | none => pure none
  | some _ => do
    let b ← readBuf p
    hImportBytes E b isPrivate

/-- openssl_suite.c:623-665 `openssl_sha2`; the new buffer is not tested. -/
def hDigest (E : Engine) (p salt : Ptr) (d : Digest) : H Ptr :=
  match p with
  | none => pure none
  | some _ => do
    let b ← readBuf p
    let s ← readOpt salt
    match E.digest b s d with
    | none => pure none
    | some h => hOutUntested h

/-- openssl_suite.c:895-915, 303-352 `openssl_ec_sign`. -/
def hSign (E : Engine) (key data : Ptr) (d : Digest) (nonce : Bytes) : H Ptr :=
  match key, data with
  | some _, some _ => do
    let k ← readKey key
    let b ← readBuf data
    match E.sign k b d nonce with
    | none => pure none
    | some s =>
      onNull (hOut s.sig) (pure none) fun q =>
        onNull (hSigCreate s.curve s.digest q) (do let _ ← hBufDestroy q; pure none) fun r => pure r
  | _, _ => pure none

/-- openssl_suite.c:917-940 `openssl_ec_verify`. -/
def hVerify (E : Engine) (sig key data : Ptr) : H Bool :=
  match sig, key, data with
  | some _, some _, some _ => do
    let s ← readSig sig
    let k ← readKey key
    let b ← readBuf data
    pure (E.verify s k b)
  | _, _, _ => pure false

/-- openssl_suite.c:415-497: the rest of `openssl_aes256_encrypt` once the IV has been made: the cipher text, then the tag. -/
def hEncryptRest (r : CipherResult) (ivf : Ptr) : H Ptr := do
  let ct ← (match r.ct with
    | none => pure none
    | some d => hOut d)
  let bad (tag : Ptr) : H Ptr := do
    let _ ← hBufDestroy tag
    let _ ← hBufDestroy ct
    let _ ← hBufDestroy ivf
    pure none
  let rest (tag : Ptr) : H Ptr :=
    match ivf, ct with
    | some _, some _ => hCResCreate r.cipher ivf ct tag
    | _, _ => bad tag
  match r.tag with
  | none => rest none
  | some t => onNull (hOut t) (bad none) rest

/-- openssl_suite.c:388-498 `openssl_aes256_encrypt` with a random IV (`iv`, line 413), after its arguments have been read: the
IV is made first and not tested by `openssl_crypto_random`. -/
def hEncryptWith (E : Engine) (b : Bytes) (a : Option Bytes) (k : CipherKey) (iv : Bytes) : H Ptr :=
  match E.encrypt b a k iv with
  | none => pure none
  | some r => do
    let ivf ← hRandom r.iv
    hEncryptRest r ivf

/-- The same with an IV that the caller has passed (line 413): it is copied. -/
def hEncryptGiven (E : Engine) (b : Bytes) (a : Option Bytes) (k : CipherKey) (iv : Bytes) : H Ptr :=
  match E.encrypt b a k iv with
  | none => pure none
  | some r => do
    let ivf ← hOut r.iv
    hEncryptRest r ivf

/-- `openssl_aes256_encrypt` of objects in memory with an IV in memory. -/
def hEncryptIv (E : Engine) (pt aad key iv : Ptr) : H Ptr :=
  match pt, key with
  | some _, some _ => do
    let b ← readBuf pt
    let a ← readOpt aad
    let k ← readCKey key
    let i ← readBuf iv
    hEncryptGiven E b a k i
  | _, _ => pure none

/-- `openssl_aes256_encrypt` of objects in memory. -/
def hEncrypt (E : Engine) (pt aad key : Ptr) (iv : Bytes) : H Ptr :=
  match pt, key with
  | some _, some _ => do
    let b ← readBuf pt
    let a ← readOpt aad
    let k ← readCKey key
    hEncryptWith E b a k iv
  | _, _ => pure none

/-- openssl_suite.c:500-605 `openssl_aes256_decrypt`. -/
def hDecrypt (E : Engine) (p aad key : Ptr) (onlyAuth : Bool) : H Ptr :=
  match p, key with
  | some _, some _ => do
    let r ← readCRes p
    let a ← readOpt aad
    let k ← readCKey key
    match E.decrypt r a k onlyAuth with
    | none => pure none
    | some b => hOut b
  | _, _ => pure none

/-- openssl_suite.c:1088-1171 `openssl_gen_shared_secret`. -/
def hSecret (E : Engine) (own peer : Ptr) : H Ptr :=
  match own, peer with
  | some _, some _ => do
    let k ← readKey own
    let l ← readKey peer
    match E.sharedSecret k l with
    | none => pure none
    | some z => hOut z
  | _, _ => pure none

/-- openssl_suite.c:1174-1205 `openssl_hmac_create`. -/
def hHmac (E : Engine) (data key : Ptr) (d : Digest) : H Ptr :=
  match data, key with
  | some _, some _ => do
    let b ← readBuf data
    let k ← readBuf key
    match E.hmac b k d with
    | none => pure none
    | some h => hOut h
  | _, _ => pure none

end Wickr
