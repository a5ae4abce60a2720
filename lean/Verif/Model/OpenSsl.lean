import Verif.Model.Engine
/-
Model of openssl_suite.c (and the hash functions of kdf.c): the checks and plumbing around the raw
primitives of OpenSSL, libscrypt and crypt_blowfish, which are parameters.

File encryption is in `Model/FileCrypt.lean`.
-/
namespace Wickr

/-- The raw primitives, as deterministic functions of their inputs (nonces are arguments).
Allocation failure inside OpenSSL is not modelled. -/
structure Prim where
  /-- AES-256-GCM sealing: cipher text and 16-byte tag. -/
  gcm : (key iv : Bytes) → (aad : Option Bytes) → (pt : Bytes) → Bytes × Bytes
  /-- AES-256-GCM opening; `none` when the tag does not verify. -/
  gcmOpen : (key iv : Bytes) → (aad : Option Bytes) → (ct tag : Bytes) → Option Bytes
  /-- AES-256-CTR, its own inverse. -/
  ctr : (key iv data : Bytes) → Bytes
  sha : Digest → Bytes → Bytes
  hmac : Digest → (key data : Bytes) → Bytes
  hkdf : Digest → (ikm : Bytes) → (salt info : Option Bytes) → (outLen : Nat) → Option Bytes
  hkdfExpand : Digest → (prk : Bytes) → (info : Option Bytes) → (outLen : Nat) → Option Bytes
  scrypt : (pass salt : Bytes) → (n r p outLen : Nat) → Option Bytes
  bcrypt : (pass salt : Bytes) → Option Bytes
  /-- Points of P-521, their octet encoding, and the point at infinity. -/
  Pub : Type
  o2i : Bytes → Option Pub
  i2o : Pub → Bytes
  isInf : Pub → Bool
  /-- Private keys (with their public point and curve) and their DER encoding. -/
  Pri : Type
  d2i : Bytes → Option Pri
  i2d : Pri → Bytes
  isP521 : Pri → Bool
  pubOf : Pri → Pub
  ecdsaSign : Pri → Digest → (data nonce : Bytes) → Option Bytes
  ecdsaVerify : Pub → Digest → (data sig : Bytes) → Bool
  ecdh : Pri → Pub → Option Bytes

/-- `INT_MAX` -/
def intMax : Nat := 2147483647

/-- openssl_suite.c:388-498 `openssl_aes256_encrypt` for non-NULL plaintext and key.  `iv` is the
supplied IV, or the random one of length `iv_len` of line 413 when the caller passes NULL.
EVP_EncryptInit_ex reads `iv_len` bytes of it (line 442), which is undefined for a shorter buffer;
a longer one is accepted here and refused by `wickr_cipher_result_create` (line 482).  GCM and CTR
have block size 1 (line 416). -/
def aesEncrypt (P : Prim) (pt : Bytes) (aad : Option Bytes) (key : CipherKey) (iv : Bytes) :
    Res CipherResult :=
  if aad.isSome && !key.cipher.isAuth then .null
  else if key.key.length ≠ key.cipher.keyLen ∨ pt.length > intMax then .null
  else match dup iv with
    | none => .null
    | some ivf =>
      if ¬ (0 < pt.length + 1 ∧ pt.length + 1 ≤ maxBuffer) then .null
      else if ivf.length < key.cipher.ivLen then .ub
      else
        let iv' := ivf.take key.cipher.ivLen
        match key.cipher with
        | .gcm =>
          let r := P.gcm key.key iv' aad pt
          Res.ofOption (cipherResultCreate .gcm ivf (some r.1) (some r.2))
        | .ctr => Res.ofOption (cipherResultCreate .ctr ivf (some (P.ctr key.key iv' pt)) none)

/-- openssl_suite.c:528: a tag is present and has the cipher's tag length. -/
def tagLenOk (r : CipherResult) : Bool :=
  match r.tag with
  | none => false
  | some t => t.length == r.cipher.tagLen

/-- openssl_suite.c:500-605 `openssl_aes256_decrypt` for non-NULL result and key.  Lines 556 reads
`key_len` bytes of the key and `iv_len` bytes of the IV without checking the lengths. -/
def aesDecrypt (P : Prim) (r : CipherResult) (aad : Option Bytes) (key : CipherKey)
    (onlyAuth : Bool) : Res Bytes :=
  match r.ct with
  | none => .null
  | some ct =>
    if onlyAuth && !r.cipher.isAuth then .null
    else if aad.isSome && !r.cipher.isAuth then .null
    else if key.cipher.id ≠ r.cipher.id ∨ ct.length > intMax then .null
    else if r.cipher.isAuth && !tagLenOk r then .null
    else if ¬ ValidBuf ct then .null
    else if key.key.length < r.cipher.keyLen ∨ r.iv.length < r.cipher.ivLen then .ub
    else
      let k := key.key.take r.cipher.keyLen
      let iv := r.iv.take r.cipher.ivLen
      match r.cipher, r.tag with
      | .gcm, some t => Res.ofOption (P.gcmOpen k iv aad ct t)
      | .gcm, none => .null
      | .ctr, _ => .ok (P.ctr k iv ct)

/-- openssl_suite.c:623-665 `openssl_sha2`: buffer, then salt. -/
def sha2 (P : Prim) (buffer : Bytes) (salt : Option Bytes) (d : Digest) : Option Bytes :=
  some (P.sha d (buffer ++ optBytes salt))

/-- openssl_suite.c:178-212 `__openssl_evp_public_key_from_buffer`. -/
def evpPublic (P : Prim) (b : Bytes) : Option P.Pub :=
  if b.length ≤ 1 then none
  else match b with
    | [] => none
    | c :: rest => match Curve.find c with
      | none => none
      | some _ => P.o2i rest

/-- openssl_suite.c:129-153 `__openssl_ec_pub_key_to_buffer`. -/
def pubToBuffer (P : Prim) (c : Curve) (p : P.Pub) : Option Bytes := dup (c.id :: P.i2o p)

/-- openssl_suite.c:155-171 `__openssl_ec_pri_key_to_buffer`. -/
def priToBuffer (P : Prim) (s : P.Pri) : Option Bytes := dup (P.i2d s)

/-- openssl_suite.c:807-893 `openssl_ec_key_import` (the buffer may be an empty stack buffer). -/
def ecKeyImport (P : Prim) (b : Bytes) (isPrivate : Bool) : Option EcKey :=
  if isPrivate then
    match P.d2i b with
    | none => none
    | some s =>
      if P.isInf (P.pubOf s) then none
      else if !P.isP521 s then none
      else (pubToBuffer P .p521 (P.pubOf s)).bind fun pub =>
        (priToBuffer P s).map fun pri => ⟨.p521, pub, some pri⟩
  else
    match evpPublic P b with
    | none => none
    | some p =>
      if P.isInf p then none
      else (pubToBuffer P .p521 p).map fun pub => ⟨.p521, pub, none⟩

/-- openssl_suite.c:723-773 `openssl_ec_rand_key`: the encodings of a random private key. -/
def ecRandKey (P : Prim) (s : P.Pri) : Option EcKey :=
  (pubToBuffer P .p521 (P.pubOf s)).bind fun pub =>
    (priToBuffer P s).map fun pri => ⟨.p521, pub, some pri⟩

/-- openssl_suite.c:895-915 `openssl_ec_sign`. -/
def ecSign (P : Prim) (k : EcKey) (data : Bytes) (d : Digest) (nonce : Bytes) : Option EcdsaResult :=
  match k.pri with
  | none => none
  | some pri => match P.d2i pri with
    | none => none
    | some s => (P.ecdsaSign s d data nonce).map fun sig => ⟨k.curve, d, sig⟩

/-- openssl_suite.c:917-940 `openssl_ec_verify` for a non-NULL signature. -/
def ecVerify (P : Prim) (s : EcdsaResult) (k : EcKey) (data : Bytes) : Bool :=
  match evpPublic P k.pub with
  | none => false
  | some p => P.ecdsaVerify p s.digest data s.sig

/-- openssl_suite.c:1088-1171 `openssl_gen_shared_secret`. -/
def genSharedSecret (P : Prim) (own peer : EcKey) : Option Bytes :=
  match own.pri with
  | none => none
  | some pri => match P.d2i pri with
    | none => none
    | some s => match evpPublic P peer.pub with
      | none => none
      | some p => P.ecdh s p

/-- openssl_suite.c:1174-1205 `openssl_hmac_create`. -/
def hmacCreate (P : Prim) (data key : Bytes) (d : Digest) : Option Bytes :=
  let h := P.hmac d key data
  if h.length ≠ d.size then none else some h

/-- openssl_suite.c:1207-1222 `openssl_hmac_verify` (the comparison is constant time in C). -/
def hmacVerify (P : Prim) (data key : Bytes) (d : Digest) (expected : Option Bytes) : Bool :=
  match expected, hmacCreate P data key d with
  | some e, some h => bufIsEqual (some h) (some e) none
  | _, _ => false

/-- openssl_suite.c:1583-1697 `__openssl_hkdf_internal`, the checks; `run` is the derivation. -/
def hkdfChecks (ikm : Bytes) (salt info : Option Bytes) (outLen : Nat) (run : Option Bytes) :
    Option Bytes :=
  if (optBytes info).length > 1024 then none
  else if (optBytes salt).length > intMax then none
  else if ikm.length > intMax then none
  else if ¬ (0 < outLen ∧ outLen ≤ maxBuffer) then none
  else run

/-- kdf.c:357-393 `__hkdf_generate_hash`. -/
def hkdfHash (P : Prim) (m : KdfMeta) (pass : Bytes) : Option Bytes :=
  let n := m.algo.outputSize.toNat
  if m.algo.kdfId = 6 then hkdfChecks pass m.salt m.info n (P.hkdf .sha256 pass m.salt m.info n)
  else if m.algo.kdfId = 7 then hkdfChecks pass m.salt m.info n (P.hkdf .sha384 pass m.salt m.info n)
  else if m.algo.kdfId = 8 then hkdfChecks pass m.salt m.info n (P.hkdf .sha512 pass m.salt m.info n)
  else if m.algo.kdfId = 9 then hkdfChecks pass none m.info n (P.hkdfExpand .sha512 pass m.info n)
  else none

/-- kdf.c:329-355 `__scrypt_generate_hash` (the salt is dereferenced, NULL is not modelled: it maps
to NULL). -/
def scryptHash (P : Prim) (m : KdfMeta) (pass : Bytes) : Option Bytes :=
  match m.salt with
  | none => none
  | some salt =>
    let n := m.algo.outputSize.toNat
    if n = 0 then none
    else P.scrypt pass salt (2 ^ (m.algo.cost.toNat / 65536)) (m.algo.cost.toNat / 256 % 256)
      (m.algo.cost.toNat % 256) n

/-- kdf.c:269-327 `__bcrypt_generate_hash`: header and salt must fit the 64-byte salt buffer, and
crypt_rn reads the pass phrase up to its first NUL byte. -/
def bcryptHash (P : Prim) (m : KdfMeta) (pass : Bytes) : Option Bytes :=
  match m.salt with
  | none => none
  | some salt =>
    if m.algo.kdfId ≠ 5 then none
    else if salt.length = 0 ∨ 7 + salt.length > 64 then none
    else if pass.length = 0 ∨ pass.length + 1 > maxBuffer then none
    else (P.bcrypt (pass.takeWhile (· ≠ 0)) salt).bind dup

/-- kdf.c:408-424 and 449-469 `wickr_perform_kdf_meta`: the hash, provided the parameters can be
copied into the result. -/
def performKdfMeta (P : Prim) (m : KdfMeta) (pass : Bytes) : Option Bytes :=
  (match m.algo.kind with
    | .scrypt => scryptHash P m pass
    | .bcrypt => bcryptHash P m pass
    | .hkdf => hkdfHash P m pass).bind fun h => (kdfMetaCopy m).map fun _ => h

/-- A `Res` seen by a caller that only tests for NULL.  Undefined behaviour is mapped to `none`;
`C52_no_ub` shows that it does not occur for the objects the library builds. -/
def Res.toOption {α : Type} : Res α → Option α
  | .ok a => some a
  | _ => none

/-- crypto_engine.c:8-46 `wickr_crypto_engine_get_default`. -/
def defaultEngine (P : Prim) : Engine where
  encrypt pt aad k iv := (aesEncrypt P pt aad k iv).toOption
  decrypt r aad k b := (aesDecrypt P r aad k b).toOption
  digest := sha2 P
  ecImport := ecKeyImport P
  sign := ecSign P
  verify := ecVerify P
  sharedSecret := genSharedSecret P
  hmac := hmacCreate P
  kdf := performKdfMeta P

end Wickr
