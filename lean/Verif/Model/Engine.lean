import Verif.Model.Cipher
import Verif.Model.Kdf
import Verif.Model.Ecdsa
/-
Model of the crypto engine interface (crypto_engine.h).
-/
namespace Wickr

/-- crypto_engine.h:56-344 `wickr_crypto_engine_t`, a table of function pointers.

Simplifications
* random values (keys, IVs, salts, signature nonces) are arguments of the functions that use them,
  so `crypto_random`, `cipher_key_random`, `ec_rand_key` and `kdf_gen` need no member; `encrypt`
  always gets its IV, a caller passing NULL is modelled with a random `iv` argument;
* NULL arguments are handled where the functions are called;
* `kdf` is `wickr_crypto_kdf_meta`, returning the hash only: the `meta` in the C result is a copy of
  the argument (kdf.c:449-469). -/
structure Engine where
  /-- crypto_engine.h:91 -/
  encrypt : (plaintext : Bytes) → (aad : Option Bytes) → CipherKey → (iv : Bytes) → Option CipherResult
  /-- crypto_engine.h:107 -/
  decrypt : CipherResult → (aad : Option Bytes) → CipherKey → (onlyAuth : Bool) → Option Bytes
  /-- crypto_engine.h:187 -/
  digest : (buffer : Bytes) → (salt : Option Bytes) → Digest → Option Bytes
  /-- crypto_engine.h:222 -/
  ecImport : Bytes → (isPrivate : Bool) → Option EcKey
  /-- crypto_engine.h:236 -/
  sign : EcKey → (data : Bytes) → Digest → (nonce : Bytes) → Option EcdsaResult
  /-- crypto_engine.h:250 -/
  verify : EcdsaResult → EcKey → (data : Bytes) → Bool
  /-- crypto_engine.h:285 -/
  sharedSecret : (own : EcKey) → (peer : EcKey) → Option Bytes
  /-- crypto_engine.h:297 -/
  hmac : (data : Bytes) → (key : Bytes) → Digest → Option Bytes
  /-- crypto_engine.h:340 -/
  kdf : KdfMeta → (passphrase : Bytes) → Option Bytes

/-- crypto_engine.c:20: the default curve. -/
def defaultCurve : Curve := .p521
/-- crypto_engine.c:21: the default cipher. -/
def defaultCipher : Cipher := .gcm

/-- openssl_suite.c:919-921: verification of a NULL signature fails. -/
def Engine.verifyOpt (E : Engine) (s : Option EcdsaResult) (k : EcKey) (data : Bytes) : Bool :=
  match s with
  | none => false
  | some s => E.verify s k data

/-- crypto_engine.c:176-179 `wickr_digest_matching_cipher`. -/
def digestMatchingCipher (_ : Cipher) : Digest := .sha256
/-- crypto_engine.c:181-184 `wickr_digest_matching_curve`. -/
def digestMatchingCurve (_ : Curve) : Digest := .sha512
/-- crypto_engine.c:189-192 `wickr_exchange_cipher_matching_cipher`. -/
def exchangeCipherMatchingCipher (_ : Cipher) : Cipher := .ctr

end Wickr
