import Verif.Model.Engine
/-
Model of ecdh_cipher_ctx.c.
-/
namespace Wickr

/-- ecdh_cipher_ctx.h `wickr_ecdh_cipher_ctx_t` without the engine.  `create` (ecdh_cipher_ctx.c:26-42)
and `create_key` (5-24) only fill in the fields, the former with a random key. -/
structure EcdhCtx where
  cipher : Cipher
  key : EcKey
deriving Repr, DecidableEq

/-- ecdh_cipher_ctx.c:44-64 `wickr_ecdh_cipher_ctx_copy`. -/
def ecdhCopy (c : EcdhCtx) : Option EcdhCtx := (ecKeyCopy c.key).map fun k => ⟨c.cipher, k⟩

/-- ecdh_cipher_ctx.c:77-133 `__wickr_ecdh_cipher_ctx_gen_cipher_key`.  The KDF is called directly
(line 109), not through the engine table; for the default engine both are the same function. -/
def ecdhCipherKey (E : Engine) (c : EcdhCtx) (peer : EcKey) (m : KdfMeta) : Option CipherKey :=
  if m.algo.kind ≠ .hkdf then none
  else
    let m := if m.algo.outputSize.toNat ≠ c.cipher.keyLen then
        { m with algo := { m.algo with outputSize := UInt8.ofNat c.cipher.keyLen } } else m
    (E.sharedSecret c.key peer).bind fun z => (E.kdf m z).bind fun h =>
      (dup h).bind (cipherKeyCreate c.cipher)

/-- ecdh_cipher_ctx.c:135-156 `wickr_ecdh_cipher_ctx_cipher`; `iv` is the random IV. -/
def ecdhCipher (E : Engine) (c : EcdhCtx) (pt : Bytes) (peer : EcKey) (m : KdfMeta) (iv : Bytes) :
    Option CipherResult :=
  (ecdhCipherKey E c peer m).bind fun k => E.encrypt pt none k iv

/-- ecdh_cipher_ctx.c:158-184 `wickr_ecdh_cipher_ctx_decipher`. -/
def ecdhDecipher (E : Engine) (c : EcdhCtx) (r : CipherResult) (peer : EcKey) (m : KdfMeta) : Option Bytes :=
  if r.cipher.id ≠ c.cipher.id then none
  else (ecdhCipherKey E c peer m).bind fun k => E.decrypt r none k false

end Wickr
