import Verif.Model.Engine
/-
Model of the passphrase encryption of crypto_engine.c.
-/
namespace Wickr

/-- crypto_engine.c:73-122 `wickr_crypto_engine_kdf_cipher` (non-NULL arguments).  `salt` is what
`wickr_perform_kdf` (kdf.c:426-447) draws, `iv` the random IV. -/
def kdfCipher (E : Engine) (a : KdfAlgo) (c : Cipher) (value pass salt iv : Bytes) : Option Bytes :=
  if a.kind ≠ .scrypt ∨ c.isAuth = false ∨ a.outputSize.toNat ≠ c.keyLen then none
  else
    let m : KdfMeta := ⟨a, some salt, none⟩
    (E.kdf m pass).bind fun h => (E.encrypt value none ⟨c, h⟩ iv).bind fun r =>
      (cipherResultSerialize r).bind fun s => (kdfMetaSerialize m).bind fun mb => concat2 (some mb) (some s)

/-- crypto_engine.c:48-71 `__wickr_cipher_key_from_kdf`. -/
def cipherKeyFromKdf (h : Bytes) (c : Cipher) : Option CipherKey :=
  if h.length ≠ c.keyLen then none else (dup h).bind (cipherKeyCreate c)

/-- crypto_engine.c:124-174 `wickr_crypto_engine_kdf_decipher` (non-NULL arguments).  The cipher text
is read in place at 149-151, after `kdf_meta_size < length` was tested. -/
def kdfDecipher (E : Engine) (input pass : Bytes) : Option Bytes :=
  let size := (kdfMetaSize input).toNat
  if size = 0 ∨ size ≥ input.length then none
  else (kdfMetaFromBuffer input).bind fun m => (E.kdf m pass).bind fun h =>
    (cipherResultFromBuffer (input.drop size)).bind fun r =>
      (cipherKeyFromKdf h r.cipher).bind fun k => E.decrypt r none k true

end Wickr
