import Verif.Model.Engine
import Verif.Spec.Wire
/-
What theorems assume of a crypto engine: functional correctness only (decrypting gives back what was
encrypted, own signatures verify, Diffie-Hellman commutes, outputs have the documented size).
Security assumptions (unforgeability, collision resistance) are never part of this; where a theorem
needs one it is a separate hypothesis of that theorem.
-/
namespace Wickr

/-- A key pair the engine itself can produce: it round-trips through the engine's import of its
private and of its public encoding. -/
structure Engine.KeyPair (E : Engine) (k : EcKey) : Prop where
  pri : ∃ p, k.pri = some p ∧ E.ecImport p true = some k ∧ 0 < p.length ∧ p.length ≤ 1024
  pub : E.ecImport k.pub false = some { k with pri := none }
  pubLen : 0 < k.pub.length ∧ k.pub.length ≤ k.curve.maxPub

/-- The functional laws. -/
structure Engine.Lawful (E : Engine) : Prop where
  /-- Encryption succeeds on every buffer that leaves room for the cipher's block, and decryption
  under the same key and AAD inverts it. -/
  enc_dec : ∀ (pt : Bytes) (aad : Option Bytes) (k : CipherKey) (iv : Bytes),
    0 < pt.length → pt.length + 1 ≤ maxBuffer → k.key.length = k.cipher.keyLen →
    iv.length = k.cipher.ivLen → (aad.isSome → k.cipher.isAuth = true) →
    ∃ r ct, E.encrypt pt aad k iv = some r ∧ r.cipher = k.cipher ∧ r.iv = iv ∧
      Spec.WfCipherResult r ∧ r.ct = some ct ∧ ct.length = pt.length ∧
      ∀ onlyAuth : Bool, (onlyAuth = true → k.cipher.isAuth = true) → E.decrypt r aad k onlyAuth = some pt
  /-- The result of an encryption carries the cipher and the IV it was made with. -/
  enc_out : ∀ (pt : Bytes) (aad : Option Bytes) (k : CipherKey) (iv : Bytes) (r : CipherResult),
    E.encrypt pt aad k iv = some r → r.cipher = k.cipher ∧ r.iv = iv
  /-- Asking for authenticated decryption excludes unauthenticated ciphers. -/
  dec_auth : ∀ (r : CipherResult) (aad : Option Bytes) (k : CipherKey) (pt : Bytes),
    E.decrypt r aad k true = some pt → r.cipher.isAuth = true
  dec_cipher : ∀ (r : CipherResult) (aad : Option Bytes) (k : CipherKey) (b : Bool) (pt : Bytes),
    E.decrypt r aad k b = some pt → r.cipher = k.cipher
  digest_len : ∀ (b : Bytes) (s : Option Bytes) (d : Digest),
    ∃ h, E.digest b s d = some h ∧ h.length = d.size
  hmac_len : ∀ (b k : Bytes) (d : Digest), ∃ h, E.hmac b k d = some h ∧ h.length = d.size
  import_len : ∀ (b : Bytes) (p : Bool) (k : EcKey), E.ecImport b p = some k →
    0 < k.pub.length ∧ k.pub.length ≤ k.curve.maxPub ∧ k.pri.isSome = p
  sign_verify : ∀ (k : EcKey) (data : Bytes) (d : Digest) (nonce : Bytes), E.KeyPair k →
    ∃ s, E.sign k data d nonce = some s ∧ s.curve = k.curve ∧ s.digest = d ∧
      0 < s.sig.length ∧ s.sig.length + 2 ≤ k.curve.sigSize ∧
      ∀ k' : EcKey, k'.pub = k.pub → E.verify s k' data = true
  /-- Only the public half matters to verification. -/
  verify_pub : ∀ (s : EcdsaResult) (k k' : EcKey) (data : Bytes), k'.pub = k.pub →
    E.verify s k' data = E.verify s k data
  dh_comm : ∀ (a b a' b' : EcKey), E.KeyPair a → E.KeyPair b → a'.pub = a.pub → b'.pub = b.pub →
    ∃ s, 0 < s.length ∧ s.length ≤ 1024 ∧ E.sharedSecret a b' = some s ∧ E.sharedSecret b a' = some s
  /-- HKDF gives the requested number of bytes; OpenSSL limits the info to 1024 bytes. -/
  hkdf_len : ∀ (d : Digest) (n : UInt8) (salt info : Option Bytes) (pass : Bytes), 0 < n.toNat →
    0 < pass.length → pass.length ≤ 1024 → (∀ i, info = some i → 0 < i.length ∧ i.length ≤ 1024) →
    (∀ s, salt = some s → 0 < s.length ∧ s.length ≤ maxBuffer) → (salt.isSome ∨ info.isSome) →
    ∃ h, E.kdf ⟨{ hkdfAlgoForDigest d with outputSize := n }, salt, info⟩ pass = some h ∧ h.length = n.toNat
  hkdf_expand_len : ∀ (n : UInt8) (info pass : Bytes), 0 < n.toNat → 0 < pass.length →
    pass.length ≤ 1024 → 0 < info.length → info.length ≤ 1024 →
    ∃ h, E.kdf ⟨{ hkdfSha512Expand with outputSize := n }, none, some info⟩ pass = some h ∧
      h.length = n.toNat
  scrypt_len : ∀ (a : KdfAlgo) (salt pass : Bytes), a ∈ [scrypt17, scrypt18, scrypt19, scrypt20] →
    salt.length = a.saltSize.toNat → 0 < pass.length → pass.length ≤ maxBuffer →
    ∃ h, E.kdf ⟨a, some salt, none⟩ pass = some h ∧ h.length = a.outputSize.toNat
  kdf_salt : ∀ (m : KdfMeta) (pass h : Bytes), E.kdf m pass = some h → m.algo.kind ≠ .hkdf →
    ∃ s, m.salt = some s ∧ s.length = m.algo.saltSize.toNat

end Wickr
