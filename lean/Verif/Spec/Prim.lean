import Verif.Model.OpenSsl
/-
What is assumed of the raw primitives: functional correctness of AES-GCM, AES-CTR, SHA-2, HMAC,
HKDF, scrypt, ECDSA, ECDH and of OpenSSL's key encodings.
-/
namespace Wickr

structure Prim.Lawful (P : Prim) : Prop where
  gcm_open : ∀ (key iv : Bytes) (aad : Option Bytes) (pt : Bytes),
    P.gcmOpen key iv aad (P.gcm key iv aad pt).1 (P.gcm key iv aad pt).2 = some pt
  gcm_len : ∀ (key iv : Bytes) (aad : Option Bytes) (pt : Bytes),
    (P.gcm key iv aad pt).1.length = pt.length ∧ (P.gcm key iv aad pt).2.length = 16
  ctr_inv : ∀ key iv d : Bytes, P.ctr key iv (P.ctr key iv d) = d
  ctr_len : ∀ key iv d : Bytes, (P.ctr key iv d).length = d.length
  sha_len : ∀ (d : Digest) (b : Bytes), (P.sha d b).length = d.size
  hmac_len : ∀ (d : Digest) (k b : Bytes), (P.hmac d k b).length = d.size
  hkdf_len : ∀ (d : Digest) (ikm : Bytes) (salt info : Option Bytes) (n : Nat), 0 < n → n ≤ 255 →
    ∃ h, P.hkdf d ikm salt info n = some h ∧ h.length = n
  hkdf_expand_len : ∀ (d : Digest) (prk : Bytes) (info : Option Bytes) (n : Nat), 0 < n → n ≤ 255 →
    ∃ h, P.hkdfExpand d prk info n = some h ∧ h.length = n
  scrypt_len : ∀ (pass salt : Bytes) (n r p len : Nat), 0 < len → 
    ∃ h, P.scrypt pass salt n r p len = some h ∧ h.length = len
  o2i_i2o : ∀ p : P.Pub, P.o2i (P.i2o p) = some p
  i2o_len : ∀ p : P.Pub, 0 < (P.i2o p).length ∧ (P.i2o p).length ≤ 133
  d2i_i2d : ∀ s : P.Pri, P.d2i (P.i2d s) = some s
  i2d_len : ∀ s : P.Pri, 0 < (P.i2d s).length ∧ (P.i2d s).length ≤ 1024
  sign_verify : ∀ (s : P.Pri) (d : Digest) (data nonce : Bytes), ∃ sig,
    P.ecdsaSign s d data nonce = some sig ∧ 0 < sig.length ∧ sig.length ≤ 141 ∧
    P.ecdsaVerify (P.pubOf s) d data sig = true
  ecdh_comm : ∀ a b : P.Pri, ∃ s, P.ecdh a (P.pubOf b) = some s ∧ P.ecdh b (P.pubOf a) = some s ∧
    0 < s.length ∧ s.length ≤ 1024

end Wickr
