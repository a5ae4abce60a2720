import Verif.Lemmas.ViewSpecs
import Verif.Lemmas.Refute
import Verif.Props.VerifyMem
/-
C86-C88: functions that make objects out of objects, on the heap.  The result is the value of the value model (C86), nothing is
leaked even when allocations fail (C87), and nothing but public values is released unwiped (C88).
-/
namespace Wickr
open Asrt Spec

variable {E : Engine}

/-- `crypto_engine_crypto_random`: the result is the drawn bytes. -/
theorem C86_random (b : Bytes) (hv : ValidBuf b) :
    Computes (fun _ => True) isBuf (some b) (hRandom b) :=
  Computes.of (random_vs b hv)

theorem C87_random (b : Bytes) (hv : ValidBuf b) :
    Tidy (fun _ => True) isBuf (hRandom b) :=
  Tidy.of (random_vs b hv)

theorem C88_random (b : Bytes) (hv : ValidBuf b) :
    Discreet (fun _ => True) ([]) (hRandom b) :=
  Discreet.of (random_vs b hv) fun _ h => h

/-- `crypto_engine_cipher_key_random`. -/
theorem C86_random_cipher_key (k : CipherKey) (hv : ValidBuf k.key) (hk : k.key.length = k.cipher.keyLen) :
    Computes (fun _ => True) isCKey (some k) (hRandCKey k) :=
  Computes.of (randCKey_vs k hv hk)

theorem C87_random_cipher_key (k : CipherKey) (hv : ValidBuf k.key) (hk : k.key.length = k.cipher.keyLen) :
    Tidy (fun _ => True) isCKey (hRandCKey k) :=
  Tidy.of (randCKey_vs k hv hk)

theorem C88_random_cipher_key (k : CipherKey) (hv : ValidBuf k.key) (hk : k.key.length = k.cipher.keyLen) :
    Discreet (fun _ => True) ([]) (hRandCKey k) :=
  Discreet.of (randCKey_vs k hv hk) fun _ h => h

/-- `crypto_engine_ec_rand_key`. -/
theorem C86_random_key (cv : Curve) (pub pri : Bytes) (hv : ValidBuf pub) (hv' : ValidBuf pri) :
    Computes (fun _ => True) isKey (some ⟨cv, pub, some pri⟩) (hRandKey cv pub pri) :=
  Computes.of (randKey_vs cv pub pri hv hv')

theorem C87_random_key (cv : Curve) (pub pri : Bytes) (hv : ValidBuf pub) (hv' : ValidBuf pri) :
    Tidy (fun _ => True) isKey (hRandKey cv pub pri) :=
  Tidy.of (randKey_vs cv pub pri hv hv')

theorem C88_random_key (cv : Curve) (pub pri : Bytes) (hv : ValidBuf pub) (hv' : ValidBuf pri) :
    Discreet (fun _ => True) ([]) (hRandKey cv pub pri) :=
  Discreet.of (randKey_vs cv pub pri hv hv') fun _ h => h

/-- `crypto_engine_ec_key_import`. -/
theorem C86_import (hE : E.Fits) (a : Addr) (b : Bytes) (pr : Bool) :
    Computes (fun h => Has isBuf h a b) isKey (E.ecImport b pr) (hImport E (some a) pr) :=
  Computes.of (import_vs hE a b pr)

theorem C87_import (hE : E.Fits) (a : Addr) (b : Bytes) (pr : Bool) :
    Tidy (fun h => Has isBuf h a b) isKey (hImport E (some a) pr) :=
  Tidy.of (import_vs hE a b pr)

theorem C88_import (hE : E.Fits) (a : Addr) (b : Bytes) (pr : Bool) :
    Discreet (fun h => Has isBuf h a b) (importPubs E b pr) (hImport E (some a) pr) :=
  Discreet.of (import_vs hE a b pr) fun _ h => h

/-- `crypto_engine_digest`. -/
theorem C86_digest (hE : E.Fits) (a : Addr) (p : Ptr) (b : Bytes) (s : Option Bytes) (d : Digest) :
    Computes (fun h => Has isBuf h a b ∧ HasOpt isBuf h p s) isBuf (E.digest b s d) (hDigest E (some a) p d) :=
  Computes.of (digest_vs hE a p b s d)

theorem C87_digest (hE : E.Fits) (a : Addr) (p : Ptr) (b : Bytes) (s : Option Bytes) (d : Digest) :
    Tidy (fun h => Has isBuf h a b ∧ HasOpt isBuf h p s) isBuf (hDigest E (some a) p d) :=
  Tidy.of (digest_vs hE a p b s d)

theorem C88_digest (hE : E.Fits) (a : Addr) (p : Ptr) (b : Bytes) (s : Option Bytes) (d : Digest) :
    Discreet (fun h => Has isBuf h a b ∧ HasOpt isBuf h p s) ([]) (hDigest E (some a) p d) :=
  Discreet.of (digest_vs hE a p b s d) fun _ h => h

/-- `crypto_engine_ec_sign`. -/
theorem C86_sign (hE : E.Fits) (a p : Addr) (k : EcKey) (b : Bytes) (d : Digest) (n : Bytes) :
    Computes (fun h => Has isKey h a k ∧ Has isBuf h p b) isSig (E.sign k b d n) (hSign E (some a) (some p) d n) :=
  Computes.of (sign_vs hE a p k b d n)

theorem C87_sign (hE : E.Fits) (a p : Addr) (k : EcKey) (b : Bytes) (d : Digest) (n : Bytes) :
    Tidy (fun h => Has isKey h a k ∧ Has isBuf h p b) isSig (hSign E (some a) (some p) d n) :=
  Tidy.of (sign_vs hE a p k b d n)

theorem C88_sign (hE : E.Fits) (a p : Addr) (k : EcKey) (b : Bytes) (d : Digest) (n : Bytes) :
    Discreet (fun h => Has isKey h a k ∧ Has isBuf h p b) ([]) (hSign E (some a) (some p) d n) :=
  Discreet.of (sign_vs hE a p k b d n) fun _ h => h

/-- `crypto_engine_cipher_encrypt`. -/
theorem C86_encrypt (hE : E.Fits) (a p : Addr) (q : Ptr) (b : Bytes) (aad : Option Bytes) (k : CipherKey) (iv : Bytes) :
    Computes (fun h => Has isBuf h a b ∧ HasOpt isBuf h q aad ∧ Has isCKey h p k) isCRes (E.encrypt b aad k iv) (hEncrypt E (some a) q (some p) iv) :=
  Computes.of (encrypt_vs hE a p q b aad k iv)

theorem C87_encrypt (hE : E.Fits) (a p : Addr) (q : Ptr) (b : Bytes) (aad : Option Bytes) (k : CipherKey) (iv : Bytes) :
    Tidy (fun h => Has isBuf h a b ∧ HasOpt isBuf h q aad ∧ Has isCKey h p k) isCRes (hEncrypt E (some a) q (some p) iv) :=
  Tidy.of (encrypt_vs hE a p q b aad k iv)

theorem C88_encrypt (hE : E.Fits) (a p : Addr) (q : Ptr) (b : Bytes) (aad : Option Bytes) (k : CipherKey) (iv : Bytes) :
    Discreet (fun h => Has isBuf h a b ∧ HasOpt isBuf h q aad ∧ Has isCKey h p k) (encryptPubs E b aad k iv) (hEncrypt E (some a) q (some p) iv) :=
  Discreet.of (encrypt_vs hE a p q b aad k iv) fun _ h => h

/-- `crypto_engine_cipher_decrypt`. -/
theorem C86_decrypt (hE : E.Fits) (a p : Addr) (q : Ptr) (r : CipherResult) (aad : Option Bytes) (k : CipherKey) (o : Bool) :
    Computes (fun h => Has isCRes h a r ∧ HasOpt isBuf h q aad ∧ Has isCKey h p k) isBuf (E.decrypt r aad k o) (hDecrypt E (some a) q (some p) o) :=
  Computes.of (decrypt_vs hE a p q r aad k o)

theorem C87_decrypt (hE : E.Fits) (a p : Addr) (q : Ptr) (r : CipherResult) (aad : Option Bytes) (k : CipherKey) (o : Bool) :
    Tidy (fun h => Has isCRes h a r ∧ HasOpt isBuf h q aad ∧ Has isCKey h p k) isBuf (hDecrypt E (some a) q (some p) o) :=
  Tidy.of (decrypt_vs hE a p q r aad k o)

theorem C87_decrypt_sturdy (hE : E.Fits) (a p : Addr) (q : Ptr) (r : CipherResult) (aad : Option Bytes) (k : CipherKey) (o : Bool) :
    Sturdy (fun h => Has isCRes h a r ∧ HasOpt isBuf h q aad ∧ Has isCKey h p k) (hDecrypt E (some a) q (some p) o) :=
  Sturdy.of (decrypt_vs hE a p q r aad k o) id

theorem C88_decrypt (hE : E.Fits) (a p : Addr) (q : Ptr) (r : CipherResult) (aad : Option Bytes) (k : CipherKey) (o : Bool) :
    Discreet (fun h => Has isCRes h a r ∧ HasOpt isBuf h q aad ∧ Has isCKey h p k) ([]) (hDecrypt E (some a) q (some p) o) :=
  Discreet.of (decrypt_vs hE a p q r aad k o) fun _ h => h

/-- `crypto_engine_gen_shared_secret`. -/
theorem C86_secret (hE : E.Fits) (a p : Addr) (k l : EcKey) :
    Computes (fun h => Has isKey h a k ∧ Has isKey h p l) isBuf (E.sharedSecret k l) (hSecret E (some a) (some p)) :=
  Computes.of (secret_vs hE a p k l)

theorem C87_secret (hE : E.Fits) (a p : Addr) (k l : EcKey) :
    Tidy (fun h => Has isKey h a k ∧ Has isKey h p l) isBuf (hSecret E (some a) (some p)) :=
  Tidy.of (secret_vs hE a p k l)

theorem C87_secret_sturdy (hE : E.Fits) (a p : Addr) (k l : EcKey) :
    Sturdy (fun h => Has isKey h a k ∧ Has isKey h p l) (hSecret E (some a) (some p)) :=
  Sturdy.of (secret_vs hE a p k l) id

theorem C88_secret (hE : E.Fits) (a p : Addr) (k l : EcKey) :
    Discreet (fun h => Has isKey h a k ∧ Has isKey h p l) ([]) (hSecret E (some a) (some p)) :=
  Discreet.of (secret_vs hE a p k l) fun _ h => h

/-- `crypto_engine_hmac_create`. -/
theorem C86_hmac (hE : E.Fits) (a p : Addr) (b k : Bytes) (d : Digest) :
    Computes (fun h => Has isBuf h a b ∧ Has isBuf h p k) isBuf (E.hmac b k d) (hHmac E (some a) (some p) d) :=
  Computes.of (hmac_vs hE a p b k d)

theorem C87_hmac (hE : E.Fits) (a p : Addr) (b k : Bytes) (d : Digest) :
    Tidy (fun h => Has isBuf h a b ∧ Has isBuf h p k) isBuf (hHmac E (some a) (some p) d) :=
  Tidy.of (hmac_vs hE a p b k d)

theorem C87_hmac_sturdy (hE : E.Fits) (a p : Addr) (b k : Bytes) (d : Digest) :
    Sturdy (fun h => Has isBuf h a b ∧ Has isBuf h p k) (hHmac E (some a) (some p) d) :=
  Sturdy.of (hmac_vs hE a p b k d) id

theorem C88_hmac (hE : E.Fits) (a p : Addr) (b k : Bytes) (d : Digest) :
    Discreet (fun h => Has isBuf h a b ∧ Has isBuf h p k) ([]) (hHmac E (some a) (some p) d) :=
  Discreet.of (hmac_vs hE a p b k d) fun _ h => h

/-- `wickr_identity_sign`. -/
theorem C86_identity_sign (hE : E.Fits) (a p : Addr) (i : Identity) (b n : Bytes) :
    Computes (fun h => Has isId h a i ∧ Has isBuf h p b) isSig (identitySign E i b n) (hIdentitySign E (some a) (some p) n) :=
  Computes.of (identity_sign_vs hE a p i b n)

theorem C87_identity_sign (hE : E.Fits) (a p : Addr) (i : Identity) (b n : Bytes) :
    Tidy (fun h => Has isId h a i ∧ Has isBuf h p b) isSig (hIdentitySign E (some a) (some p) n) :=
  Tidy.of (identity_sign_vs hE a p i b n)

theorem C88_identity_sign (hE : E.Fits) (a p : Addr) (i : Identity) (b n : Bytes) :
    Discreet (fun h => Has isId h a i ∧ Has isBuf h p b) ([]) (hIdentitySign E (some a) (some p) n) :=
  Discreet.of (identity_sign_vs hE a p i b n) fun _ h => h

/-- `wickr_node_identity_gen`. -/
theorem C86_node_identity (hE : E.Fits) (a : Addr) (p : Ptr) (i : Identity) (idn : Option Bytes) (cv : Curve)
    (pub pri rid n : Bytes) (hv : ValidBuf pub) (hv' : ValidBuf pri) (hr : ValidBuf rid) :
    Computes (fun h => Has isId h a i ∧ HasOpt isBuf h p idn) isId (nodeIdentityGen E i ⟨cv, pub, some pri⟩ (idn.getD rid) n) (hNodeIdentityGen E (some a) p cv pub pri rid n) :=
  Computes.of (node_identity_vs hE a p i idn cv pub pri rid n hv hv' hr)

theorem C87_node_identity (hE : E.Fits) (a : Addr) (p : Ptr) (i : Identity) (idn : Option Bytes) (cv : Curve)
    (pub pri rid n : Bytes) (hv : ValidBuf pub) (hv' : ValidBuf pri) (hr : ValidBuf rid) :
    Tidy (fun h => Has isId h a i ∧ HasOpt isBuf h p idn) isId (hNodeIdentityGen E (some a) p cv pub pri rid n) :=
  Tidy.of (node_identity_vs hE a p i idn cv pub pri rid n hv hv' hr)

theorem C88_node_identity (hE : E.Fits) (a : Addr) (p : Ptr) (i : Identity) (idn : Option Bytes) (cv : Curve)
    (pub pri rid n : Bytes) (hv : ValidBuf pub) (hv' : ValidBuf pri) (hr : ValidBuf rid) :
    Discreet (fun h => Has isId h a i ∧ HasOpt isBuf h p idn) (idn.getD rid :: signPubs E i pub n) (hNodeIdentityGen E (some a) p cv pub pri rid n) :=
  Discreet.of (node_identity_vs hE a p i idn cv pub pri rid n hv hv' hr) fun _ h => h

/-- `wickr_ephemeral_keypair_generate_identity`. -/
theorem C86_ephemeral (hE : E.Fits) (id : UInt64) (a : Addr) (i : Identity) (cv : Curve) (pub pri n : Bytes)
    (hv : ValidBuf pub) (hv' : ValidBuf pri) :
    Computes (fun h => Has isId h a i) isEph (ephGenerate E id i ⟨cv, pub, some pri⟩ n) (hEphGenerate E id (some a) cv pub pri n) :=
  Computes.of (ephemeral_vs hE id a i cv pub pri n hv hv')

theorem C87_ephemeral (hE : E.Fits) (id : UInt64) (a : Addr) (i : Identity) (cv : Curve) (pub pri n : Bytes)
    (hv : ValidBuf pub) (hv' : ValidBuf pri) :
    Tidy (fun h => Has isId h a i) isEph (hEphGenerate E id (some a) cv pub pri n) :=
  Tidy.of (ephemeral_vs hE id a i cv pub pri n hv hv')

theorem C88_ephemeral (hE : E.Fits) (id : UInt64) (a : Addr) (i : Identity) (cv : Curve) (pub pri n : Bytes)
    (hv : ValidBuf pub) (hv' : ValidBuf pri) :
    Discreet (fun h => Has isId h a i) (signPubs E i pub n) (hEphGenerate E id (some a) cv pub pri n) :=
  Discreet.of (ephemeral_vs hE id a i cv pub pri n hv hv') fun _ h => h

/-! ### There are such objects -/

example : ∃ (s : St) (a : Addr), s.oom = false ∧ Has isBuf s.heap a [1] :=
  exists_has (litBuf_spec _ _ trivial [1] (by decide)) (by decide +kernel)
example : ∃ (s : St) (a : Addr), s.oom = false ∧ Has isKey s.heap a exKey := exists_has (mkKey_spec _ _ trivial) (by decide +kernel)
example : ∃ (s : St) (a : Addr), s.oom = false ∧ Has isId s.heap a exId := exists_has (mkId_spec _ _ trivial) (by decide +kernel)
example : ∃ (s : St) (a : Addr), s.oom = false ∧ Has isCKey s.heap a exCKey := exists_has (mkCKey_spec _ _ trivial) (by decide +kernel)
example : ∃ (s : St) (a : Addr), s.oom = false ∧ Has isCRes s.heap a exCRes := exists_has (mkCRes_spec _ _ trivial) (by decide +kernel)

/-- An object may be looked at through two arguments: one identity is in memory if another, at the same address, is. -/
example (h : Heap) (a : Addr) (i : Identity) (hi : Has isId h a i) : Has isId h a i ∧ HasOpt isBuf h none none := ⟨hi, trivial⟩

/-- Non-trivial values: the toy engine signs with the example identity, and imports, encrypts and decrypts. -/
example : (identitySign toyEngine ⟨.root, [4], ⟨.p521, [0, 3], some [48, 3]⟩, none⟩ [1, 2] [5]).isSome = true := by decide +kernel
example : ((toyEngine.encrypt [1, 2] none exCKey (List.replicate 12 7)).bind fun r => toyEngine.decrypt r none exCKey true) =
    some [1, 2] := by decide +kernel

/-! ### Lack of memory -/

/-- With no memory left the digest function dereferences NULL: openssl_suite.c:653 does not test the new buffer. -/
theorem C87_digest_not_sturdy : ¬ ∀ a, Sturdy (fun h => Has isBuf h a [1] ∧ HasOpt isBuf h none none)
    (hDigest toyEngine (some a) none .sha256) :=
  not_sturdy (m := fun p => hDigest toyEngine p none .sha256) [2] (litBuf_spec _ _ trivial [1] (by decide))
    (fun _ _ h => ⟨h, trivial⟩) (by decide +kernel)

/-- So do key generation and encryption when the buffer for the random bytes cannot be made. -/
theorem C87_random_not_sturdy : ¬ ∀ a, Sturdy (fun h => Has isBuf h a [1]) (hRandCKey exCKey) :=
  not_sturdy (m := fun _ => hRandCKey exCKey) [2] (litBuf_spec _ _ trivial [1] (by decide)) (fun _ _ h => h) (by decide +kernel)

end Wickr
