import Verif.Lemmas.ViewSpecsKeys
import Verif.Lemmas.Refute
import Verif.Props.VerifyMem
/-
C86-C88 and C90 for functions about keys: ciphers, key derivation, encryption with a passphrase or to a key, root keys, device
identifiers.  The result is the value of the value model (C86), nothing is leaked (C87), and nothing but public values is released
unwiped, whatever the allocator does (C88) or if memory suffices (C90).
-/
namespace Wickr
open Asrt Spec

variable {E : Engine}

/-- `wickr_cipher_result_serialize`. -/
theorem C86_cipher_result_serialize (a : Addr) (r : CipherResult) :
    Computes (fun h => Has isCRes h a r) isBuf (cipherResultSerialize r) (hCResSerialize (some a)) :=
  Computes.of (cres_serialize_vs a r)

theorem C87_cipher_result_serialize (a : Addr) (r : CipherResult) :
    Tidy (fun h => Has isCRes h a r) isBuf (hCResSerialize (some a)) :=
  Tidy.of (cres_serialize_vs a r)

theorem C87_cipher_result_serialize_sturdy (a : Addr) (r : CipherResult) :
    Sturdy (fun h => Has isCRes h a r) (hCResSerialize (some a)) :=
  Sturdy.of (cres_serialize_vs a r) id

theorem C88_cipher_result_serialize (a : Addr) (r : CipherResult) :
    Discreet (fun h => Has isCRes h a r) ([]) (hCResSerialize (some a)) :=
  Discreet.of (cres_serialize_vs a r) fun _ h => h

/-- `wickr_cipher_result_from_buffer`. -/
theorem C86_cipher_result_parse (a : Addr) (b : Bytes) :
    Computes (fun h => Has isBuf h a b) isCRes (cipherResultFromBuffer b) (hCResFromBuffer (some a)) :=
  Computes.of (cres_parse_vs a b)

theorem C87_cipher_result_parse (a : Addr) (b : Bytes) :
    Tidy (fun h => Has isBuf h a b) isCRes (hCResFromBuffer (some a)) :=
  Tidy.of (cres_parse_vs a b)

theorem C88_cipher_result_parse (a : Addr) (b : Bytes) :
    Discreet (fun h => Has isBuf h a b) (cresHead b) (hCResFromBuffer (some a)) :=
  Discreet.of (cres_parse_vs a b) fun _ h => h

/-- `wickr_cipher_key_serialize`. -/
theorem C86_cipher_key_serialize (a : Addr) (k : CipherKey) :
    Computes (fun h => Has isCKey h a k) isBuf (cipherKeySerialize k) (hCKeySerialize (some a)) :=
  Computes.of (ckey_serialize_vs a k)

theorem C87_cipher_key_serialize (a : Addr) (k : CipherKey) :
    Tidy (fun h => Has isCKey h a k) isBuf (hCKeySerialize (some a)) :=
  Tidy.of (ckey_serialize_vs a k)

theorem C87_cipher_key_serialize_sturdy (a : Addr) (k : CipherKey) :
    Sturdy (fun h => Has isCKey h a k) (hCKeySerialize (some a)) :=
  Sturdy.of (ckey_serialize_vs a k) id

theorem C88_cipher_key_serialize (a : Addr) (k : CipherKey) :
    Discreet (fun h => Has isCKey h a k) ([]) (hCKeySerialize (some a)) :=
  Discreet.of (ckey_serialize_vs a k) fun _ h => h

/-- `wickr_cipher_key_from_buffer`. -/
theorem C86_cipher_key_parse (a : Addr) (b : Bytes) :
    Computes (fun h => Has isBuf h a b) isCKey (cipherKeyFromBuffer b) (hCKeyFromBuffer (some a)) :=
  Computes.of (ckey_parse_vs a b)

theorem C87_cipher_key_parse (a : Addr) (b : Bytes) :
    Tidy (fun h => Has isBuf h a b) isCKey (hCKeyFromBuffer (some a)) :=
  Tidy.of (ckey_parse_vs a b)

theorem C88_cipher_key_parse (a : Addr) (b : Bytes) :
    Discreet (fun h => Has isBuf h a b) ([]) (hCKeyFromBuffer (some a)) :=
  Discreet.of (ckey_parse_vs a b) fun _ h => h

/-- `wickr_kdf_meta_create_with_buffer`; nothing is said about leaks for lack of memory. -/
theorem C86_kdf_meta_parse (a : Addr) (b : Bytes) :
    Computes (fun h => Has isBuf h a b) isKdfMeta (kdfMetaFromBuffer b) (hKdfMetaFromBuffer (some a)) :=
  Computes.ofN (kdf_meta_parse_vs a b)

theorem C87_kdf_meta_parse_sturdy (a : Addr) (b : Bytes) :
    Sturdy (fun h => Has isBuf h a b) (hKdfMetaFromBuffer (some a)) :=
  Sturdy.of (kdf_meta_parse_vs a b) id

theorem C88_kdf_meta_parse (a : Addr) (b : Bytes) :
    Discreet (fun h => Has isBuf h a b) ([]) (hKdfMetaFromBuffer (some a)) :=
  Discreet.of (kdf_meta_parse_vs a b) fun _ h => h

/-- `wickr_kdf_meta_serialize`. -/
theorem C86_kdf_meta_serialize (a : Addr) (m : KdfMeta) :
    Computes (fun h => Has isKdfMeta h a m) isBuf (kdfMetaSerialize m) (hKdfMetaSerialize (some a)) :=
  Computes.of (kdf_meta_serialize_vs a m)

theorem C87_kdf_meta_serialize (a : Addr) (m : KdfMeta) :
    Tidy (fun h => Has isKdfMeta h a m) isBuf (hKdfMetaSerialize (some a)) :=
  Tidy.of (kdf_meta_serialize_vs a m)

theorem C87_kdf_meta_serialize_sturdy (a : Addr) (m : KdfMeta) :
    Sturdy (fun h => Has isKdfMeta h a m) (hKdfMetaSerialize (some a)) :=
  Sturdy.of (kdf_meta_serialize_vs a m) id

theorem C88_kdf_meta_serialize (a : Addr) (m : KdfMeta) :
    Discreet (fun h => Has isKdfMeta h a m) ([]) (hKdfMetaSerialize (some a)) :=
  Discreet.of (kdf_meta_serialize_vs a m) fun _ h => h

/-- `wickr_perform_kdf_meta`; without bcrypt nothing is released unwiped while memory lasts. -/
theorem C86_kdf (hE : E.Fits) (a p : Addr) (m : KdfMeta) (pass : Bytes) :
    Computes (fun h => Has isKdfMeta h a m ∧ Has isBuf h p pass) isKdfRes ((E.kdf m pass).map (KdfResult.mk m)) (hKdf E (some a) (some p)) :=
  Computes.ofN (kdf_vs hE a p m pass)

theorem C87_kdf_sturdy (hE : E.Fits) (a p : Addr) (m : KdfMeta) (pass : Bytes) :
    Sturdy (fun h => Has isKdfMeta h a m ∧ Has isBuf h p pass) (hKdf E (some a) (some p)) :=
  Sturdy.of (kdf_vs hE a p m pass) id

theorem C90_kdf (hE : E.Fits) (a p : Addr) (m : KdfMeta) (pass : Bytes) :
    DiscreetWithMemory (fun h => Has isKdfMeta h a m ∧ Has isBuf h p pass) (m.spills pass) (hKdf E (some a) (some p)) :=
  DiscreetWithMemory.of (kdf_vs hE a p m pass) fun _ h => h

/-- `wickr_perform_kdf`. -/
theorem C86_kdf_gen (hE : E.Fits) (p : Addr) (a : KdfAlgo) (pass rnd salt : Bytes) (hs : ValidBuf salt)
    (hl : salt.length = a.saltSize.toNat) (hr : a.kind = .bcrypt → ValidBuf rnd) (hb : a.kind = .bcrypt → salt.length ≤ 57) :
    Computes (fun h => Has isBuf h p pass) isKdfRes ((E.kdf ⟨a, some salt, none⟩ pass).map (KdfResult.mk ⟨a, some salt, none⟩)) (hKdfGen E a (some p) rnd salt) :=
  Computes.ofN (kdf_gen_vs hE p a pass rnd salt hs hl hr hb)

theorem C90_kdf_gen (hE : E.Fits) (p : Addr) (a : KdfAlgo) (pass rnd salt : Bytes) (hs : ValidBuf salt)
    (hl : salt.length = a.saltSize.toNat) (hr : a.kind = .bcrypt → ValidBuf rnd) (hb : a.kind = .bcrypt → salt.length ≤ 57) :
    DiscreetWithMemory (fun h => Has isBuf h p pass) (salt :: (a.saltSpills rnd salt ++ KdfMeta.spills ⟨a, some salt, none⟩ pass)) (hKdfGen E a (some p) rnd salt) :=
  DiscreetWithMemory.of (kdf_gen_vs hE p a pass rnd salt hs hl hr hb) fun _ h => h

/-- `wickr_crypto_engine_kdf_cipher`. -/
theorem C86_kdf_cipher (hE : E.Fits) (p q : Addr) (a : KdfAlgo) (ci : Cipher) (value pass rnd salt iv : Bytes)
    (hs : ValidBuf salt) (hl : salt.length = a.saltSize.toNat) :
    Computes (fun h => Has isBuf h p value ∧ Has isBuf h q pass) isBuf (kdfCipher E a ci value pass salt iv) (hKdfCipher E a ci (some p) (some q) rnd salt iv) :=
  Computes.ofN (kdf_cipher_vs hE p q a ci value pass rnd salt iv hs hl)

theorem C90_kdf_cipher (hE : E.Fits) (p q : Addr) (a : KdfAlgo) (ci : Cipher) (value pass rnd salt iv : Bytes)
    (hs : ValidBuf salt) (hl : salt.length = a.saltSize.toNat) :
    DiscreetWithMemory (fun h => Has isBuf h p value ∧ Has isBuf h q pass) (kdfCipherPubs E a ci value pass salt iv) (hKdfCipher E a ci (some p) (some q) rnd salt iv) :=
  DiscreetWithMemory.of (kdf_cipher_vs hE p q a ci value pass rnd salt iv hs hl) fun _ h => h

/-- `wickr_crypto_engine_kdf_decipher`, if there is a key and the rest can be read, or if there is no key. -/
theorem C86_kdf_decipher_partial (hE : E.Fits) (p q : Addr) (b pass : Bytes)
    (hw : ∀ m, kdfMetaFromBuffer b = some m → E.kdf m pass = none ∨ cipherResultFromBuffer (b.drop (kdfMetaSize b).toNat) ≠ none) :
    Computes (fun h => Has isBuf h p b ∧ Has isBuf h q pass) isBuf (kdfDecipher E b pass) (hKdfDecipher E (some p) (some q)) :=
  Computes.ofN (kdf_decipher_vs hE p q b pass hw)

theorem C90_kdf_decipher_partial (hE : E.Fits) (p q : Addr) (b pass : Bytes)
    (hw : ∀ m, kdfMetaFromBuffer b = some m → E.kdf m pass = none ∨ cipherResultFromBuffer (b.drop (kdfMetaSize b).toNat) ≠ none) :
    DiscreetWithMemory (fun h => Has isBuf h p b ∧ Has isBuf h q pass) (kdfDecipherPubs b pass) (hKdfDecipher E (some p) (some q)) :=
  DiscreetWithMemory.of (kdf_decipher_vs hE p q b pass hw) fun _ h => h

/-- `wickr_ecdh_cipher_ctx_create`. -/
theorem C86_ecdh_create (cv : Curve) (ci : Cipher) (pub pri : Bytes) (hv : ValidBuf pub) (hv' : ValidBuf pri) :
    Computes (fun _ => True) isEcdh (some ⟨ci, cv, pub, some pri⟩) (hEcdhNew cv ci pub pri) :=
  Computes.of (ecdh_new_vs cv ci pub pri hv hv')

theorem C87_ecdh_create (cv : Curve) (ci : Cipher) (pub pri : Bytes) (hv : ValidBuf pub) (hv' : ValidBuf pri) :
    Tidy (fun _ => True) isEcdh (hEcdhNew cv ci pub pri) :=
  Tidy.of (ecdh_new_vs cv ci pub pri hv hv')

theorem C88_ecdh_create (cv : Curve) (ci : Cipher) (pub pri : Bytes) (hv : ValidBuf pub) (hv' : ValidBuf pri) :
    Discreet (fun _ => True) ([]) (hEcdhNew cv ci pub pri) :=
  Discreet.of (ecdh_new_vs cv ci pub pri hv hv') fun _ h => h

/-- `wickr_ecdh_cipher_ctx_cipher`. -/
theorem C86_ecdh_cipher (hE : E.Fits) (a r p q : Addr) (v : EcdhCtx) (pt : Bytes) (peer : EcKey) (m : KdfMeta) (iv : Bytes) :
    Computes (fun h => Has isEcdh h a v ∧ Has isBuf h r pt ∧ Has isKey h p peer ∧ Has isKdfMeta h q m) isCRes (ecdhCipher E v pt peer m iv) (hEcdhCipher E (some a) (some r) (some p) (some q) iv) :=
  Computes.ofN (ecdh_cipher_vs hE a r p q v pt peer m iv)

theorem C90_ecdh_cipher (hE : E.Fits) (a r p q : Addr) (v : EcdhCtx) (pt : Bytes) (peer : EcKey) (m : KdfMeta) (iv : Bytes) :
    DiscreetWithMemory (fun h => Has isEcdh h a v ∧ Has isBuf h r pt ∧ Has isKey h p peer ∧ Has isKdfMeta h q m) (ecdhPubs E v pt peer m iv) (hEcdhCipher E (some a) (some r) (some p) (some q) iv) :=
  DiscreetWithMemory.of (ecdh_cipher_vs hE a r p q v pt peer m iv) fun _ h => h

/-- `wickr_ecdh_cipher_ctx_decipher`. -/
theorem C86_ecdh_decipher (hE : E.Fits) (a r p q : Addr) (v : EcdhCtx) (ct : CipherResult) (peer : EcKey) (m : KdfMeta) :
    Computes (fun h => Has isEcdh h a v ∧ Has isCRes h r ct ∧ Has isKey h p peer ∧ Has isKdfMeta h q m) isBuf (ecdhDecipher E v ct peer m) (hEcdhDecipher E (some a) (some r) (some p) (some q)) :=
  Computes.ofN (ecdh_decipher_vs hE a r p q v ct peer m)

theorem C90_ecdh_decipher (hE : E.Fits) (a r p q : Addr) (v : EcdhCtx) (ct : CipherResult) (peer : EcKey) (m : KdfMeta) :
    DiscreetWithMemory (fun h => Has isEcdh h a v ∧ Has isCRes h r ct ∧ Has isKey h p peer ∧ Has isKdfMeta h q m) (m.publics) (hEcdhDecipher E (some a) (some r) (some p) (some q)) :=
  DiscreetWithMemory.of (ecdh_decipher_vs hE a r p q v ct peer m) fun _ h => h

/-- `wickr_root_keys_generate`. -/
theorem C86_root_generate (node rem : CipherKey) (cv : Curve) (pub pri : Bytes)
    (h1 : ValidBuf node.key) (h2 : node.key.length = node.cipher.keyLen) (h3 : ValidBuf rem.key)
    (h4 : rem.key.length = rem.cipher.keyLen) (hv : ValidBuf pub) (hv' : ValidBuf pri) :
    Computes (fun _ => True) isRoot (some ⟨⟨cv, pub, some pri⟩, node, rem⟩) (hRootGenerate node rem cv pub pri) :=
  Computes.of (root_generate_vs node rem cv pub pri h1 h2 h3 h4 hv hv')

theorem C87_root_generate (node rem : CipherKey) (cv : Curve) (pub pri : Bytes)
    (h1 : ValidBuf node.key) (h2 : node.key.length = node.cipher.keyLen) (h3 : ValidBuf rem.key)
    (h4 : rem.key.length = rem.cipher.keyLen) (hv : ValidBuf pub) (hv' : ValidBuf pri) :
    Tidy (fun _ => True) isRoot (hRootGenerate node rem cv pub pri) :=
  Tidy.of (root_generate_vs node rem cv pub pri h1 h2 h3 h4 hv hv')

theorem C88_root_generate (node rem : CipherKey) (cv : Curve) (pub pri : Bytes)
    (h1 : ValidBuf node.key) (h2 : node.key.length = node.cipher.keyLen) (h3 : ValidBuf rem.key)
    (h4 : rem.key.length = rem.cipher.keyLen) (hv : ValidBuf pub) (hv' : ValidBuf pri) :
    Discreet (fun _ => True) ([]) (hRootGenerate node rem cv pub pri) :=
  Discreet.of (root_generate_vs node rem cv pub pri h1 h2 h3 h4 hv hv') fun _ h => h

/-- `wickr_root_keys_localize`. -/
theorem C86_root_localize (hE : E.Fits) (a p : Addr) (k : RootKeys) (d : DevInfo) :
    Computes (fun h => Has isRoot h a k ∧ Has isDev h p d) isStorage (rootKeysLocalize E k d) (hRootLocalize E (some a) (some p)) :=
  Computes.of (root_localize_vs hE a p k d)

theorem C87_root_localize (hE : E.Fits) (a p : Addr) (k : RootKeys) (d : DevInfo) :
    Tidy (fun h => Has isRoot h a k ∧ Has isDev h p d) isStorage (hRootLocalize E (some a) (some p)) :=
  Tidy.of (root_localize_vs hE a p k d)

theorem C88_root_localize (hE : E.Fits) (a p : Addr) (k : RootKeys) (d : DevInfo) :
    Discreet (fun h => Has isRoot h a k ∧ Has isDev h p d) ([]) (hRootLocalize E (some a) (some p)) :=
  Discreet.of (root_localize_vs hE a p k d) fun _ h => h

/-- `wickr_root_keys_serialize`, of keys with a private key. -/
theorem C86_root_serialize_partial (a : Addr) (k : RootKeys) (hs : k.sigRoot.pri.isSome) :
    Computes (fun h => Has isRoot h a k) isBuf ((rootKeysSerialize k).toOption) (hRootSerialize (some a)) :=
  Computes.of (root_serialize_vs a k hs)

theorem C87_root_serialize_partial (a : Addr) (k : RootKeys) (hs : k.sigRoot.pri.isSome) :
    Tidy (fun h => Has isRoot h a k) isBuf (hRootSerialize (some a)) :=
  Tidy.of (root_serialize_vs a k hs)

theorem C87_root_serialize_sturdy_partial (a : Addr) (k : RootKeys) (hs : k.sigRoot.pri.isSome) :
    Sturdy (fun h => Has isRoot h a k) (hRootSerialize (some a)) :=
  Sturdy.of (root_serialize_vs a k hs) id

theorem C88_root_serialize_partial (a : Addr) (k : RootKeys) (hs : k.sigRoot.pri.isSome) :
    Discreet (fun h => Has isRoot h a k) ([]) (hRootSerialize (some a)) :=
  Discreet.of (root_serialize_vs a k hs) fun _ h => h

/-- `wickr_root_keys_export`, of keys with a private key. -/
theorem C86_root_export_partial (hE : E.Fits) (a q : Addr) (k : RootKeys) (key : CipherKey) (iv : Bytes) (hs : k.sigRoot.pri.isSome) :
    Computes (fun h => Has isRoot h a k ∧ Has isCKey h q key) isCRes ((rootKeysExport E k key iv).toOption) (hRootExport E (some a) (some q) iv) :=
  Computes.of (root_export_vs hE a q k key iv hs)

theorem C87_root_export_partial (hE : E.Fits) (a q : Addr) (k : RootKeys) (key : CipherKey) (iv : Bytes) (hs : k.sigRoot.pri.isSome) :
    Tidy (fun h => Has isRoot h a k ∧ Has isCKey h q key) isCRes (hRootExport E (some a) (some q) iv) :=
  Tidy.of (root_export_vs hE a q k key iv hs)

theorem C88_root_export_partial (hE : E.Fits) (a q : Addr) (k : RootKeys) (key : CipherKey) (iv : Bytes) (hs : k.sigRoot.pri.isSome) :
    Discreet (fun h => Has isRoot h a k ∧ Has isCKey h q key) ((rootKeysExport E k key iv).toOption.toList.flatMap CipherResult.publics) (hRootExport E (some a) (some q) iv) :=
  Discreet.of (root_export_vs hE a q k key iv hs) fun _ h => h

/-- `wickr_root_keys_create_from_buffer`. -/
theorem C86_root_parse (hE : E.Fits) (a : Addr) (b : Bytes) :
    Computes (fun h => Has isBuf h a b) isRoot (rootKeysFromBuffer E b) (hRootFromBuffer E (some a)) :=
  Computes.of (root_parse_vs hE a b)

theorem C87_root_parse (hE : E.Fits) (a : Addr) (b : Bytes) :
    Tidy (fun h => Has isBuf h a b) isRoot (hRootFromBuffer E (some a)) :=
  Tidy.of (root_parse_vs hE a b)

/-- The parts of the message are released by the protobuf library, which wipes nothing: see `C90_root_parse_not_wiped`. -/
theorem C88_root_parse_partial (hE : E.Fits) (a : Addr) (b : Bytes) :
    Discreet (fun h => Has isBuf h a b) (rootPubs E b) (hRootFromBuffer E (some a)) :=
  Discreet.of (root_parse_vs hE a b) fun _ h => h

/-- `wickr_dev_info_create_new`. -/
theorem C86_dev_new (hE : E.Fits) (a : Addr) (b s : Bytes) (hv : ValidBuf s) :
    Computes (fun h => Has isBuf h a b) isDev (devInfoDerive E s b) (hDevNew E (some a) s) :=
  Computes.of (dev_new_vs hE a b s hv)

theorem C87_dev_new (hE : E.Fits) (a : Addr) (b s : Bytes) (hv : ValidBuf s) :
    Tidy (fun h => Has isBuf h a b) isDev (hDevNew E (some a) s) :=
  Tidy.of (dev_new_vs hE a b s hv)

theorem C88_dev_new (hE : E.Fits) (a : Addr) (b s : Bytes) (hv : ValidBuf s) :
    Discreet (fun h => Has isBuf h a b) (s :: devInfoPubs E s b) (hDevNew E (some a) s) :=
  Discreet.of (dev_new_vs hE a b s hv) fun _ h => h

/-! ### There are such objects -/

example : ∃ (s : St) (a : Addr), s.oom = false ∧ Has isKdfMeta s.heap a exKdfMeta := exists_has (mkKdfMeta_spec _ _ trivial) (by decide +kernel)
example : ∃ (s : St) (a : Addr), s.oom = false ∧ Has isEcdh s.heap a exEcdh := exists_has (mkEcdh_spec _ _ trivial) (by decide +kernel)
example : ∃ (s : St) (a : Addr), s.oom = false ∧ Has isRoot s.heap a exRoot := exists_has (mkRoot_spec _ _ trivial) (by decide +kernel)
example : ∃ (s : St) (a : Addr), s.oom = false ∧ Has isDev s.heap a exDev := exists_has (mkDev_spec _ _ trivial) (by decide +kernel)
example : exRoot.sigRoot.pri.isSome = true := rfl

/-- Non-trivial values: with the toy engine a passphrase encrypts and decrypts, and keys are derived for devices. -/
abbrev exSealed : Bytes := (kdfCipher toyEngine scrypt17 .gcm [1, 2] [3] (List.replicate 16 4) (List.replicate 12 7)).getD []

example : kdfDecipher toyEngine exSealed [3] = some [1, 2] := by decide +kernel
example : ∀ m, kdfMetaFromBuffer exSealed = some m →
    toyEngine.kdf m [3] = none ∨ cipherResultFromBuffer (exSealed.drop (kdfMetaSize exSealed).toNat) ≠ none :=
  fun _ _ => Or.inr (by decide +kernel)
example : (devInfoDerive toyEngine (List.replicate 64 1) [2]).isSome = true := by decide +kernel
example : (rootKeysLocalize toyEngine exRoot exDev).isSome = true := by decide +kernel

/-! ### Keys with a missing part -/

/-- Serializing root keys without a private signature key dereferences NULL although memory suffices: root_keys.c:131. -/
theorem C86_root_serialize_no_private_key :
    ¬ ∀ a, Computes (fun h => Has isRoot h a exRootPublic) isBuf (rootKeysSerialize exRootPublic).toOption (hRootSerialize (some a)) :=
  not_computes (m := fun p => hRootSerialize p) 0 (mkRootPublic_spec _ _ trivial) (fun _ _ h => h) (by decide +kernel)

/-! ### Leaks -/

/-- A sealed message whose cipher text cannot be read: the derived key is leaked although memory suffices
(crypto_engine.c:153-157). -/
abbrev exBroken : Bytes := 1 :: List.replicate 16 4 ++ [99]

theorem C86_kdf_decipher_leaks : ¬ ∀ a, Computes (fun h => Has isBuf h a exBroken ∧ Has isBuf h a exBroken) isBuf
    (kdfDecipher toyEngine exBroken exBroken) (hKdfDecipher toyEngine (some a) (some a)) :=
  not_computes (m := fun p => hKdfDecipher toyEngine p p) 6 (litBuf_spec _ _ trivial exBroken (by decide)) (fun _ _ h => ⟨h, h⟩)
    (by decide +kernel)

/-- With no memory for the structure the salt read from a buffer is leaked: kdf.c:119. -/
theorem C87_kdf_meta_parse_leaks : ¬ ∀ a, Tidy (fun h => Has isBuf h a exBroken) isKdfMeta (hKdfMetaFromBuffer (some a)) :=
  not_tidy (m := fun p => hKdfMetaFromBuffer p) [4] 2 (litBuf_spec _ _ trivial exBroken (by decide)) (fun _ _ h => h)
    (by decide +kernel)

/-! ### Secrets that are not wiped -/

/-- Serialized root keys. -/
abbrev exRootBytes : Bytes := (rootKeysSerialize ⟨toyKey 5, exCKey, exCKey⟩).toOption.getD []

example : rootKeysFromBuffer toyEngine exRootBytes = some ⟨toyKey 5, exCKey, exCKey⟩ := by decide +kernel

/-- Reading root keys leaves a copy of the private key and of the storage keys in released memory although everything succeeds:
the protobuf library does not wipe what it unpacked (root_keys.c:110). -/
theorem C90_root_parse_not_wiped : ¬ ∀ a, DiscreetWithMemory (fun h => Has isBuf h a exRootBytes) [(toyKey 5).pub]
    (hRootFromBuffer toyEngine (some a)) :=
  not_discreetWithMemory (m := hRootFromBuffer toyEngine) (litBuf_spec _ _ trivial exRootBytes (by decide +kernel)) (fun _ _ h => h)
    (by decide +kernel)

/-- bcrypt: a copy of the passphrase is released without being wiped although everything succeeds (kdf.c:305-321). -/
theorem C90_bcrypt_passphrase : ¬ ∀ a, DiscreetWithMemory (fun h => Has isBuf h a [8, 9])
    (List.replicate 22 4 :: (KdfAlgo.saltSpills bcrypt15 [5] (List.replicate 22 4) ++ [bcryptSetting (List.replicate 22 4)]))
    (hKdfGen toyEngine bcrypt15 (some a) [5] (List.replicate 22 4)) :=
  not_discreetWithMemory (m := fun p => hKdfGen toyEngine bcrypt15 p [5] (List.replicate 22 4)) (litBuf_spec _ _ trivial [8, 9] (by decide))
    (fun _ _ h => h) (by decide +kernel)

/-- With no memory for the parameters the derived key is released without being wiped (kdf.c:461-464). -/
theorem C88_kdf_not_wiped : ¬ ∀ a, Discreet (fun h => Has isBuf h a [8, 9]) [List.replicate 16 4]
    (hKdfGen toyEngine scrypt17 (some a) [5] (List.replicate 16 4)) :=
  not_discreet (m := fun p => hKdfGen toyEngine scrypt17 p [5] (List.replicate 16 4)) [6] (litBuf_spec _ _ trivial [8, 9] (by decide))
    (fun _ _ h => h) (by decide +kernel)

abbrev exSalt : Bytes := 3 :: List.replicate 63 1

/-- With no memory for the structure the hash of the system identifier, which should stay private, is released without being wiped
(devinfo.c:92-97). -/
theorem C88_dev_new_not_wiped : ¬ ∀ a, Discreet (fun h => Has isBuf h a [8, 9])
    (exSalt :: (toyEngine.digest [8, 9] (some exSalt) .sha512).toList.flatMap fun d =>
      d :: ((copySection d 0 32).toList ++ (copySection d 32 32).toList))
    (hDevNew toyEngine (some a) exSalt) :=
  not_discreet (m := fun p => hDevNew toyEngine p exSalt) [12] (litBuf_spec _ _ trivial [8, 9] (by decide))
    (fun _ _ h => h) (by decide +kernel)

end Wickr
