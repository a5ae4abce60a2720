import Verif.Lemmas.ViewSpecs
import Verif.Lemmas.SepKeyFun
/-
The functions about keys, in the form from which statements about runs follow.
-/
namespace Wickr
open Asrt Spec

variable {E : Engine}

theorem cres_serialize_vs (a : Addr) (r : CipherResult) :
    ViewSpec (onlyStrict []) (fun h => Has isCRes h a r) (gives isBuf (cipherResultSerialize r)) (hCResSerialize (some a)) :=
  fun f h ha => hCResSerialize_view _ f h a r ha

theorem cres_parse_vs (a : Addr) (b : Bytes) :
    ViewSpec (only (cresHead b)) (fun h => Has isBuf h a b) (gives isCRes (cipherResultFromBuffer b)) (hCResFromBuffer (some a)) :=
  fun f h ha => hCResFromBuffer_view _ f trivial h a b (fun _ hx => Or.inl hx) ha

theorem ckey_serialize_vs (a : Addr) (k : CipherKey) :
    ViewSpec (onlyStrict []) (fun h => Has isCKey h a k) (gives isBuf (cipherKeySerialize k)) (hCKeySerialize (some a)) :=
  fun f h ha => hCKeySerialize_view _ f h a k ha

theorem ckey_parse_vs (a : Addr) (b : Bytes) :
    ViewSpec (only []) (fun h => Has isBuf h a b) (gives isCKey (cipherKeyFromBuffer b)) (hCKeyFromBuffer (some a)) :=
  fun f h ha => hCKeyFromBuffer_view _ f trivial h a b ha

theorem kdf_meta_parse_vs (a : Addr) (b : Bytes) :
    ViewSpec (onlyStrict []) (fun h => Has isBuf h a b) (givesN isKdfMeta (kdfMetaFromBuffer b)) (hKdfMetaFromBuffer (some a)) :=
  fun f h ha => hKdfMetaFromBuffer_view _ f h a b ha

theorem kdf_meta_serialize_vs (a : Addr) (m : KdfMeta) :
    ViewSpec (onlyStrict []) (fun h => Has isKdfMeta h a m) (gives isBuf (kdfMetaSerialize m)) (hKdfMetaSerialize (some a)) :=
  fun f h ha => hKdfMetaSerialize_view _ f h a m ha

/-- Only what is in the list may be released unwiped unless an allocation fails, and NULL may not be dereferenced. -/
abbrev onlyLaxStrict (pubs : List Bytes) : Rules := { pub := fun b => b ∈ pubs, crash := False, lax := True }

theorem KdfRules.of {c : Rules} {h : Heap} {a : Addr} {m : KdfMeta} {pass : Bytes} (hl : c.lax) (hs : ∀ x ∈ m.spills pass, c.pub x)
    (ha : Has isKdfMeta h a m) : KdfRules E c m pass := by
  obtain ⟨al, s, i⟩ := m
  sview ha isKdfMeta
  refine ⟨by assumption, ?_, ?_, hs, fun _ _ => Or.inr hl⟩
  · rintro s' rfl
    svset
    exact ⟨has_valid (by assumption), Or.inr hl⟩
  · rintro s' rfl
    svset
    exact has_valid (by assumption)

theorem kdf_vs (hE : E.Fits) (a p : Addr) (m : KdfMeta) (pass : Bytes) :
    ViewSpec (onlyLaxStrict (m.spills pass)) (fun h => Has isKdfMeta h a m ∧ Has isBuf h p pass)
      (givesN isKdfRes ((E.kdf m pass).map (KdfResult.mk m))) (hKdf E (some a) (some p)) :=
  fun f h ha => hKdf_view hE _ f h a p m pass (KdfRules.of trivial (fun _ h => h) ha.1) ha.1 ha.2

theorem kdf_gen_vs (hE : E.Fits) (p : Addr) (a : KdfAlgo) (pass rnd salt : Bytes) (hs : ValidBuf salt)
    (hl : salt.length = a.saltSize.toNat) (hr : a.kind = .bcrypt → ValidBuf rnd) (hb : a.kind = .bcrypt → salt.length ≤ 57) :
    ViewSpec (onlyLax (salt :: (a.saltSpills rnd salt ++ KdfMeta.spills ⟨a, some salt, none⟩ pass))) (fun h => Has isBuf h p pass)
      (givesN isKdfRes ((E.kdf ⟨a, some salt, none⟩ pass).map (KdfResult.mk ⟨a, some salt, none⟩))) (hKdfGen E a (some p) rnd salt) :=
  fun f h ha => hKdfGen_view hE _ f trivial h p a pass rnd salt
    ⟨⟨by simp, by simp, by simp [hl]⟩, by simp [hs], by simp, fun x hx => by simp [hx], fun _ _ => Or.inr trivial⟩ hr hb (by simp)
    (fun x hx => by simp [hx]) ha

theorem kdf_cipher_vs (hE : E.Fits) (p q : Addr) (a : KdfAlgo) (ci : Cipher) (value pass rnd salt iv : Bytes) (hs : ValidBuf salt)
    (hl : salt.length = a.saltSize.toNat) :
    ViewSpec (onlyLax (kdfCipherPubs E a ci value pass salt iv)) (fun h => Has isBuf h p value ∧ Has isBuf h q pass)
      (givesN isBuf (kdfCipher E a ci value pass salt iv)) (hKdfCipher E a ci (some p) (some q) rnd salt iv) :=
  fun f h ha => hKdfCipher_view hE _ f trivial h p q a ci value pass rnd salt iv hs hl (fun _ h => h) (fun _ _ => Or.inr trivial)
    ha.1 ha.2

theorem kdf_decipher_vs (hE : E.Fits) (p q : Addr) (b pass : Bytes)
    (hw : ∀ m, kdfMetaFromBuffer b = some m → E.kdf m pass = none ∨ cipherResultFromBuffer (b.drop (kdfMetaSize b).toNat) ≠ none) :
    ViewSpec (onlyLax (kdfDecipherPubs b pass)) (fun h => Has isBuf h p b ∧ Has isBuf h q pass)
      (givesN isBuf (kdfDecipher E b pass)) (hKdfDecipher E (some p) (some q)) :=
  fun f h ha => hKdfDecipher_view hE _ f trivial h p q b pass hw (fun _ h => h) trivial ha.1 ha.2

theorem ecdh_new_vs (cv : Curve) (ci : Cipher) (pub pri : Bytes) (hv : ValidBuf pub) (hv' : ValidBuf pri) :
    ViewSpec (only []) (fun _ => True) (gives isEcdh (some ⟨ci, cv, pub, some pri⟩)) (hEcdhNew cv ci pub pri) :=
  ViewSpec.ofFresh fun f => hEcdhNew_spec _ f trivial cv ci pub pri hv hv'

theorem ecdh_cipher_vs (hE : E.Fits) (a r p q : Addr) (v : EcdhCtx) (pt : Bytes) (peer : EcKey) (m : KdfMeta) (iv : Bytes) :
    ViewSpec (onlyLax (ecdhPubs E v pt peer m iv))
      (fun h => Has isEcdh h a v ∧ Has isBuf h r pt ∧ Has isKey h p peer ∧ Has isKdfMeta h q m)
      (givesN isCRes (ecdhCipher E v pt peer m iv)) (hEcdhCipher E (some a) (some r) (some p) (some q) iv) :=
  fun f h ha => hEcdhCipher_view hE _ f trivial h a p q r v pt peer m iv (fun y hy => by simp [hy]) trivial
    (fun k hk x hx y hy => by simp [hk, hx, hy]) ha.1 ha.2.1 ha.2.2.1 ha.2.2.2

theorem ecdh_decipher_vs (hE : E.Fits) (a r p q : Addr) (v : EcdhCtx) (ct : CipherResult) (peer : EcKey) (m : KdfMeta) :
    ViewSpec (onlyLax m.publics)
      (fun h => Has isEcdh h a v ∧ Has isCRes h r ct ∧ Has isKey h p peer ∧ Has isKdfMeta h q m)
      (givesN isBuf (ecdhDecipher E v ct peer m)) (hEcdhDecipher E (some a) (some r) (some p) (some q)) :=
  fun f h ha => hEcdhDecipher_view hE _ f trivial h a p q r v ct peer m (fun _ hy => hy) trivial ha.1 ha.2.1 ha.2.2.1 ha.2.2.2

theorem root_generate_vs (node rem : CipherKey) (cv : Curve) (pub pri : Bytes)
    (h1 : ValidBuf node.key) (h2 : node.key.length = node.cipher.keyLen) (h3 : ValidBuf rem.key)
    (h4 : rem.key.length = rem.cipher.keyLen) (hv : ValidBuf pub) (hv' : ValidBuf pri) :
    ViewSpec (only []) (fun _ => True) (gives isRoot (some ⟨⟨cv, pub, some pri⟩, node, rem⟩)) (hRootGenerate node rem cv pub pri) :=
  ViewSpec.ofFresh fun f => hRootGenerate_spec _ f trivial node rem cv pub pri h1 h2 h3 h4 hv hv'

theorem root_localize_vs (hE : E.Fits) (a p : Addr) (k : RootKeys) (d : DevInfo) :
    ViewSpec (only []) (fun h => Has isRoot h a k ∧ Has isDev h p d) (gives isStorage (rootKeysLocalize E k d))
      (hRootLocalize E (some a) (some p)) :=
  fun f h ha => hRootLocalize_view hE _ f trivial h a p k d ha.1 ha.2

theorem root_serialize_vs (a : Addr) (k : RootKeys) (hs : k.sigRoot.pri.isSome) :
    ViewSpec (onlyStrict []) (fun h => Has isRoot h a k) (gives isBuf (rootKeysSerialize k).toOption) (hRootSerialize (some a)) :=
  fun f h ha => hRootSerialize_view _ f h a k hs ha

theorem root_export_vs (hE : E.Fits) (a q : Addr) (k : RootKeys) (key : CipherKey) (iv : Bytes) (hs : k.sigRoot.pri.isSome) :
    ViewSpec (only ((rootKeysExport E k key iv).toOption.toList.flatMap CipherResult.publics))
      (fun h => Has isRoot h a k ∧ Has isCKey h q key)
      (gives isCRes (rootKeysExport E k key iv).toOption) (hRootExport E (some a) (some q) iv) :=
  fun f h ha => hRootExport_view hE _ f trivial h a q k key iv hs (fun x hx y hy => by simp [hx, hy]) ha.1 ha.2

theorem root_parse_vs (hE : E.Fits) (a : Addr) (b : Bytes) :
    ViewSpec (only (rootPubs E b)) (fun h => Has isBuf h a b) (gives isRoot (rootKeysFromBuffer E b)) (hRootFromBuffer E (some a)) :=
  fun f h ha => hRootFromBuffer_view hE _ f trivial h a b (fun _ hx => hx) ha

theorem dev_new_vs (hE : E.Fits) (a : Addr) (b s : Bytes) (hv : ValidBuf s) :
    ViewSpec (only (s :: devInfoPubs E s b)) (fun h => Has isBuf h a b) (gives isDev (devInfoDerive E s b)) (hDevNew E (some a) s) :=
  fun f h ha => hDevNew_view hE _ f trivial h a b s hv (by simp) (fun x hx => by simp [devInfoPubs, hx])
    (fun x hx => by simp [devInfoPubs, hx]) (fun x y hx hy => by simp [devInfoPubs, hx, hy])
    (fun x y hx hy => by simp [devInfoPubs, hx, hy]) ha

end Wickr
