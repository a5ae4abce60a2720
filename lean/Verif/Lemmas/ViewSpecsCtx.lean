import Verif.Lemmas.ViewSpecsKeys
import Verif.Lemmas.SepCtx
/-
The functions about contexts, in the form from which statements about runs follow.
-/
namespace Wickr
open Asrt Spec

variable {E : Engine}

theorem HeaderOk.of {c : Rules} {ch : Chain} (h : ∀ b ∈ headerPubs E ch, c.pub b) : HeaderOk E c ch :=
  fun x hx hl => h x (by simp [headerPubs, hx, hl])

/-- Engines that keep the laws have a header key for every chain. -/
theorem header_of_lawful (hL : E.Lawful) (ch : Chain) : (genHeaderKey E defaultCipher ch).isSome = true := by
  obtain ⟨x, hx, hl⟩ := hL.digest_len ch.root.identifier (some ch.node.identifier) (digestMatchingCipher defaultCipher)
  have : x.length = defaultCipher.keyLen := by rw [hl]; rfl
  simp [genHeaderKey, hx, cipherKeyCreate, this]

theorem verifies_of_keyPair (hL : E.Lawful) {k : RootKeys} {b pub nonce : Bytes} (hk : E.KeyPair k.sigRoot) : Verifies E k b pub nonce := by
  intro r s hr hs
  have hr' : r.key = k.sigRoot := by
    simp only [identityCreate] at hr
    split at hr
    · exact nomatch hr
    · obtain rfl := Option.some.inj hr; rfl
  obtain ⟨s', h1, -, -, -, -, h2⟩ := hL.sign_verify k.sigRoot pub .sha512 nonce hk
  simp only [identitySign, hr'] at hs
  split at hs
  · exact nomatch hs
  · rw [h1] at hs
    obtain rfl := Option.some.inj hs
    exact h2 _ (by rw [hr'])

theorem ctx_copy_vs (hE : E.Fits) (a : Addr) (v : Ctx) (hs : (genHeaderKey E defaultCipher v.chain).isSome) :
    ViewSpec (only (v.publics ++ headerPubs E v.chain)) (fun h => Has isCtx h a v) (givesL isCtx ctxLoss (ctxCopy E v).toOption)
      (hCtxCopy E (some a)) := by
  intro f h ha
  rw [← ctxCopyOf_eq ha]
  exact hCtxCopy_view hE _ f trivial h a v (fun b hb => by simp [hb]) (HeaderOk.of fun b hb => by simp [hb]) hs ha

theorem gen_copy_vs (hE : E.Fits) (a : Addr) (v : GenResult) (hs : (genHeaderKey E defaultCipher v.ctx.chain).isSome) :
    ViewSpec (only (v.publics ++ headerPubs E v.ctx.chain)) (fun h => Has isGen h a v)
      (givesL isGen genLoss (genResultCopy E v).toOption) (hGenCopy E (some a)) := by
  intro f h ha
  rw [← genCopyOf_eq ha]
  exact hGenCopy_view hE _ f trivial h a v (fun b hb => by simp [hb]) (HeaderOk.of fun b hb => by simp [hb]) hs ha

theorem GenOk.of {c : Rules} {ch : Chain} (hn : ch.cache = none) (h : ∀ b ∈ draftPubs E ch, c.pub b) : GenOk E c ch := by
  refine ⟨⟨fun st b hb => ?_, fun b hb => ?_, fun b hb => ?_⟩, fun b hb => ?_, fun b hb => ?_, HeaderOk.of fun b hb => ?_⟩
  · refine h b ?_
    unfold draftPubs
    refine List.mem_append_right _ (List.mem_flatMap.2 ⟨st, by cases st <;> simp, by simp [hb]⟩)
  · rw [hn] at hb; simp at hb
  · exact h b (by simp [draftPubs, hb])
  · exact h b (by simp [draftPubs, hb])
  · exact h b (by simp [draftPubs, hb])
  · exact h b (by simp [draftPubs, hb])

theorem GenHyp.of {c : Rules} {k : RootKeys} {b : Bytes} {cv : Curve} {pub pri rid nonce : Bytes} (hv : Verifies E k b pub nonce)
    (h : ∀ y ∈ genPubs E k b ⟨cv, pub, some pri⟩ rid nonce, c.pub y) : GenHyp E c k b cv pub pri rid nonce := by
  refine ⟨hv, h _ (by simp [genPubs]), fun r s hr hs => h _ (by simp [genPubs, hr, hs]), fun ch hch => GenOk.of ?_ fun y hy => h y ?_⟩
  · simp only [chainDraft, Option.bind_eq_some_iff, Option.map_eq_some_iff] at hch
    obtain ⟨r, hr, n, hn, rfl⟩ := hch
    rfl
  · simp [genPubs, hch, hy]

theorem RecoverHyp.of {c : Rules} {data : Bytes} {key : CipherKey} (h : ∀ y ∈ recoverPubs E data key, c.pub y) :
    RecoverHyp E c data key := by
  refine ⟨fun x hx => Or.inl (h x (by simp [recoverPubs, hx])), fun r hr y hy => h y (by simp [recoverPubs, hr, hy]), ?_⟩
  intro r d hr hd x hx
  exact h _ (by simp [recoverPubs, hr, hd, hx])

theorem ctx_gen_vs (hE : E.Fits) (p a q : Addr) (d : DevInfo) (k : RootKeys) (b : Bytes) (cv : Curve)
    (pub pri rid nonce : Bytes) (rk : CipherKey) (h1 : ValidBuf pub) (h2 : ValidBuf pri) (h3 : ValidBuf rid) (h4 : ValidBuf rk.key)
    (h5 : rk.key.length = rk.cipher.keyLen) (hv : Verifies E k b pub nonce) :
    ViewSpec (only (genPubs E k b ⟨cv, pub, some pri⟩ rid nonce)) (fun h => Has isDev h p d ∧ Has isRoot h a k ∧ Has isBuf h q b)
      (givesA isGen genUncached (ctxGenWithRootKeys E d k b ⟨⟨cv, pub, some pri⟩, rid, nonce, rk⟩))
      (hCtxGen E (some p) (some a) (some q) cv pub pri rid nonce rk) :=
  fun f h ha => hCtxGen_view hE _ f trivial h p a q d k b cv pub pri rid nonce rk h1 h2 h3 h4 h5 (by simp [genPubs])
    (by simp [genPubs]) (GenHyp.of hv fun _ h => h) ha.1 ha.2.1 ha.2.2

theorem ctx_gen_new_vs (hE : E.Fits) (p q : Addr) (d : DevInfo) (b : Bytes)
    (node rem : CipherKey) (rcv : Curve) (rpub rpri : Bytes) (cv : Curve) (pub pri rid nonce : Bytes) (rk : CipherKey)
    (g1 : ValidBuf node.key) (g2 : node.key.length = node.cipher.keyLen) (g3 : ValidBuf rem.key)
    (g4 : rem.key.length = rem.cipher.keyLen) (g5 : ValidBuf rpub) (g6 : ValidBuf rpri) (h1 : ValidBuf pub) (h2 : ValidBuf pri)
    (h3 : ValidBuf rid) (h4 : ValidBuf rk.key) (h5 : rk.key.length = rk.cipher.keyLen)
    (hv : Verifies E ⟨⟨rcv, rpub, some rpri⟩, node, rem⟩ b pub nonce) :
    ViewSpec (only (genPubs E ⟨⟨rcv, rpub, some rpri⟩, node, rem⟩ b ⟨cv, pub, some pri⟩ rid nonce))
      (fun h => Has isDev h p d ∧ Has isBuf h q b)
      (givesA isGen genUncached (ctxGenNew E d b ⟨⟨rcv, rpub, some rpri⟩, node, rem⟩ ⟨⟨cv, pub, some pri⟩, rid, nonce, rk⟩))
      (hCtxGenNew E (some p) (some q) node rem rcv rpub rpri cv pub pri rid nonce rk) :=
  fun f h ha => hCtxGenNew_view hE _ f trivial h p q d b node rem rcv rpub rpri cv pub pri rid nonce rk g1 g2 g3 g4 g5 g6
    h1 h2 h3 h4 h5 (by simp [genPubs]) (by simp [genPubs]) (GenHyp.of hv fun _ h => h) ha.1 ha.2

theorem ctx_gen_sig_vs (hE : E.Fits) (p s q : Addr) (d : DevInfo) (k : EcKey) (b : Bytes)
    (node rem : CipherKey) (rcv : Curve) (rpub rpri : Bytes) (cv : Curve) (pub pri rid nonce : Bytes) (rk : CipherKey)
    (g1 : ValidBuf node.key) (g2 : node.key.length = node.cipher.keyLen) (g3 : ValidBuf rem.key)
    (g4 : rem.key.length = rem.cipher.keyLen) (g5 : ValidBuf rpub) (g6 : ValidBuf rpri) (h1 : ValidBuf pub) (h2 : ValidBuf pri)
    (h3 : ValidBuf rid) (h4 : ValidBuf rk.key) (h5 : rk.key.length = rk.cipher.keyLen)
    (hv : Verifies E ⟨k, node, rem⟩ b pub nonce) :
    ViewSpec (only (rpub :: genPubs E ⟨k, node, rem⟩ b ⟨cv, pub, some pri⟩ rid nonce))
      (fun h => Has isDev h p d ∧ Has isKey h s k ∧ Has isBuf h q b)
      (givesA isGen genUncached
        (ctxGenNewWithSigKey E d k b ⟨⟨rcv, rpub, some rpri⟩, node, rem⟩ ⟨⟨cv, pub, some pri⟩, rid, nonce, rk⟩))
      (hCtxGenSig E (some p) (some s) (some q) node rem rcv rpub rpri cv pub pri rid nonce rk) :=
  fun f h ha => hCtxGenSig_view hE _ f trivial h p s q d k b node rem rcv rpub rpri cv pub pri rid nonce rk g1 g2 g3 g4 g5 g6
    h1 h2 h3 h4 h5 (by simp [genPubs]) (by simp [genPubs]) (by simp) (GenHyp.of hv fun _ h => List.mem_cons_of_mem _ h)
    ha.1 ha.2.1 ha.2.2

theorem import_recovery_vs (hE : E.Fits) (a q : Addr) (b : Bytes) (k : CipherKey) :
    ViewSpec (only (recoverPubs E b k)) (fun h => Has isBuf h a b ∧ Has isCKey h q k) (gives isRoot (importRecovery E b k))
      (hImportRecovery E (some a) (some q)) :=
  fun f h ha => let ho : RecoverHyp E (only (recoverPubs E b k)) b k := RecoverHyp.of fun _ h => h
    hImportRecovery_view hE _ f trivial h a q b k ho.head ho.result ho.root ha.1 ha.2

theorem ctx_gen_recovery_vs (hE : E.Fits) (p a s q : Addr) (d : DevInfo) (data : Bytes) (key : CipherKey) (b : Bytes) (cv : Curve)
    (pub pri rid nonce : Bytes) (rk : CipherKey) (h1 : ValidBuf pub) (h2 : ValidBuf pri) (h3 : ValidBuf rid) (h4 : ValidBuf rk.key)
    (h5 : rk.key.length = rk.cipher.keyLen) (hr : Recovers E d data key b ⟨⟨cv, pub, some pri⟩, rid, nonce, rk⟩) :
    ViewSpec (only (recoveryPubs E data key b ⟨cv, pub, some pri⟩ rid nonce))
      (fun h => Has isDev h p d ∧ Has isBuf h a data ∧ Has isCKey h s key ∧ Has isBuf h q b)
      (givesA isGen genUncached (ctxGenWithRecovery E d data key b ⟨⟨cv, pub, some pri⟩, rid, nonce, rk⟩).toOption)
      (hCtxGenRecovery E (some p) (some a) (some s) (some q) cv pub pri rid nonce rk) :=
  fun f h ha => hCtxGenRecovery_view hE _ f trivial h p a s q d data key b cv pub pri rid nonce rk h1 h2 h3 h4 h5
    (by simp) (by simp) (RecoverHyp.of fun y hy => by simp [hy])
    (fun k hk => GenHyp.of (hr k hk).1 fun y hy => by simp [hk, hy]) (fun k hk => (hr k hk).2)
    ha.1 ha.2.1 ha.2.2.1 ha.2.2.2

theorem import_key_vs (hE : E.Fits) (p q : Addr) (b pass : Bytes) (hw : Readable E b pass) :
    ViewSpec (onlyLax (kdfDecipherPubs b pass)) (fun h => Has isBuf h p b ∧ Has isBuf h q pass)
      (givesN isCKey (importRecoveryKeyPass E b pass)) (hImportRecoveryKey E (some p) (some q)) :=
  fun f h ha => hImportRecoveryKey_view hE _ f trivial h p q b pass hw (fun _ h => h) trivial ha.1 ha.2

theorem ctx_gen_pass_vs (hE : E.Fits) (p x s a q : Addr) (d : DevInfo) (ex pass data b : Bytes) (cv : Curve)
    (pub pri rid nonce : Bytes) (rk : CipherKey) (h1 : ValidBuf pub) (h2 : ValidBuf pri) (h3 : ValidBuf rid) (h4 : ValidBuf rk.key)
    (h5 : rk.key.length = rk.cipher.keyLen) (hw : Readable E ex pass)
    (hr : ∀ key, importRecoveryKeyPass E ex pass = some key → Recovers E d data key b ⟨⟨cv, pub, some pri⟩, rid, nonce, rk⟩) :
    ViewSpec (onlyLax (b :: rid :: kdfDecipherPubs ex pass ++
        (importRecoveryKeyPass E ex pass).toList.flatMap fun key => recoveryPubs E data key b ⟨cv, pub, some pri⟩ rid nonce))
      (fun h => Has isDev h p d ∧ Has isBuf h x ex ∧ Has isBuf h s pass ∧ Has isBuf h a data ∧ Has isBuf h q b)
      (givesA isGen genUncached (ctxGenWithPassphrase E d ex pass data b ⟨⟨cv, pub, some pri⟩, rid, nonce, rk⟩).toOption)
      (hCtxGenPass E (some p) (some x) (some s) (some a) (some q) cv pub pri rid nonce rk) :=
  fun f h ha => hCtxGenPass_view hE _ f trivial h p x s a q d ex pass data b cv pub pri rid nonce rk hw
    (fun y hy => by simp [hy]) trivial h1 h2 h3 h4 h5 (by simp) (by simp)
    (fun key hk => RecoverHyp.of fun y hy => by simp [hk, hy])
    (fun key k hk hkk => GenHyp.of (hr key hk k hkk).1 fun y hy => by simp [hk, hkk, hy])
    (fun key k hk hkk => (hr key hk k hkk).2) ha.1 ha.2.1 ha.2.2.1 ha.2.2.2.1 ha.2.2.2.2

theorem export_key_vs (hE : E.Fits) (p q : Addr) (g : GenResult) (pass rnd salt iv : Bytes) (hs : ValidBuf salt)
    (hl : salt.length = scrypt17.saltSize.toNat) :
    ViewSpec (onlyLax ((cipherKeySerialize g.recoveryKey).toList.flatMap fun b => kdfCipherPubs E scrypt17 defaultCipher b pass salt iv))
      (fun h => Has isGen h p g ∧ Has isBuf h q pass) (givesN isBuf (exportRecoveryKeyPass E g pass salt iv))
      (hExportRecoveryKey E (some p) (some q) rnd salt iv) :=
  fun f h ha => hExportRecoveryKey_view hE _ f trivial h p q g pass rnd salt iv hs hl (fun b hb x hx => by simp [hb, hx])
    (fun _ _ => Or.inr trivial) ha.1 ha.2

theorem make_recovery_vs (hE : E.Fits) (p : Addr) (g : GenResult) (iv : Bytes) (hs : g.rootKeys.sigRoot.pri.isSome) :
    ViewSpec (only ((rootKeysExport E g.rootKeys g.recoveryKey iv).toOption.toList.flatMap CipherResult.publics))
      (fun h => Has isGen h p g) (gives isBuf (makeRecovery E g iv).toOption) (hMakeRecovery E (some p) iv) :=
  fun f h ha => hMakeRecovery_view hE _ f trivial h p g iv hs (fun x hx y hy => by simp [hx, hy]) ha

theorem cipher_local_vs (hE : E.Fits) (p q : Addr) (x : Ctx) (pt iv : Bytes) :
    ViewSpec (only (encryptPubs E pt none x.storage.loc iv)) (fun h => Has isCtx h p x ∧ Has isBuf h q pt)
      (gives isCRes (cipherLocal E x pt iv)) (hCipherStored E 0 (some p) (some q) iv) :=
  fun f h ha => hCipherLocal_view hE _ f trivial h p q x pt iv
    (fun r hr y hy => by rw [cipherLocal] at hr; simp [hr, hy]) ha.1 ha.2

theorem cipher_remote_vs (hE : E.Fits) (p q : Addr) (x : Ctx) (pt iv : Bytes) :
    ViewSpec (only (encryptPubs E pt none x.storage.rem iv)) (fun h => Has isCtx h p x ∧ Has isBuf h q pt)
      (gives isCRes (cipherRemote E x pt iv)) (hCipherStored E 1 (some p) (some q) iv) :=
  fun f h ha => hCipherRemote_view hE _ f trivial h p q x pt iv
    (fun r hr y hy => by rw [cipherRemote] at hr; simp [hr, hy]) ha.1 ha.2

theorem decipher_local_vs (hE : E.Fits) (p q : Addr) (x : Ctx) (ct : CipherResult) :
    ViewSpec (onlyStrict []) (fun h => Has isCtx h p x ∧ Has isCRes h q ct)
      (gives isBuf (decipherLocal E x ct)) (hDecipherStored E 0 (some p) (some q)) :=
  fun f h ha => hDecipherLocal_view hE _ f h p q x ct ha.1 ha.2

theorem decipher_remote_vs (hE : E.Fits) (p q : Addr) (x : Ctx) (ct : CipherResult) :
    ViewSpec (onlyStrict []) (fun h => Has isCtx h p x ∧ Has isCRes h q ct)
      (gives isBuf (decipherRemote E x ct)) (hDecipherStored E 1 (some p) (some q)) :=
  fun f h ha => hDecipherRemote_view hE _ f h p q x ct ha.1 ha.2

theorem ctx_eph_vs (hE : E.Fits) (p : Addr) (x : Ctx) (n : UInt64) (cv : Curve) (pub pri nonce : Bytes) (hv : ValidBuf pub)
    (hv' : ValidBuf pri) :
    ViewSpec (only (signPubs E x.chain.node pub nonce)) (fun h => Has isCtx h p x)
      (gives isEph (ctxEphGen E x n ⟨cv, pub, some pri⟩ nonce)) (hCtxEphGen E (some p) n cv pub pri nonce) :=
  fun f h ha => hCtxEphGen_view hE _ f trivial h p x n cv pub pri nonce hv hv' (fun s hs => by simp [hs]) ha

end Wickr
