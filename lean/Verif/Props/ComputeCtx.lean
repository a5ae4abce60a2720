import Verif.Lemmas.WitnessCtx
import Verif.Lemmas.MemorySpecs
/-
C86-C88 and C90 for functions about contexts: copying, making, recovery, storage data, ephemeral keys; and what contexts add to
C79, C82-C84.
-/
namespace Wickr
open Asrt Spec

variable {E : Engine}

/-- `wickr_ctx_copy`; signatures may be missing from a copy made while memory was lacking. -/
theorem C86_ctx_copy (hE : E.Fits) (hL : E.Lawful) (a : Addr) (v : Ctx) :
    ComputesUpTo ctxLoss (fun h => Has isCtx h a v) isCtx ((ctxCopy E v).toOption) (hCtxCopy E (some a)) :=
  ComputesUpTo.of ((ctx_copy_vs hE a v (header_of_lawful hL _)).mono fun _ _ => givesL_le)

theorem C87_ctx_copy (hE : E.Fits) (hL : E.Lawful) (a : Addr) (v : Ctx) :
    Tidy (fun h => Has isCtx h a v) isCtx (hCtxCopy E (some a)) :=
  Tidy.ofL (ctx_copy_vs hE a v (header_of_lawful hL _))

theorem C88_ctx_copy (hE : E.Fits) (hL : E.Lawful) (a : Addr) (v : Ctx) :
    Discreet (fun h => Has isCtx h a v) (v.publics ++ headerPubs E v.chain) (hCtxCopy E (some a)) :=
  Discreet.of (ctx_copy_vs hE a v (header_of_lawful hL _)) fun _ h => h

/-- `wickr_ctx_gen_result_copy`. -/
theorem C86_gen_copy (hE : E.Fits) (hL : E.Lawful) (a : Addr) (v : GenResult) :
    ComputesUpTo genLoss (fun h => Has isGen h a v) isGen ((genResultCopy E v).toOption) (hGenCopy E (some a)) :=
  ComputesUpTo.of ((gen_copy_vs hE a v (header_of_lawful hL _)).mono fun _ _ => givesL_le)

theorem C87_gen_copy (hE : E.Fits) (hL : E.Lawful) (a : Addr) (v : GenResult) :
    Tidy (fun h => Has isGen h a v) isGen (hGenCopy E (some a)) :=
  Tidy.ofL (gen_copy_vs hE a v (header_of_lawful hL _))

theorem C88_gen_copy (hE : E.Fits) (hL : E.Lawful) (a : Addr) (v : GenResult) :
    Discreet (fun h => Has isGen h a v) (v.publics ++ headerPubs E v.ctx.chain) (hGenCopy E (some a)) :=
  Discreet.of (gen_copy_vs hE a v (header_of_lawful hL _)) fun _ h => h

/-- `wickr_ctx_gen_with_root_keys`, if what the root key signs verifies; the digest of the status may be missing if memory was lacking. -/
theorem C86_ctx_gen_partial (hE : E.Fits) (p a q : Addr) (d : DevInfo) (k : RootKeys) (b : Bytes) (cv : Curve) (pub pri rid nonce : Bytes) (rk : CipherKey)
    (h1 : ValidBuf pub) (h2 : ValidBuf pri) (h3 : ValidBuf rid) (h4 : ValidBuf rk.key) (h5 : rk.key.length = rk.cipher.keyLen)
    (hv : Verifies E k b pub nonce) :
    ComputesUpTo genUncached (fun h => Has isDev h p d ∧ Has isRoot h a k ∧ Has isBuf h q b) isGen (ctxGenWithRootKeys E d k b ⟨⟨cv, pub, some pri⟩, rid, nonce, rk⟩) (hCtxGen E (some p) (some a) (some q) cv pub pri rid nonce rk) :=
  ComputesUpTo.of (ctx_gen_vs hE p a q d k b cv pub pri rid nonce rk h1 h2 h3 h4 h5 hv)

theorem C88_ctx_gen_partial (hE : E.Fits) (p a q : Addr) (d : DevInfo) (k : RootKeys) (b : Bytes) (cv : Curve) (pub pri rid nonce : Bytes) (rk : CipherKey)
    (h1 : ValidBuf pub) (h2 : ValidBuf pri) (h3 : ValidBuf rid) (h4 : ValidBuf rk.key) (h5 : rk.key.length = rk.cipher.keyLen)
    (hv : Verifies E k b pub nonce) :
    Discreet (fun h => Has isDev h p d ∧ Has isRoot h a k ∧ Has isBuf h q b) (genPubs E k b ⟨cv, pub, some pri⟩ rid nonce) (hCtxGen E (some p) (some a) (some q) cv pub pri rid nonce rk) :=
  Discreet.of (ctx_gen_vs hE p a q d k b cv pub pri rid nonce rk h1 h2 h3 h4 h5 hv) fun _ h => h

/-- `wickr_ctx_gen_new`. -/
theorem C86_ctx_gen_new_partial (hE : E.Fits) (p q : Addr) (d : DevInfo) (b : Bytes) (node rem : CipherKey) (rcv : Curve) (rpub rpri : Bytes)
    (g1 : ValidBuf node.key) (g2 : node.key.length = node.cipher.keyLen) (g3 : ValidBuf rem.key)
    (g4 : rem.key.length = rem.cipher.keyLen) (g5 : ValidBuf rpub) (g6 : ValidBuf rpri)
    (cv : Curve) (pub pri rid nonce : Bytes) (rk : CipherKey)
    (h1 : ValidBuf pub) (h2 : ValidBuf pri) (h3 : ValidBuf rid) (h4 : ValidBuf rk.key) (h5 : rk.key.length = rk.cipher.keyLen)
    (hv : Verifies E ⟨⟨rcv, rpub, some rpri⟩, node, rem⟩ b pub nonce) :
    ComputesUpTo genUncached (fun h => Has isDev h p d ∧ Has isBuf h q b) isGen (ctxGenNew E d b ⟨⟨rcv, rpub, some rpri⟩, node, rem⟩ ⟨⟨cv, pub, some pri⟩, rid, nonce, rk⟩) (hCtxGenNew E (some p) (some q) node rem rcv rpub rpri cv pub pri rid nonce rk) :=
  ComputesUpTo.of (ctx_gen_new_vs hE p q d b node rem rcv rpub rpri cv pub pri rid nonce rk g1 g2 g3 g4 g5 g6 h1 h2 h3 h4 h5 hv)

theorem C88_ctx_gen_new_partial (hE : E.Fits) (p q : Addr) (d : DevInfo) (b : Bytes) (node rem : CipherKey) (rcv : Curve) (rpub rpri : Bytes)
    (g1 : ValidBuf node.key) (g2 : node.key.length = node.cipher.keyLen) (g3 : ValidBuf rem.key)
    (g4 : rem.key.length = rem.cipher.keyLen) (g5 : ValidBuf rpub) (g6 : ValidBuf rpri)
    (cv : Curve) (pub pri rid nonce : Bytes) (rk : CipherKey)
    (h1 : ValidBuf pub) (h2 : ValidBuf pri) (h3 : ValidBuf rid) (h4 : ValidBuf rk.key) (h5 : rk.key.length = rk.cipher.keyLen)
    (hv : Verifies E ⟨⟨rcv, rpub, some rpri⟩, node, rem⟩ b pub nonce) :
    Discreet (fun h => Has isDev h p d ∧ Has isBuf h q b) (genPubs E ⟨⟨rcv, rpub, some rpri⟩, node, rem⟩ b ⟨cv, pub, some pri⟩ rid nonce) (hCtxGenNew E (some p) (some q) node rem rcv rpub rpri cv pub pri rid nonce rk) :=
  Discreet.of (ctx_gen_new_vs hE p q d b node rem rcv rpub rpri cv pub pri rid nonce rk g1 g2 g3 g4 g5 g6 h1 h2 h3 h4 h5 hv) fun _ h => h

/-- `wickr_ctx_gen_new_with_sig_key`. -/
theorem C86_ctx_gen_sig_partial (hE : E.Fits) (p s q : Addr) (d : DevInfo) (k : EcKey) (b : Bytes) (node rem : CipherKey) (rcv : Curve) (rpub rpri : Bytes)
    (g1 : ValidBuf node.key) (g2 : node.key.length = node.cipher.keyLen) (g3 : ValidBuf rem.key)
    (g4 : rem.key.length = rem.cipher.keyLen) (g5 : ValidBuf rpub) (g6 : ValidBuf rpri)
    (cv : Curve) (pub pri rid nonce : Bytes) (rk : CipherKey)
    (h1 : ValidBuf pub) (h2 : ValidBuf pri) (h3 : ValidBuf rid) (h4 : ValidBuf rk.key) (h5 : rk.key.length = rk.cipher.keyLen)
    (hv : Verifies E ⟨k, node, rem⟩ b pub nonce) :
    ComputesUpTo genUncached (fun h => Has isDev h p d ∧ Has isKey h s k ∧ Has isBuf h q b) isGen (ctxGenNewWithSigKey E d k b ⟨⟨rcv, rpub, some rpri⟩, node, rem⟩ ⟨⟨cv, pub, some pri⟩, rid, nonce, rk⟩) (hCtxGenSig E (some p) (some s) (some q) node rem rcv rpub rpri cv pub pri rid nonce rk) :=
  ComputesUpTo.of (ctx_gen_sig_vs hE p s q d k b node rem rcv rpub rpri cv pub pri rid nonce rk g1 g2 g3 g4 g5 g6 h1 h2 h3 h4 h5 hv)

theorem C88_ctx_gen_sig_partial (hE : E.Fits) (p s q : Addr) (d : DevInfo) (k : EcKey) (b : Bytes) (node rem : CipherKey) (rcv : Curve) (rpub rpri : Bytes)
    (g1 : ValidBuf node.key) (g2 : node.key.length = node.cipher.keyLen) (g3 : ValidBuf rem.key)
    (g4 : rem.key.length = rem.cipher.keyLen) (g5 : ValidBuf rpub) (g6 : ValidBuf rpri)
    (cv : Curve) (pub pri rid nonce : Bytes) (rk : CipherKey)
    (h1 : ValidBuf pub) (h2 : ValidBuf pri) (h3 : ValidBuf rid) (h4 : ValidBuf rk.key) (h5 : rk.key.length = rk.cipher.keyLen)
    (hv : Verifies E ⟨k, node, rem⟩ b pub nonce) :
    Discreet (fun h => Has isDev h p d ∧ Has isKey h s k ∧ Has isBuf h q b) (rpub :: genPubs E ⟨k, node, rem⟩ b ⟨cv, pub, some pri⟩ rid nonce) (hCtxGenSig E (some p) (some s) (some q) node rem rcv rpub rpri cv pub pri rid nonce rk) :=
  Discreet.of (ctx_gen_sig_vs hE p s q d k b node rem rcv rpub rpri cv pub pri rid nonce rk g1 g2 g3 g4 g5 g6 h1 h2 h3 h4 h5 hv) fun _ h => h

/-- `wickr_ctx_gen_import_recovery`. -/
theorem C86_import_recovery (hE : E.Fits) (a q : Addr) (b : Bytes) (k : CipherKey) :
    Computes (fun h => Has isBuf h a b ∧ Has isCKey h q k) isRoot (importRecovery E b k) (hImportRecovery E (some a) (some q)) :=
  Computes.of (import_recovery_vs hE a q b k)

theorem C87_import_recovery (hE : E.Fits) (a q : Addr) (b : Bytes) (k : CipherKey) :
    Tidy (fun h => Has isBuf h a b ∧ Has isCKey h q k) isRoot (hImportRecovery E (some a) (some q)) :=
  Tidy.of (import_recovery_vs hE a q b k)

/-- The keys that are read are among what is released: `C90_root_parse_not_wiped`. -/
theorem C88_import_recovery_partial (hE : E.Fits) (a q : Addr) (b : Bytes) (k : CipherKey) :
    Discreet (fun h => Has isBuf h a b ∧ Has isCKey h q k) (recoverPubs E b k) (hImportRecovery E (some a) (some q)) :=
  Discreet.of (import_recovery_vs hE a q b k) fun _ h => h

/-- `wickr_ctx_gen_with_recovery`, if a context can be made of the root keys, if there are any in the data. -/
theorem C86_ctx_gen_recovery_partial (hE : E.Fits) (p a s q : Addr) (d : DevInfo) (data : Bytes) (key : CipherKey) (b : Bytes) (cv : Curve) (pub pri rid nonce : Bytes) (rk : CipherKey)
    (h1 : ValidBuf pub) (h2 : ValidBuf pri) (h3 : ValidBuf rid) (h4 : ValidBuf rk.key) (h5 : rk.key.length = rk.cipher.keyLen)
    (hr : Recovers E d data key b ⟨⟨cv, pub, some pri⟩, rid, nonce, rk⟩) :
    ComputesUpTo genUncached (fun h => Has isDev h p d ∧ Has isBuf h a data ∧ Has isCKey h s key ∧ Has isBuf h q b) isGen ((ctxGenWithRecovery E d data key b ⟨⟨cv, pub, some pri⟩, rid, nonce, rk⟩).toOption) (hCtxGenRecovery E (some p) (some a) (some s) (some q) cv pub pri rid nonce rk) :=
  ComputesUpTo.of (ctx_gen_recovery_vs hE p a s q d data key b cv pub pri rid nonce rk h1 h2 h3 h4 h5 hr)

theorem C88_ctx_gen_recovery_partial (hE : E.Fits) (p a s q : Addr) (d : DevInfo) (data : Bytes) (key : CipherKey) (b : Bytes) (cv : Curve) (pub pri rid nonce : Bytes) (rk : CipherKey)
    (h1 : ValidBuf pub) (h2 : ValidBuf pri) (h3 : ValidBuf rid) (h4 : ValidBuf rk.key) (h5 : rk.key.length = rk.cipher.keyLen)
    (hr : Recovers E d data key b ⟨⟨cv, pub, some pri⟩, rid, nonce, rk⟩) :
    Discreet (fun h => Has isDev h p d ∧ Has isBuf h a data ∧ Has isCKey h s key ∧ Has isBuf h q b) (recoveryPubs E data key b ⟨cv, pub, some pri⟩ rid nonce) (hCtxGenRecovery E (some p) (some a) (some s) (some q) cv pub pri rid nonce rk) :=
  Discreet.of (ctx_gen_recovery_vs hE p a s q d data key b cv pub pri rid nonce rk h1 h2 h3 h4 h5 hr) fun _ h => h

/-- `wickr_ctx_gen_import_recovery_key_passphrase`. -/
theorem C86_import_recovery_key_partial (hE : E.Fits) (p q : Addr) (b pass : Bytes) (hw : Readable E b pass) :
    Computes (fun h => Has isBuf h p b ∧ Has isBuf h q pass) isCKey (importRecoveryKeyPass E b pass) (hImportRecoveryKey E (some p) (some q)) :=
  Computes.ofN (import_key_vs hE p q b pass hw)

theorem C90_import_recovery_key_partial (hE : E.Fits) (p q : Addr) (b pass : Bytes) (hw : Readable E b pass) :
    DiscreetWithMemory (fun h => Has isBuf h p b ∧ Has isBuf h q pass) (kdfDecipherPubs b pass) (hImportRecoveryKey E (some p) (some q)) :=
  DiscreetWithMemory.of (import_key_vs hE p q b pass hw) fun _ h => h

/-- `wickr_ctx_gen_with_passphrase`. -/
theorem C86_ctx_gen_pass_partial (hE : E.Fits) (p x s a q : Addr) (d : DevInfo) (ex pass data b : Bytes) (cv : Curve) (pub pri rid nonce : Bytes) (rk : CipherKey)
    (h1 : ValidBuf pub) (h2 : ValidBuf pri) (h3 : ValidBuf rid) (h4 : ValidBuf rk.key) (h5 : rk.key.length = rk.cipher.keyLen)
    (hw : Readable E ex pass)
    (hr : ∀ key, importRecoveryKeyPass E ex pass = some key → Recovers E d data key b ⟨⟨cv, pub, some pri⟩, rid, nonce, rk⟩) :
    ComputesUpTo genUncached (fun h => Has isDev h p d ∧ Has isBuf h x ex ∧ Has isBuf h s pass ∧ Has isBuf h a data ∧ Has isBuf h q b) isGen ((ctxGenWithPassphrase E d ex pass data b ⟨⟨cv, pub, some pri⟩, rid, nonce, rk⟩).toOption) (hCtxGenPass E (some p) (some x) (some s) (some a) (some q) cv pub pri rid nonce rk) :=
  ComputesUpTo.of (ctx_gen_pass_vs hE p x s a q d ex pass data b cv pub pri rid nonce rk h1 h2 h3 h4 h5 hw hr)

theorem C90_ctx_gen_pass_partial (hE : E.Fits) (p x s a q : Addr) (d : DevInfo) (ex pass data b : Bytes) (cv : Curve) (pub pri rid nonce : Bytes) (rk : CipherKey)
    (h1 : ValidBuf pub) (h2 : ValidBuf pri) (h3 : ValidBuf rid) (h4 : ValidBuf rk.key) (h5 : rk.key.length = rk.cipher.keyLen)
    (hw : Readable E ex pass)
    (hr : ∀ key, importRecoveryKeyPass E ex pass = some key → Recovers E d data key b ⟨⟨cv, pub, some pri⟩, rid, nonce, rk⟩) :
    DiscreetWithMemory (fun h => Has isDev h p d ∧ Has isBuf h x ex ∧ Has isBuf h s pass ∧ Has isBuf h a data ∧ Has isBuf h q b) (b :: rid :: kdfDecipherPubs ex pass ++
        (importRecoveryKeyPass E ex pass).toList.flatMap fun key => recoveryPubs E data key b ⟨cv, pub, some pri⟩ rid nonce) (hCtxGenPass E (some p) (some x) (some s) (some a) (some q) cv pub pri rid nonce rk) :=
  DiscreetWithMemory.of (ctx_gen_pass_vs hE p x s a q d ex pass data b cv pub pri rid nonce rk h1 h2 h3 h4 h5 hw hr) fun _ h => h

/-- `wickr_ctx_gen_export_recovery_key_passphrase`. -/
theorem C86_export_recovery_key (hE : E.Fits) (p q : Addr) (g : GenResult) (pass rnd salt iv : Bytes) (hs : ValidBuf salt)
    (hl : salt.length = scrypt17.saltSize.toNat) :
    Computes (fun h => Has isGen h p g ∧ Has isBuf h q pass) isBuf (exportRecoveryKeyPass E g pass salt iv) (hExportRecoveryKey E (some p) (some q) rnd salt iv) :=
  Computes.ofN (export_key_vs hE p q g pass rnd salt iv hs hl)

theorem C90_export_recovery_key (hE : E.Fits) (p q : Addr) (g : GenResult) (pass rnd salt iv : Bytes) (hs : ValidBuf salt)
    (hl : salt.length = scrypt17.saltSize.toNat) :
    DiscreetWithMemory (fun h => Has isGen h p g ∧ Has isBuf h q pass) ((cipherKeySerialize g.recoveryKey).toList.flatMap fun b => kdfCipherPubs E scrypt17 defaultCipher b pass salt iv) (hExportRecoveryKey E (some p) (some q) rnd salt iv) :=
  DiscreetWithMemory.of (export_key_vs hE p q g pass rnd salt iv hs hl) fun _ h => h

/-- `wickr_ctx_gen_result_make_recovery`, of root keys with a private key. -/
theorem C86_make_recovery_partial (hE : E.Fits) (p : Addr) (g : GenResult) (iv : Bytes) (hs : g.rootKeys.sigRoot.pri.isSome) :
    Computes (fun h => Has isGen h p g) isBuf ((makeRecovery E g iv).toOption) (hMakeRecovery E (some p) iv) :=
  Computes.of (make_recovery_vs hE p g iv hs)

theorem C87_make_recovery_partial (hE : E.Fits) (p : Addr) (g : GenResult) (iv : Bytes) (hs : g.rootKeys.sigRoot.pri.isSome) :
    Tidy (fun h => Has isGen h p g) isBuf (hMakeRecovery E (some p) iv) :=
  Tidy.of (make_recovery_vs hE p g iv hs)

theorem C88_make_recovery_partial (hE : E.Fits) (p : Addr) (g : GenResult) (iv : Bytes) (hs : g.rootKeys.sigRoot.pri.isSome) :
    Discreet (fun h => Has isGen h p g) ((rootKeysExport E g.rootKeys g.recoveryKey iv).toOption.toList.flatMap CipherResult.publics) (hMakeRecovery E (some p) iv) :=
  Discreet.of (make_recovery_vs hE p g iv hs) fun _ h => h

/-- `wickr_ctx_cipher_local`. -/
theorem C86_cipher_local (hE : E.Fits) (p q : Addr) (x : Ctx) (pt iv : Bytes) :
    Computes (fun h => Has isCtx h p x ∧ Has isBuf h q pt) isCRes (cipherLocal E x pt iv) (hCipherStored E 0 (some p) (some q) iv) :=
  Computes.of (cipher_local_vs hE p q x pt iv)

theorem C87_cipher_local (hE : E.Fits) (p q : Addr) (x : Ctx) (pt iv : Bytes) :
    Tidy (fun h => Has isCtx h p x ∧ Has isBuf h q pt) isCRes (hCipherStored E 0 (some p) (some q) iv) :=
  Tidy.of (cipher_local_vs hE p q x pt iv)

theorem C88_cipher_local (hE : E.Fits) (p q : Addr) (x : Ctx) (pt iv : Bytes) :
    Discreet (fun h => Has isCtx h p x ∧ Has isBuf h q pt) (encryptPubs E pt none x.storage.loc iv) (hCipherStored E 0 (some p) (some q) iv) :=
  Discreet.of (cipher_local_vs hE p q x pt iv) fun _ h => h

/-- `wickr_ctx_cipher_remote`. -/
theorem C86_cipher_remote (hE : E.Fits) (p q : Addr) (x : Ctx) (pt iv : Bytes) :
    Computes (fun h => Has isCtx h p x ∧ Has isBuf h q pt) isCRes (cipherRemote E x pt iv) (hCipherStored E 1 (some p) (some q) iv) :=
  Computes.of (cipher_remote_vs hE p q x pt iv)

theorem C87_cipher_remote (hE : E.Fits) (p q : Addr) (x : Ctx) (pt iv : Bytes) :
    Tidy (fun h => Has isCtx h p x ∧ Has isBuf h q pt) isCRes (hCipherStored E 1 (some p) (some q) iv) :=
  Tidy.of (cipher_remote_vs hE p q x pt iv)

theorem C88_cipher_remote (hE : E.Fits) (p q : Addr) (x : Ctx) (pt iv : Bytes) :
    Discreet (fun h => Has isCtx h p x ∧ Has isBuf h q pt) (encryptPubs E pt none x.storage.rem iv) (hCipherStored E 1 (some p) (some q) iv) :=
  Discreet.of (cipher_remote_vs hE p q x pt iv) fun _ h => h

/-- `wickr_ctx_decipher_local`. -/
theorem C86_decipher_local (hE : E.Fits) (p q : Addr) (x : Ctx) (ct : CipherResult) :
    Computes (fun h => Has isCtx h p x ∧ Has isCRes h q ct) isBuf (decipherLocal E x ct) (hDecipherStored E 0 (some p) (some q)) :=
  Computes.of (decipher_local_vs hE p q x ct)

theorem C87_decipher_local (hE : E.Fits) (p q : Addr) (x : Ctx) (ct : CipherResult) :
    Tidy (fun h => Has isCtx h p x ∧ Has isCRes h q ct) isBuf (hDecipherStored E 0 (some p) (some q)) :=
  Tidy.of (decipher_local_vs hE p q x ct)

theorem C87_decipher_local_sturdy (hE : E.Fits) (p q : Addr) (x : Ctx) (ct : CipherResult) :
    Sturdy (fun h => Has isCtx h p x ∧ Has isCRes h q ct) (hDecipherStored E 0 (some p) (some q)) :=
  Sturdy.of (decipher_local_vs hE p q x ct) id

theorem C88_decipher_local (hE : E.Fits) (p q : Addr) (x : Ctx) (ct : CipherResult) :
    Discreet (fun h => Has isCtx h p x ∧ Has isCRes h q ct) ([]) (hDecipherStored E 0 (some p) (some q)) :=
  Discreet.of (decipher_local_vs hE p q x ct) fun _ h => h

/-- `wickr_ctx_decipher_remote`. -/
theorem C86_decipher_remote (hE : E.Fits) (p q : Addr) (x : Ctx) (ct : CipherResult) :
    Computes (fun h => Has isCtx h p x ∧ Has isCRes h q ct) isBuf (decipherRemote E x ct) (hDecipherStored E 1 (some p) (some q)) :=
  Computes.of (decipher_remote_vs hE p q x ct)

theorem C87_decipher_remote (hE : E.Fits) (p q : Addr) (x : Ctx) (ct : CipherResult) :
    Tidy (fun h => Has isCtx h p x ∧ Has isCRes h q ct) isBuf (hDecipherStored E 1 (some p) (some q)) :=
  Tidy.of (decipher_remote_vs hE p q x ct)

theorem C87_decipher_remote_sturdy (hE : E.Fits) (p q : Addr) (x : Ctx) (ct : CipherResult) :
    Sturdy (fun h => Has isCtx h p x ∧ Has isCRes h q ct) (hDecipherStored E 1 (some p) (some q)) :=
  Sturdy.of (decipher_remote_vs hE p q x ct) id

theorem C88_decipher_remote (hE : E.Fits) (p q : Addr) (x : Ctx) (ct : CipherResult) :
    Discreet (fun h => Has isCtx h p x ∧ Has isCRes h q ct) ([]) (hDecipherStored E 1 (some p) (some q)) :=
  Discreet.of (decipher_remote_vs hE p q x ct) fun _ h => h

/-- `wickr_ctx_ephemeral_keypair_gen`. -/
theorem C86_ctx_ephemeral (hE : E.Fits) (p : Addr) (x : Ctx) (n : UInt64) (cv : Curve) (pub pri nonce : Bytes)
    (hv : ValidBuf pub) (hv' : ValidBuf pri) :
    Computes (fun h => Has isCtx h p x) isEph (ctxEphGen E x n ⟨cv, pub, some pri⟩ nonce) (hCtxEphGen E (some p) n cv pub pri nonce) :=
  Computes.of (ctx_eph_vs hE p x n cv pub pri nonce hv hv')

theorem C87_ctx_ephemeral (hE : E.Fits) (p : Addr) (x : Ctx) (n : UInt64) (cv : Curve) (pub pri nonce : Bytes)
    (hv : ValidBuf pub) (hv' : ValidBuf pri) :
    Tidy (fun h => Has isCtx h p x) isEph (hCtxEphGen E (some p) n cv pub pri nonce) :=
  Tidy.of (ctx_eph_vs hE p x n cv pub pri nonce hv hv')

theorem C88_ctx_ephemeral (hE : E.Fits) (p : Addr) (x : Ctx) (n : UInt64) (cv : Curve) (pub pri nonce : Bytes)
    (hv : ValidBuf pub) (hv' : ValidBuf pri) :
    Discreet (fun h => Has isCtx h p x) (signPubs E x.chain.node pub nonce) (hCtxEphGen E (some p) n cv pub pri nonce) :=
  Discreet.of (ctx_eph_vs hE p x n cv pub pri nonce hv hv') fun _ h => h

/-! ### There are such objects -/

theorem genParts_exist (b : Bytes) (salted : Bool) (s t : UInt8) (hb : 0 < b.length ∧ b.length ≤ 1000)
    (h : (built (mkGen b salted s t)).isSome = true) :
    ∃ (m : St) (a : Addr) (x : GenParts), m.oom = false ∧ Has isGen m.heap a (exGen b salted s t) ∧ x.Has m.heap (exGen b salted s t) := by
  obtain ⟨m, a, h1, h2⟩ := exists_has (mkGen_spec _ _ trivial b salted s t hb) h
  obtain ⟨x, -, hx⟩ := genParts_some h2
  exact ⟨m, a, x, h1, h2, hx⟩

/-- Recovery data of the toy engine. -/
abbrev exRecovery : Bytes := (makeRecovery toyEngine (exGen [13] true 5 5) (List.replicate 12 7)).toOption.getD []

abbrev exRand : GenRand := ⟨⟨.p521, [0, 7], some [48, 7]⟩, [6, 6], [], exToyCKey 3⟩

example : ∃ (m : St) (a : Addr) (x : GenParts), m.oom = false ∧ Has isGen m.heap a (exGen exRecovery true 5 5) ∧
    x.Has m.heap (exGen exRecovery true 5 5) := genParts_exist _ _ _ _ (by decide +kernel) (by decide +kernel)
example : Verifies toyEngine (exToyRoot 5 5) [4] [0, 7] [] := verifies_of_keyPair toyEngine_lawful (toyKey_pair 5 (by decide))
example : (ctxGenWithRootKeys toyEngine (exToyDev exRecovery true) (exToyRoot 5 5) [4] exRand).isSome = true := by decide +kernel
example : importRecovery toyEngine exRecovery (exToyCKey 3) = some (exToyRoot 5 5) := by decide +kernel
example : (ctxGenWithRecovery toyEngine (exToyDev exRecovery true) exRecovery (exToyCKey 3) [4] exRand).toOption.isSome = true := by
  decide +kernel

/-! ### Copying -/

/-- With an engine whose digests fail, copying a context writes through NULL although memory suffices: wickr_ctx.c:453. -/
theorem C86_ctx_copy_digest_failure : ¬ ∀ x : GenParts,
    ComputesUpTo ctxLoss (fun h => Has isCtx h x.ctx (exCtx [13] true)) isCtx (ctxCopy { toyEngine with digest := fun _ _ _ => none } (exCtx [13] true)).toOption
      (hCtxCopy { toyEngine with digest := fun _ _ _ => none } (some x.ctx)) :=
  not_computes_parts (m := fun x => hCtxCopy { toyEngine with digest := fun _ _ _ => none } (some x.ctx)) 0
    (mkGen_spec _ _ trivial [13] true 5 5 (by decide)) (fun _ _ h => h.ctx) (by decide +kernel)

/-- With no memory for the structure, copying a context writes through NULL: wickr_ctx.c:453. -/
theorem C87_ctx_copy_crashes : ¬ ∀ x : GenParts, Sturdy (fun h => Has isCtx h x.ctx (exCtx [13] true)) (hCtxCopy toyEngine (some x.ctx)) :=
  not_sturdy_parts (m := fun x => hCtxCopy toyEngine (some x.ctx)) [101] (mkGen_spec _ _ trivial [13] true 5 5 (by decide))
    (fun _ _ h => h.ctx) (by decide +kernel)

/-! ### Making contexts -/

/-- With root keys whose private key does not belong to the public key the chain is leaked although memory suffices:
wickr_ctx.c:221-225. -/
theorem C86_ctx_gen_leaks : ¬ ∀ x : GenParts,
    ComputesUpTo genUncached (fun h => Has isDev h x.dev (exToyDev [13] true) ∧ Has isRoot h x.root (exToyRoot 5 6) ∧ Has isBuf h x.rid [4])
      isGen (ctxGenWithRootKeys toyEngine (exToyDev [13] true) (exToyRoot 5 6) [4] exRand)
      (hCtxGen toyEngine (some x.dev) (some x.root) (some x.rid) .p521 [0, 7] [48, 7] [6, 6] [] (exToyCKey 3)) :=
  not_computes_parts (m := fun x => hCtxGen toyEngine (some x.dev) (some x.root) (some x.rid) .p521 [0, 7] [48, 7] [6, 6] [] (exToyCKey 3)) 78
    (mkGen_spec _ _ trivial [13] true 5 6 (by decide)) (fun _ _ h => ⟨h.dev, h.root, h.rid⟩) (by decide +kernel)

/-- With no memory for the structure the header key is leaked: wickr_ctx.c:397-400. -/
theorem C87_ctx_gen_leaks : ¬ ∀ x : GenParts,
    Tidy (fun h => Has isDev h x.dev (exToyDev [13] true) ∧ Has isRoot h x.root (exToyRoot 5 5) ∧ Has isBuf h x.rid [4]) isGen
      (hCtxGen toyEngine (some x.dev) (some x.root) (some x.rid) .p521 [0, 7] [48, 7] [6, 6] [] (exToyCKey 3)) :=
  not_tidy_parts (m := fun x => hCtxGen toyEngine (some x.dev) (some x.root) (some x.rid) .p521 [0, 7] [48, 7] [6, 6] [] (exToyCKey 3)) [102] 99
    (mkGen_spec _ _ trivial [13] true 5 5 (by decide)) (fun _ _ h => ⟨h.dev, h.root, h.rid⟩) (by decide +kernel)

/-- If no context can be made, here because the device has no system salt, making a context from recovery data dereferences NULL
although memory suffices: wickr_ctx.c:167. -/
theorem C86_ctx_gen_recovery_crashes : ¬ ∀ x : GenParts,
    ComputesUpTo genUncached (fun h => Has isDev h x.dev (exToyDev exRecovery false) ∧ Has isBuf h x.data exRecovery ∧
        Has isCKey h x.key (exToyCKey 3) ∧ Has isBuf h x.rid [4])
      isGen (ctxGenWithRecovery toyEngine (exToyDev exRecovery false) exRecovery (exToyCKey 3) [4] exRand).toOption
      (hCtxGenRecovery toyEngine (some x.dev) (some x.data) (some x.key) (some x.rid) .p521 [0, 7] [48, 7] [6, 6] [] (exToyCKey 3)) :=
  not_computes_parts (m := fun x => hCtxGenRecovery toyEngine (some x.dev) (some x.data) (some x.key) (some x.rid) .p521 [0, 7] [48, 7] [6, 6]
      [] (exToyCKey 3)) 0
    (mkGen_spec _ _ trivial exRecovery false 5 5 (by decide +kernel)) (fun _ _ h => ⟨h.dev, h.data, h.key, h.rid⟩) (by decide +kernel)

/-! ### Releasing -/

/-- `wickr_ctx_destroy`. -/
theorem C79_ctx_destroy : DestroySafe isCtx (fun _ => True) hCtxDestroy :=
  DestroySafe.of (pubs := Ctx.publics) fun _ _ _ => hCtxDestroy_spec fun _ h => h

theorem C79_gen_destroy : DestroySafe isGen (fun _ => True) hGenDestroy :=
  DestroySafe.of (pubs := GenResult.publics) fun _ _ _ => hGenDestroy_spec fun _ h => h

theorem C83_ctx_destroy : Wipes isCtx (fun _ => True) Ctx.publics hCtxDestroy :=
  Wipes.ofDestroy fun _ _ _ => hCtxDestroy_spec fun _ h => h

theorem C83_gen_destroy : Wipes isGen (fun _ => True) GenResult.publics hGenDestroy :=
  Wipes.ofDestroy fun _ _ _ => hGenDestroy_spec fun _ h => h

/-- Releasing a copy, even one made while memory was lacking, brings memory back to what it was before. -/
theorem C79_ctx_copy (hE : E.Fits) (hL : E.Lawful) : CopyUndone isCtx (fun _ => True) (hCtxCopy E) hCtxDestroy := by
  intro A A' s a v b s' _ ho ha hr
  have := C87_ctx_copy hE hL a v A s ho ha
  rw [hr] at this
  obtain ⟨w, hw⟩ := this
  exact C79_ctx_destroy A' s' b w s.heap trivial hw

theorem C79_gen_copy (hE : E.Fits) (hL : E.Lawful) : CopyUndone isGen (fun _ => True) (hGenCopy E) hGenDestroy := by
  intro A A' s a v b s' _ ho ha hr
  have := C87_gen_copy hE hL a v A s ho ha
  rw [hr] at this
  obtain ⟨w, hw⟩ := this
  exact C79_gen_destroy A' s' b w s.heap trivial hw

/-- `__wickr_ctx_gen_result_create`. -/
theorem C84_gen (p q r : Addr) (x : Ctx) (k : CipherKey) (rk : RootKeys) :
    CreateSafe (isCtx p x ∗ isCKey q k ∗ isRoot r rk) isGen ⟨x, k, rk⟩ (hGenCreate (some p) (some q) (some r)) :=
  CreateSafe.of (hGenCreate_spec _ _ _ _ _ _ _ _)

end Wickr
