import Verif.Props.Storage
set_option linter.unusedSimpArgs false
/-
C64: generated contexts.  C65: recovery and undefined behaviour.  C66: copies of contexts.
C67: recovering an account on another device.
-/
namespace Wickr
open Spec

/-- Device information that can be copied: everything present, nothing empty. -/
structure Spec.WfDev (d : DevInfo) : Prop where
  sys : ∃ s, d.systemSalt = some s ∧ ValidBuf s
  salt : ValidBuf d.devSalt
  msg : ValidBuf d.msgProtoId
  srv : ValidBuf d.srvCommId

theorem Spec.WfDev.copy {d : DevInfo} (h : WfDev d) : devInfoCopy d = some d := by
  obtain ⟨s, hs, hv⟩ := h.sys
  obtain ⟨a, b, c, e⟩ := d
  simp only at hs
  subst hs
  simp [devInfoCopy, dup_of hv, dup_of h.salt, dup_of h.msg, dup_of h.srv]

/-- Derived device information is copyable. -/
theorem devInfoDerive_wf {E : Engine} (hE : E.Lawful) {a b : Bytes} {d : DevInfo} (ha : ValidBuf a)
    (h : devInfoDerive E a b = some d) : WfDev d := by
  have hmb := maxBuffer_val
  obtain ⟨d', h1, h2, h3, h4, h5, h6⟩ := C49_devinfo_value E hE a b
  rw [h] at h1; cases h1
  obtain ⟨x, hx, hl⟩ := hE.digest_len b none .sha256
  have h32 : x.length = 32 := hl
  exact ⟨⟨x, by rw [h3, hx], by omega, by omega⟩, by rw [h2]; exact ha, ⟨by omega, by omega⟩, ⟨by omega, by omega⟩⟩

/-- The random values of a generation have the right shape. -/
structure Spec.GoodGen (E : Engine) (r : GenRand) : Prop where
  node : E.KeyPair r.nodeKey
  id : 0 < r.nodeId.length ∧ r.nodeId.length < 128
  rec_ : WfKey r.recovery
  gcm : r.recovery.cipher = .gcm

theorem genHeaderKey_ok {E : Engine} (hE : E.Lawful) (c : Chain) :
    ∃ k, genHeaderKey E .gcm c = some k := by
  obtain ⟨h, h1, h2⟩ := hE.digest_len c.root.identifier (some c.node.identifier) .sha256
  have : h.length = Cipher.gcm.keyLen := h2
  exact ⟨⟨.gcm, h⟩, by simp [genHeaderKey, digestMatchingCipher, h1, cipherKeyCreate, this]⟩

theorem Spec.WfRoot.copy {E : Engine} {k : RootKeys} (h : WfRoot E k) : rootKeysCopy k = some k := by
  simp [rootKeysCopy, KeyPair.copy h.sig, h.node.copy, h.remote.copy]

/-- C64.  For every lawful engine, root keys, device, account identifier of 1 to 127 bytes and random
values, generation succeeds; the context is well formed, can send, has a genuine chain whose status is
valid; the root identity is the account's, the node identity is the fresh one, the storage keys are the
root keys localized to the device, and root keys and recovery key are returned. -/
theorem C64_generation (E : Engine) (hE : E.Lawful) (dev : DevInfo) (keys : RootKeys) (identifier : Bytes) (rnd : GenRand)
    (hd : WfDev dev) (hk : WfRoot E keys) (hi : 0 < identifier.length ∧ identifier.length < 128) (hr : GoodGen E rnd) :
    ∃ g, ctxGenWithRootKeys E dev keys identifier rnd = some g ∧ WfCtx E g.ctx ∧ Sender E g.ctx ∧
      ChainGenuine E g.ctx.chain ∧ g.ctx.chain.status = .valid ∧
      g.ctx.chain.root = ⟨.root, identifier, keys.sigRoot, none⟩ ∧
      g.ctx.chain.node.identifier = rnd.nodeId ∧ g.ctx.chain.node.key = rnd.nodeKey ∧
      rootKeysLocalize E keys dev = some g.ctx.storage ∧ g.ctx.dev = dev ∧ g.ctx.version = 4 ∧
      g.rootKeys = keys ∧ g.recoveryKey = rnd.recovery := by
  have hmb := maxBuffer_val
  have hid := dup_of (b := identifier) ⟨hi.1, by omega⟩
  have hnid := dup_of (b := rnd.nodeId) ⟨hr.id.1, by have := hr.id.2; omega⟩
  obtain ⟨p, hp, _⟩ := hk.sig.pri
  obtain ⟨s, s1, s2, s3, s4, s5, s6⟩ := hE.sign_verify keys.sigRoot rnd.nodeKey.pub .sha512 rnd.nonce hk.sig
  obtain ⟨root, hroot⟩ : ∃ r : Identity, r = ⟨.root, identifier, keys.sigRoot, none⟩ := ⟨_, rfl⟩
  obtain ⟨node, hnode⟩ : ∃ r : Identity, r = ⟨.node, rnd.nodeId, rnd.nodeKey, some s⟩ := ⟨_, rfl⟩
  have g1 : identityCreate .root identifier keys.sigRoot none = some root := by
    rw [hroot, identityCreate, if_neg (by omega)]
  have g2 : nodeIdentityGen E root rnd.nodeKey rnd.nodeId rnd.nonce = some node := by
    have := hr.id.2
    rw [hroot, hnode]
    simp only [nodeIdentityGen, identitySign, hp, s1, hnid, Option.bind_some, identityCreate]
    rw [if_neg (by simp), if_neg (by omega)]
  have hver : E.verify s keys.sigRoot rnd.nodeKey.pub = true := s6 _ rfl
  have g3 : (chainValidate E (chainCreate root node)).2 = true := by
    rw [hroot, hnode]
    simp [chainValidate, chainCreate, chainHasValidCache, Engine.verifyOpt, hver]
  obtain ⟨ch, hch⟩ : ∃ c, c = (chainValidate E (chainCreate root node)).1 := ⟨_, rfl⟩
  have hcr : ch.root = root ∧ ch.node = node ∧ ch.status = .valid := by
    rw [hch, hroot, hnode]
    simp [chainValidate, chainCreate, chainHasValidCache, Engine.verifyOpt, hver, chainUpdateCache]
  obtain ⟨st, t1, t2, t3, t4, t5, t6⟩ := C49_localize_value E hE keys hk dev
  obtain ⟨h, hh⟩ := genHeaderKey_ok hE ch
  obtain ⟨c1, c2, c3⟩ := hcr
  have hwn : WfIdentity E ch.node ∧ ch.node.type = .node := by
    have := C44_generated_node_wf E hE root rnd.nodeKey rnd.nodeId rnd.nonce node hr.node (by rw [hroot]; exact hk.sig) g2
    rw [c2]; exact ⟨this.1, this.2.1⟩
  have hmaxp : ∀ k : EcKey, k.curve.maxPub = 134 := by intro k; cases k.curve; rfl
  refine ⟨⟨⟨dev, ch, st, h, 4⟩, rnd.recovery, keys⟩, ?_, ?_, ?_, ?_, c3, by rw [← hroot]; exact c1, ?_, ?_, t1, rfl, rfl, rfl, rfl⟩
  · unfold ctxGenWithRootKeys
    simp only [KeyPair.copy hk.sig, hid, Option.bind_some, g1, g2, g3, Bool.not_true, Bool.false_eq_true, if_false, t1,
      hd.copy, ← hch]
    have hh' : genHeaderKey E defaultCipher ch = some h := hh
    simp [ctxCreate, hh', hk.copy]
  · refine ⟨?_, ?_, hwn.1, ?_, ?_, t5, t6, hh⟩
    · simp only [c1, hroot, hwn.2]; simp
    · simp only [c1, hroot]
      exact ⟨hi, hk.sig.pub, by simp⟩
    · simp only [c1, hroot]; exact hk.sig
    · simp only [c2, hnode]; exact hr.node
  · refine ⟨by simp, hh, ?_, ?_⟩
    · simp only [c2, hnode]; exact hr.node
    · simp only [c1, hroot]
      have := hk.sig.pubLen
      rw [hmaxp] at this; exact this
  · refine ⟨s, ?_, ?_⟩
    · simp only [c2, hnode]
    · simp only [c1, c2, hnode, hroot]; exact hver
  · simp only [c2, hnode]
  · simp only [c2, hnode]

/-- C64, whatever the engine: a generated context's node key is signed by its root key. -/
theorem C64_generated_chain_genuine (E : Engine) (dev : DevInfo) (keys : RootKeys) (identifier : Bytes) (rnd : GenRand)
    (g : GenResult) (h : ctxGenWithRootKeys E dev keys identifier rnd = some g) : ChainGenuine E g.ctx.chain := by
  simp only [ctxGenWithRootKeys, Option.bind_eq_some_iff] at h
  obtain ⟨k, _, i, _, root, _, node, _, h⟩ := h
  split at h
  · cases h
  · rename_i hv
    simp only [Option.bind_eq_some_iff, Option.map_eq_some_iff, ctxCreate] at h
    obtain ⟨st, _, d, _, ctx, ⟨hk, _, rfl⟩, rk, _, rfl⟩ := h
    simp only [Bool.not_eq_true, Bool.not_eq_false'] at hv
    simp only [chainValidate, chainCreate, chainHasValidCache, Bool.false_eq_true, if_false, chainUpdateCache] at hv ⊢
    unfold ChainGenuine Signed
    unfold Engine.verifyOpt at hv
    split at hv
    · cases hv
    · rename_i s hs
      exact ⟨s, hs, hv⟩

/-- C64, refused: empty or long identifiers, and devices without a system salt. -/
theorem C64_refused (E : Engine) (dev : DevInfo) (keys : RootKeys) (identifier : Bytes) (rnd : GenRand)
    (h : identifier = [] ∨ 128 ≤ identifier.length ∨ dev.systemSalt = none) :
    ctxGenWithRootKeys E dev keys identifier rnd = none := by
  cases hg : ctxGenWithRootKeys E dev keys identifier rnd with
  | none => rfl
  | some g =>
    exfalso
    simp only [ctxGenWithRootKeys, Option.bind_eq_some_iff, dup_eq_some, identityCreate] at hg
    obtain ⟨k, _, i, ⟨hi, rfl⟩, root, hroot, node, _, hg⟩ := hg
    split at hg
    · cases hg
    · simp only [Option.bind_eq_some_iff, devInfoCopy, dup_eq_some] at hg
      obtain ⟨st, _, d, ⟨sys, ⟨s, hs, _⟩, _⟩, _⟩ := hg
      rcases h with rfl | h | h
      · exact absurd hi.1 (by simp)
      · rw [if_pos h] at hroot; cases hroot
      · rw [h] at hs; cases hs

/-! ### C65 -/

/-- C65 is false: restoring from genuine recovery data with an identifier that is empty or has 128 bytes
or more, or on a device without system salt, dereferences NULL (wickr_ctx.c:168); the same call with
root keys returns NULL. -/
theorem C65_recovery_undefined (E : Engine) (dev : DevInfo) (data : Bytes) (key : CipherKey) (identifier : Bytes)
    (rnd : GenRand) (keys : RootKeys) (hi : importRecovery E data key = some keys)
    (h : identifier = [] ∨ 128 ≤ identifier.length ∨ dev.systemSalt = none) :
    ctxGenWithRecovery E dev data key identifier rnd = .ub ∧ ctxGenWithRootKeys E dev keys identifier rnd = none := by
  have := C64_refused E dev keys identifier rnd h
  simp [ctxGenWithRecovery, hi, this]

/-- In the default engine every private key that imports is a full key pair. -/
theorem ecImport_pair {P : Prim} (hP : P.Lawful) {b : Bytes} {k : EcKey} (h : (defaultEngine P).ecImport b true = some k) :
    (defaultEngine P).KeyPair k := by
  have h' : ecKeyImport P b true = some k := h
  unfold ecKeyImport at h'
  simp only [if_true] at h'
  split at h'
  · cases h'
  · rename_i s hs
    split at h'
    · cases h'
    · rename_i hi
      split at h'
      · cases h'
      · rename_i hc
        obtain ⟨k', h1, h2⟩ := ecRandKey_pair P hP s (by simpa using hi) (by simpa using hc)
        have : ecRandKey P s = some k := h'
        rw [h1] at this; cases this
        exact h2

theorem importRecovery_wf {P : Prim} (hP : P.Lawful) {data : Bytes} {key : CipherKey} {keys : RootKeys}
    (h : importRecovery (defaultEngine P) data key = some keys) : WfRoot (defaultEngine P) keys := by
  simp only [importRecovery, Option.bind_eq_some_iff, rootKeysFromBuffer] at h
  obtain ⟨r, _, b, _, p, _, h⟩ := h
  split at h
  · split at h
    · cases h
    · simp only [Option.bind_eq_some_iff, Option.map_eq_some_iff] at h
      obtain ⟨n, hn, s, hs, r, hr, rfl⟩ := h
      exact ⟨ecImport_pair hP hs, cipherKeyFromBuffer_wf hn, cipherKeyFromBuffer_wf hr⟩
  · cases h

/-- C65 (what holds): with the default engine, an identifier of 1 to 127 bytes and complete device
information, restoring from any data with any key, or from any passphrase-protected key, is defined.

Missing from C65: the other identifiers and devices, see above. -/
theorem C65_recovery_defined_partial (P : Prim) (hP : P.Lawful) (dev : DevInfo) (data : Bytes) (identifier : Bytes)
    (rnd : GenRand) (hd : WfDev dev) (hi : 0 < identifier.length ∧ identifier.length < 128)
    (hr : GoodGen (defaultEngine P) rnd) :
    (∀ key, ctxGenWithRecovery (defaultEngine P) dev data key identifier rnd ≠ .ub) ∧
    (∀ exported pass, ctxGenWithPassphrase (defaultEngine P) dev exported pass data identifier rnd ≠ .ub) := by
  have key : ∀ key, ctxGenWithRecovery (defaultEngine P) dev data key identifier rnd ≠ .ub := by
    intro key
    unfold ctxGenWithRecovery
    split
    · simp
    · rename_i keys hk
      obtain ⟨g, hg, _⟩ := C64_generation _ (defaultEngine_lawful P hP) dev keys identifier rnd hd (importRecovery_wf hP hk) hi hr
      simp only [hg]
      cases cipherKeyCopy key <;> simp [Res.ofOption]
  refine ⟨key, fun exported pass => ?_⟩
  unfold ctxGenWithPassphrase
  split
  · simp
  · exact key _

/-! ### C66 -/

/-- C66: copying a context is defined for every lawful engine. -/
theorem C66_copy_defined (E : Engine) (hE : E.Lawful) (c : Ctx) : ctxCopy E c ≠ .ub := by
  unfold ctxCopy
  split
  · simp
  · split
    · simp
    · rename_i ch _
      split
      · simp
      · obtain ⟨k, hk⟩ := genHeaderKey_ok hE ch
        have : genHeaderKey E defaultCipher ch = some k := hk
        simp [ctxCreate, this]

theorem Spec.WfIdentity.copy {E : Engine} {i : Identity} (h : WfIdentity E i) (hk : E.KeyPair i.key)
    (hs : i.type = .root → i.sig = none) : identityCopy i = some i := by
  have hmb := maxBuffer_val
  obtain ⟨t, id, key, sig⟩ := i
  have h1 := h.id
  simp only at h1 hk hs
  have hd := dup_of (b := id) ⟨h1.1, by omega⟩
  have hss : sig.bind ecdsaCopy = sig := by
    cases t with
    | root => rw [hs rfl]; rfl
    | node =>
      obtain ⟨s, hs', s1, s2⟩ := h.sig rfl
      simp only at hs'
      subst hs'
      have : s.curve.sigSize = 143 := by cases s.curve; rfl
      simp [ecdsaCopy, dup_of (b := s.sig) ⟨s1, by omega⟩]
  simp [identityCopy, hd, KeyPair.copy hk, hss, identityCreate]
  omega

/-- C66: the copy of a well-formed context equals it, down to validation status, cache and packet
version. -/
theorem C66_copy_equal (E : Engine) (c : Ctx) (h : WfCtx E c) (hd : WfDev c.dev)
    (hc : ∀ b, c.chain.cache = some b → ValidBuf b) : ctxCopy E c = .ok c := by
  obtain ⟨t1, t2, t3⟩ := h.types
  have hch : chainCopy c.chain = some c.chain := by
    have hn := h.nodeWf.copy h.nodeKey (fun e => by rw [t3] at e; cases e)
    simp only [chainCopy, h.rootWf.copy h.rootKey fun _ => t2, hn, Option.bind_some, dupOpt_of hc, Option.map_some]
  have hh : genHeaderKey E defaultCipher c.chain = some c.headerKey := h.header
  simp [ctxCopy, hd.copy, hch, storageCopy, h.locKey.copy, h.remKey.copy, ctxCreate, hh]

/-! ### C67 -/

/-- C67.  For every lawful engine: an account generated on one device, its recovery data and its
passphrase-protected recovery key restore on any other device to a context with the same root
identity, root keys and recovery key; each of the two devices reads what the other encrypts for
remote storage. -/
theorem C67_recovery_restores (E : Engine) (hE : E.Lawful) (dev dev' : DevInfo) (keys : RootKeys) (identifier : Bytes)
    (rnd rnd' : GenRand) (hd : WfDev dev) (hd' : WfDev dev') (hk : WfRoot E keys) (hgcm : keys.remoteRoot.cipher = .gcm)
    (hi : 0 < identifier.length ∧ identifier.length < 128) (hr : GoodGen E rnd) (hr' : GoodGen E rnd')
    (pass salt iv iv' : Bytes) (hp : 0 < pass.length) (hpl : pass.length ≤ maxBuffer) (hs : salt.length = 16)
    (hiv : iv.length = 12) (hiv' : iv'.length = 12) :
    ∃ g data exported g', ctxGenWithRootKeys E dev keys identifier rnd = some g ∧ makeRecovery E g iv = .ok data ∧
      exportRecoveryKeyPass E g pass salt iv' = some exported ∧
      ctxGenWithPassphrase E dev' exported pass data identifier rnd' = .ok g' ∧
      g'.ctx.chain.root = g.ctx.chain.root ∧ g'.rootKeys = g.rootKeys ∧ g'.recoveryKey = g.recoveryKey ∧
      g'.ctx.dev = dev' ∧ ChainGenuine E g'.ctx.chain ∧
      ∀ pt iv'', 0 < pt.length → pt.length + 1 ≤ maxBuffer → iv''.length = 12 →
        (∃ r, cipherRemote E g.ctx pt iv'' = some r ∧ decipherRemote E g'.ctx r = some pt) ∧
        (∃ r, cipherRemote E g'.ctx pt iv'' = some r ∧ decipherRemote E g.ctx r = some pt) := by
  obtain ⟨g, g1, g2, _, _, _, g3, _, _, g4, _, _, g5, g6⟩ := C64_generation E hE dev keys identifier rnd hd hk hi hr
  obtain ⟨g', h1, h2, _, hgen, _, h3, _, _, h4, h4d, _, h5, h6⟩ := C64_generation E hE dev' keys identifier rnd' hd' hk hi hr'
  obtain ⟨data, d1, d2⟩ := C48_recovery_round_trip E hE g iv (by rw [g5]; exact hk) (by rw [g6]; exact hr.rec_)
    (by rw [g6]; exact hr.gcm) hiv
  obtain ⟨ex, e1, e2⟩ := C48_recovery_key_round_trip E hE g pass salt iv' (by rw [g6]; exact hr.rec_) hp hpl hs hiv'
  have hrem : g.ctx.storage.rem = keys.remoteRoot ∧ g'.ctx.storage.rem = keys.remoteRoot := by
    obtain ⟨s, s1, s2, _⟩ := C49_localize_value E hE keys hk dev
    obtain ⟨t, t1, t2, _⟩ := C49_localize_value E hE keys hk dev'
    rw [g4] at s1; cases s1
    rw [h4] at t1; cases t1
    exact ⟨s2, t2⟩
  refine ⟨g, data, ex, { g' with recoveryKey := g.recoveryKey }, g1, d1, e1, ?_, by simp only [h3, g3], by simp only [h5, g5],
    rfl, h4d, hgen, ?_⟩
  · unfold importRecoveryKeyPass at e2
    have hcp : cipherKeyCopy g.recoveryKey = some g.recoveryKey := Spec.WfKey.copy (by rw [g6]; exact hr.rec_)
    rw [g5] at d2
    simp [ctxGenWithPassphrase, e2, ctxGenWithRecovery, d2, h1, hcp, Res.ofOption]
  · intro pt iv'' hpt hptl hivl
    obtain ⟨r, ct, r1, _, _, _, _, _, r7⟩ := hE.enc_dec pt none keys.remoteRoot iv'' hpt hptl hk.remote
      (by rw [hgcm]; exact hivl) (by simp)
    have hdec := r7 true (by rw [hgcm]; simp [Cipher.isAuth])
    simp only [cipherRemote, decipherRemote, hrem.1, hrem.2]
    exact ⟨⟨r, r1, hdec⟩, ⟨r, r1, hdec⟩⟩

/-! ### Concrete cases -/

def toyRoot : RootKeys := ⟨toyKey 5, ⟨.gcm, List.replicate 32 1⟩, ⟨.gcm, List.replicate 32 2⟩⟩
def toyGen : GenRand := ⟨toyKey 7, [6, 6], [], ⟨.gcm, List.replicate 32 3⟩⟩
def toyGen' : GenRand := ⟨toyKey 9, [7, 7], [], ⟨.gcm, List.replicate 32 4⟩⟩

theorem toyRoot_wf : WfRoot toyEngine toyRoot := ⟨toyKey_pair 5 (by decide), by unfold WfKey; decide, by unfold WfKey; decide⟩
theorem toyGen_good : GoodGen toyEngine toyGen := ⟨toyKey_pair 7 (by decide), by decide, by unfold WfKey; decide, rfl⟩
theorem toyGen_good' : GoodGen toyEngine toyGen' := ⟨toyKey_pair 9 (by decide), by decide, by unfold WfKey; decide, rfl⟩
theorem toyDev_wf : WfDev toyDev :=
  ⟨⟨[2], rfl, by unfold ValidBuf; rw [maxBuffer_val]; decide⟩, by unfold ValidBuf; rw [maxBuffer_val]; decide,
    by unfold ValidBuf; rw [maxBuffer_val]; decide, by unfold ValidBuf; rw [maxBuffer_val]; decide⟩
theorem toyPeerDev_wf : WfDev toyPeerDev :=
  ⟨⟨[2], rfl, by unfold ValidBuf; rw [maxBuffer_val]; decide⟩, by unfold ValidBuf; rw [maxBuffer_val]; decide,
    by unfold ValidBuf; rw [maxBuffer_val]; decide, by unfold ValidBuf; rw [maxBuffer_val]; decide⟩

/-- The hypotheses of C64, C66 and C67 are met. -/
example : ∃ g, ctxGenWithRootKeys toyEngine toyDev toyRoot [1] toyGen = some g ∧ g.ctx.chain.status = .valid := by
  obtain ⟨g, h1, _, _, _, h2, _⟩ := C64_generation toyEngine toyEngine_lawful toyDev toyRoot [1] toyGen toyDev_wf toyRoot_wf
    (by decide) toyGen_good
  exact ⟨g, h1, h2⟩
example : ctxCopy toyEngine (toyCtx 3) = .ok (toyCtx 3) :=
  C66_copy_equal _ _ (toyCtx_wf 3) toyDev_wf fun b hb => by
    have : toyChain.cache = none := by decide
    rw [show (toyCtx 3).chain.cache = none from this] at hb; cases hb

/-- C65 on the toy engine: genuine recovery data, and an identifier of 128 bytes. -/
example : (match ctxGenWithRootKeys toyEngine toyDev toyRoot [1] toyGen with
    | none => false
    | some g => match makeRecovery toyEngine g (List.replicate 12 5) with
      | .ok data => decide (ctxGenWithRecovery toyEngine toyPeerDev data g.recoveryKey (List.replicate 128 1) toyGen' = .ub) &&
          (match ctxGenWithRecovery toyEngine toyPeerDev data g.recoveryKey [1] toyGen' with
          | .ok g' => decide (g'.rootKeys = toyRoot ∧ g'.recoveryKey = toyGen.recovery)
          | _ => false)
      | _ => false) = true := by decide +kernel

end Wickr
