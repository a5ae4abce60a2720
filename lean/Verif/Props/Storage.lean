import Verif.Model.Ctx
import Verif.Props.KdfCipher
import Verif.Props.IdentityCodec
import Verif.Props.MessageWitness
set_option linter.unusedSimpArgs false
/-
C48: root keys, storage keys and contexts survive being stored.  C49: where storage keys come from.
-/
namespace Wickr
open Spec

/-- A key of its cipher's size. -/
def Spec.WfKey (k : CipherKey) : Prop := k.key.length = k.cipher.keyLen

theorem Spec.WfKey.len {k : CipherKey} (h : WfKey k) : k.key.length = 32 := by
  unfold WfKey at h
  rw [h]; cases k.cipher <;> rfl

theorem Spec.WfKey.round {k : CipherKey} (h : WfKey k) :
    ∃ b, cipherKeySerialize k = some b ∧ b.length = 33 ∧ cipherKeyFromBuffer b = some k := by
  have hmb := maxBuffer_val
  have hl := h.len
  have := C11_cipher_key_round_trip k h [] (by simp [cipherKeyLayout]; omega)
  exact ⟨_, this.1, by simp [cipherKeyLayout, hl], by simpa using this.2⟩

theorem Spec.WfKey.copy {k : CipherKey} (h : WfKey k) : cipherKeyCopy k = some k := by
  have hmb := maxBuffer_val
  have hl := h.len
  unfold WfKey at h
  simp [cipherKeyCopy, dup_of (b := k.key) ⟨by omega, by omega⟩, cipherKeyCreate, h]

theorem cipherKeyFromBuffer_wf {b : Bytes} {k : CipherKey} (h : cipherKeyFromBuffer b = some k) : WfKey k :=
  (C11_cipher_key_accepts b k h).2.1

/-! ### Storage keys -/

theorem PStorageKeys.size (v : UInt32) (l r : Bytes) : (fieldsEnc (PStorageKeys.pack ⟨v, some l, some r⟩)).length ≤
    60 + l.length + r.length := by
  have h1 := size_putU32 1 (some v)
  have h2 := size_putBytes 2 (some l)
  have h3 := size_putBytes 3 (some r)
  simp only [PStorageKeys.pack, fieldsEnc_append, List.length_append, optBytes] at *; omega

theorem storage_proto_round {k : StorageKeys} (hl : WfKey k.loc) (hr : WfKey k.rem) :
    ∃ p, storageToProto k = some p ∧ (fieldsEnc p.pack).length ≤ 126 ∧ p.pack ≠ [] ∧ storageFromProto p = some k := by
  obtain ⟨a, a1, a2, a3⟩ := hl.round
  obtain ⟨b, b1, b2, b3⟩ := hr.round
  refine ⟨⟨1, some a, some b⟩, by simp [storageToProto, a1, b1], ?_, by simp [PStorageKeys.pack, putU32, putU64], ?_⟩
  · have := PStorageKeys.size 1 a b; omega
  · simp [storageFromProto, a3, b3]

/-- C48, storage keys. -/
theorem C48_storage_keys_round_trip (k : StorageKeys) (hl : WfKey k.loc) (hr : WfKey k.rem) :
    ∃ b, storageSerialize k = .ok b ∧ storageFromBuffer b = some k := by
  have hmb := maxBuffer_val
  obtain ⟨p, p1, p2, p3, p4⟩ := storage_proto_round hl hr
  have hp := protoPack_ok p3 (by omega)
  refine ⟨fieldsEnc p.pack, by simp [storageSerialize, p1, hp, Res.ofOption], ?_⟩
  unfold storageFromBuffer
  rw [PStorageKeys.lawful.round_trip p _ hp]
  exact p4

/-- C48: whatever bytes are read as storage keys, the result has keys of legal size, and the bytes carry
version 1. -/
theorem C48_storage_keys_accepts (b : Bytes) (k : StorageKeys) (h : storageFromBuffer b = some k) :
    WfKey k.loc ∧ WfKey k.rem ∧ ∃ fs, fieldsDec b = some fs ∧ getU32 1 fs = some (some 1) := by
  simp only [storageFromBuffer, Option.bind_eq_some_iff] at h
  obtain ⟨p, ⟨fs, h1, h2⟩, h3⟩ := h
  unfold storageFromProto at h3
  split at h3
  · split at h3
    · cases h3
    · rename_i hv
      simp only [Decidable.not_not] at hv
      simp only [Option.bind_eq_some_iff, Option.map_eq_some_iff] at h3
      obtain ⟨x, hx, y, hy, rfl⟩ := h3
      refine ⟨cipherKeyFromBuffer_wf hx, cipherKeyFromBuffer_wf hy, fs, h1, ?_⟩
      simp only [PStorageKeys.unpack, Option.bind_eq_some_iff, Option.map_eq_some_iff] at h2
      obtain ⟨a, ha, _, _, _, _, rfl⟩ := h2
      simp only at hv
      subst hv
      unfold require at ha
      cases hg : getU32 1 fs with
      | none => simp [hg] at ha
      | some w => simp [hg] at ha; rw [ha]
  · cases h3

/-! ### Root keys -/

/-- Root keys the library generates or imports. -/
structure Spec.WfRoot (E : Engine) (k : RootKeys) : Prop where
  sig : E.KeyPair k.sigRoot
  node : WfKey k.nodeRoot
  remote : WfKey k.remoteRoot

theorem PRootKeys.size (v : UInt32) (a b c : Bytes) : (fieldsEnc (PRootKeys.pack ⟨v, some a, some b, some c⟩)).length ≤
    80 + a.length + b.length + c.length := by
  have h1 := size_putU32 1 (some v)
  have h2 := size_putBytes 2 (some a)
  have h3 := size_putBytes 3 (some b)
  have h4 := size_putBytes 4 (some c)
  simp only [PRootKeys.pack, fieldsEnc_append, List.length_append, optBytes] at *; omega

theorem root_round {E : Engine} {k : RootKeys} (h : WfRoot E k) :
    ∃ b, rootKeysSerialize k = .ok b ∧ 0 < b.length ∧ b.length ≤ 1200 ∧ rootKeysFromBuffer E b = some k := by
  have hmb := maxBuffer_val
  obtain ⟨s, s1, s2, s3, s4⟩ := h.sig.pri
  obtain ⟨a, a1, a2, a3⟩ := h.node.round
  obtain ⟨b, b1, b2, b3⟩ := h.remote.round
  have hs := PRootKeys.size 1 a b s
  have hne : PRootKeys.pack ⟨1, some a, some b, some s⟩ ≠ [] := by simp [PRootKeys.pack, putU32, putU64]
  have hp := protoPack_ok hne (by omega)
  refine ⟨fieldsEnc (PRootKeys.pack ⟨1, some a, some b, some s⟩), by simp [rootKeysSerialize, s1, a1, b1, hp, Res.ofOption], fieldsEnc_pos hne, by omega, ?_⟩
  unfold rootKeysFromBuffer
  rw [PRootKeys.lawful.round_trip _ _ hp]
  simp [a3, b3, optBytes, s2]

/-- C48, root keys, in the clear. -/
theorem C48_root_keys_round_trip (E : Engine) (k : RootKeys) (h : WfRoot E k) :
    ∃ b, rootKeysSerialize k = .ok b ∧ rootKeysFromBuffer E b = some k := by
  obtain ⟨b, h1, _, _, h2⟩ := root_round h
  exact ⟨b, h1, h2⟩

/-- C48, root keys, encrypted: what `wickr_ctx_gen_result_make_recovery` writes with an authenticated
recovery key, `wickr_ctx_gen_import_recovery` reads. -/
theorem C48_recovery_round_trip (E : Engine) (hE : E.Lawful) (g : GenResult) (iv : Bytes) (h : WfRoot E g.rootKeys)
    (hk : WfKey g.recoveryKey) (hc : g.recoveryKey.cipher = .gcm) (hiv : iv.length = 12) :
    ∃ b, makeRecovery E g iv = .ok b ∧ importRecovery E b g.recoveryKey = some g.rootKeys := by
  have hmb := maxBuffer_val
  obtain ⟨b, b1, b2, b3, b4⟩ := root_round h
  obtain ⟨r, ct, e1, e2, e3, e4, e5, e6, e7⟩ := hE.enc_dec b none g.recoveryKey iv b2 (by omega) hk
    (by rw [hc]; exact hiv) (by simp)
  have hl := layout_len_of e4 e5
  rw [e2, hc] at hl
  simp only [Cipher.ivLen, Cipher.tagLen] at hl
  have hr := C10_cipher_result_round_trip r e4 (by omega)
  refine ⟨cipherResultLayout r, ?_, ?_⟩
  · simp [makeRecovery, rootKeysExport, b1, Res.bind, e1, Res.ofOption, hr.1]
  · simp [importRecovery, hr.2, e7 true (by rw [hc]; simp [Cipher.isAuth]), b4]

/-- C48, the recovery key under a passphrase. -/
theorem C48_recovery_key_round_trip (E : Engine) (hE : E.Lawful) (g : GenResult) (pass salt iv : Bytes)
    (hk : WfKey g.recoveryKey) (hp : 0 < pass.length) (hpl : pass.length ≤ maxBuffer) (hs : salt.length = 16)
    (hiv : iv.length = 12) :
    ∃ b, exportRecoveryKeyPass E g pass salt iv = some b ∧ importRecoveryKeyPass E b pass = some g.recoveryKey := by
  have hmb := maxBuffer_val
  obtain ⟨a, a1, a2, a3⟩ := hk.round
  obtain ⟨out, _, o1, _, _, _, _, o2⟩ := C47_round_trip E hE scrypt17 (by simp [scrypts]) a pass salt iv (by omega) (by omega)
    hp hpl hs hiv
  exact ⟨out, by simp [exportRecoveryKeyPass, a1, defaultCipher, o1], by simp [importRecoveryKeyPass, o2, a3]⟩

/-- C48: root keys whose signature key has no private half (which `wickr_root_keys_create` accepts)
cannot be serialized: line 131 of root_keys.c dereferences NULL.  So does making a recovery from them. -/
theorem C48_public_only_root_undefined (E : Engine) (k : RootKeys) (key : CipherKey) (iv : Bytes)
    (h : k.sigRoot.pri = none) : rootKeysSerialize k = .ub ∧ rootKeysExport E k key iv = .ub := by
  simp [rootKeysExport, rootKeysSerialize, h, Res.bind]

/-! ### Contexts -/

/-- A context the library generates or imports. -/
structure Spec.WfCtx (E : Engine) (c : Ctx) : Prop where
  types : c.chain.root.type = .root ∧ c.chain.root.sig = none ∧ c.chain.node.type = .node
  rootWf : WfIdentity E c.chain.root
  nodeWf : WfIdentity E c.chain.node
  rootKey : E.KeyPair c.chain.root.key
  nodeKey : E.KeyPair c.chain.node.key
  locKey : WfKey c.storage.loc
  remKey : WfKey c.storage.rem
  header : genHeaderKey E .gcm c.chain = some c.headerKey

/-- The context `c` on device `d`, as it comes back from storage: the same identities with their
private keys, the same storage keys and header key; validation status forgotten, and the packet
version back at the default. -/
def Spec.stored (c : Ctx) (d : DevInfo) : Ctx :=
  { c with dev := d, chain := ⟨c.chain.root, c.chain.node, .unknown, none⟩, version := 4 }

theorem PCtx.size (a : PStorageKeys) (b : PChain) : (fieldsEnc (PCtx.pack ⟨some a, some b⟩)).length ≤
    40 + (fieldsEnc a.pack).length + (fieldsEnc b.pack).length := by
  have h1 := size_putMsg PStorageKeys.pack 1 (some a)
  have h2 := size_putMsg PChain.pack 2 (some b)
  simp only [PCtx.pack, fieldsEnc_append, List.length_append] at *; omega

theorem ctx_round {E : Engine} (hE : E.Lawful) {c : Ctx} (h : WfCtx E c) (d : DevInfo) :
    ∃ b, ctxSerialize c = some b ∧ 0 < b.length ∧ b.length ≤ 4000 ∧ ctxFromBuffer E d b = some (stored c d) := by
  have hmb := maxBuffer_val
  obtain ⟨p, p1, p2, p3, p4⟩ := storage_proto_round h.locKey h.remKey
  obtain ⟨q, q1, q2, q3, q4⟩ := chain_proto_round_trip hE h.rootWf h.nodeWf true fun _ => ⟨h.rootKey, h.nodeKey⟩
  have hs := PCtx.size p q
  have hne : PCtx.pack ⟨some p, some q⟩ ≠ [] := by simp [PCtx.pack, putMsg]
  have hp := protoPack_ok hne (by omega)
  refine ⟨fieldsEnc (PCtx.pack ⟨some p, some q⟩), by simp [ctxSerialize, ctxToProto, p1, q1, hp], fieldsEnc_pos hne, by omega, ?_⟩
  unfold ctxFromBuffer
  rw [PCtx.lawful.round_trip _ _ hp]
  obtain ⟨t1, t2, t3⟩ := h.types
  have hch : ({ c.chain.root with
      key := keyAfter c.chain.root.key true, sig := if c.chain.root.type = .node then c.chain.root.sig else none } : Identity) = c.chain.root := by
    rw [t1]; simp only [keyAfter, if_true, reduceCtorEq, if_false]
    cases hr : c.chain.root; rw [hr] at t1 t2; simp only at t1 t2; simp [t1, t2]
  have hcn : ({ c.chain.node with
      key := keyAfter c.chain.node.key true, sig := if c.chain.node.type = .node then c.chain.node.sig else none } : Identity) = c.chain.node := by
    rw [t3]; simp only [keyAfter, if_true]
  rw [hch, hcn] at q4
  have hh : genHeaderKey E defaultCipher (chainCreate c.chain.root c.chain.node) = some c.headerKey := h.header
  simp only [Option.bind_some, ctxFromProto, q4, p4, ctxCreate, hh, Option.map_some]
  rfl

/-- C48 (what holds), contexts in the clear.  Missing from C48: the packet version, see below. -/
theorem C48_context_round_trip_partial (E : Engine) (hE : E.Lawful) (c : Ctx) (h : WfCtx E c) (d : DevInfo) :
    ∃ b, ctxSerialize c = some b ∧ ctxFromBuffer E d b = some (stored c d) := by
  obtain ⟨b, h1, _, _, h2⟩ := ctx_round hE h d
  exact ⟨b, h1, h2⟩

/-- C48 (what holds), contexts and storage keys under a passphrase. -/
theorem C48_context_export_import (E : Engine) (hE : E.Lawful) (c : Ctx) (h : WfCtx E c) (d : DevInfo)
    (pass salt iv : Bytes) (hp : 0 < pass.length) (hpl : pass.length ≤ maxBuffer) (hs : salt.length = 16)
    (hiv : iv.length = 12) :
    (∃ b, ctxExport E c pass salt iv = some b ∧ ctxImport E d b pass = some (stored c d)) ∧
    (∃ b, ctxExportStorage E c pass salt iv = .ok b ∧ ctxImportStorage E b pass = some c.storage) := by
  have hmb := maxBuffer_val
  constructor
  · obtain ⟨b, h1, h2, h3, h4⟩ := ctx_round hE h d
    obtain ⟨out, _, o1, _, _, _, _, o2⟩ := C47_round_trip E hE scrypt17 (by simp [scrypts]) b pass salt iv h2 (by omega)
      hp hpl hs hiv
    exact ⟨out, by simp [ctxExport, h1, defaultCipher, o1], by simp [ctxImport, o2, h4]⟩
  · obtain ⟨p, p1, p2, p3, p4⟩ := storage_proto_round h.locKey h.remKey
    have hpk := protoPack_ok p3 (by omega)
    obtain ⟨out, _, o1, _, _, _, _, o2⟩ := C47_round_trip E hE scrypt17 (by simp [scrypts]) (fieldsEnc p.pack) pass salt iv
      (fieldsEnc_pos p3) (by omega) hp hpl hs hiv
    refine ⟨out, by simp [ctxExportStorage, storageSerialize, p1, hpk, Res.ofOption, Res.bind, defaultCipher, o1], ?_⟩
    simp only [ctxImportStorage, o2, Option.bind_some, storageFromBuffer]
    rw [PStorageKeys.lawful.round_trip p _ hpk]
    exact p4

/-- C48 is false for the packet version: a context set to write version 2 or 3 packets writes version 4
after it was stored and read back. -/
theorem C48_version_not_kept (E : Engine) (hE : E.Lawful) (c : Ctx) (h : WfCtx E c) (hv : c.version ≠ 4) :
    ∃ b c', ctxSerialize c = some b ∧ ctxFromBuffer E c.dev b = some c' ∧ c'.version ≠ c.version := by
  obtain ⟨b, h1, h2⟩ := C48_context_round_trip_partial E hE c h c.dev
  exact ⟨b, _, h1, h2, fun e => hv e.symm⟩

/-- The toy context is well formed. -/
theorem toyCtx_wf (v : UInt8) : WfCtx toyEngine (toyCtx v) where
  types := by show toyChain.root.type = .root ∧ toyChain.root.sig = none ∧ toyChain.node.type = .node; decide
  rootWf := ⟨show 0 < toyChain.root.identifier.length ∧ toyChain.root.identifier.length < 128 by decide,
    (toyKey_pair 5 (by decide)).pub, fun h => absurd h (show ¬ toyChain.root.type = .node by decide)⟩
  nodeWf := ⟨show 0 < toyChain.node.identifier.length ∧ toyChain.node.identifier.length < 128 by decide,
    (toyKey_pair 7 (by decide)).pub, fun _ => ⟨_, rfl, by decide, by decide⟩⟩
  rootKey := toyKey_pair 5 (by decide)
  nodeKey := toyKey_pair 7 (by decide)
  locKey := show toyStorage.loc.key.length = toyStorage.loc.cipher.keyLen by decide
  remKey := show toyStorage.rem.key.length = toyStorage.rem.cipher.keyLen by decide
  header := (toyCtx_sender 4 (by decide)).header

/-- C48 on the toy engine: the version 3 context, exported and imported on another device. -/
example : (ctxExport toyEngine (toyCtx 3) [1, 2] (List.replicate 16 4) (List.replicate 12 5)).bind
    (ctxImport toyEngine toyPeerDev · [1, 2]) = some { toyCtx 4 with dev := toyPeerDev } := by decide +kernel

/-! ### C49 -/

/-- C49: for every lawful engine, well-formed root keys and device, localizing succeeds; the remote key
is the root keys' own, and the local key is the SHA-256 digest of the node storage root and the
device's system salt. -/
theorem C49_localize_value (E : Engine) (hE : E.Lawful) (k : RootKeys) (h : WfRoot E k) (d : DevInfo) :
    ∃ s, rootKeysLocalize E k d = some s ∧ s.rem = k.remoteRoot ∧ s.loc.cipher = k.nodeRoot.cipher ∧
      E.digest k.nodeRoot.key d.systemSalt .sha256 = some s.loc.key ∧ WfKey s.loc ∧ WfKey s.rem := by
  obtain ⟨x, hx, hl⟩ := hE.digest_len k.nodeRoot.key d.systemSalt .sha256
  have hkl : k.nodeRoot.cipher.keyLen = 32 := by cases k.nodeRoot.cipher <;> rfl
  have : x.length = k.nodeRoot.cipher.keyLen := by rw [hl, hkl]; rfl
  refine ⟨⟨⟨k.nodeRoot.cipher, x⟩, k.remoteRoot⟩, ?_, rfl, rfl, hx, this, h.remote⟩
  simp [rootKeysLocalize, h.remote.copy, hx, cipherKeyCreate, this]

/-- C49: on any two devices the remote storage key is the same. -/
theorem C49_remote_same_everywhere (E : Engine) (k : RootKeys) (d e : DevInfo) (s t : StorageKeys)
    (h1 : rootKeysLocalize E k d = some s) (h2 : rootKeysLocalize E k e = some t) : s.rem = t.rem := by
  simp only [rootKeysLocalize, Option.bind_eq_some_iff, Option.map_eq_some_iff] at h1 h2
  obtain ⟨a, ha, _, _, _, _, rfl⟩ := h1
  obtain ⟨b, hb, _, _, _, _, rfl⟩ := h2
  rw [ha] at hb; cases hb; rfl

/-- C49: devices with the same system salt get the same local key, whatever else differs. -/
theorem C49_local_depends_on_salt_only (E : Engine) (k : RootKeys) (d e : DevInfo) (h : d.systemSalt = e.systemSalt) :
    rootKeysLocalize E k d = rootKeysLocalize E k e := by simp [rootKeysLocalize, h]

/-- C49: devices whose salted digests differ get different local keys, so what one encrypts for
local storage is not even encrypted under the other's key. -/
theorem C49_local_key_device_bound (E : Engine) (hE : E.Lawful) (k : RootKeys) (h : WfRoot E k) (d e : DevInfo)
    (hn : E.digest k.nodeRoot.key d.systemSalt .sha256 ≠ E.digest k.nodeRoot.key e.systemSalt .sha256) (s t : StorageKeys)
    (h1 : rootKeysLocalize E k d = some s) (h2 : rootKeysLocalize E k e = some t) : s.loc ≠ t.loc := by
  obtain ⟨s', a1, _, _, a2, _⟩ := C49_localize_value E hE k h d
  obtain ⟨t', b1, _, _, b2, _⟩ := C49_localize_value E hE k h e
  rw [h1] at a1; cases a1
  rw [h2] at b1; cases b1
  intro he
  rw [a2, b2, he] at hn
  exact hn rfl

/-- C49, device information: for every lawful engine it can be derived from a salt and a system id; the
system salt depends on the system id alone; the two identifiers are the halves of one digest of both. -/
theorem C49_devinfo_value (E : Engine) (hE : E.Lawful) (devSalt systemId : Bytes) :
    ∃ d, devInfoDerive E devSalt systemId = some d ∧ d.devSalt = devSalt ∧
      d.systemSalt = E.digest systemId none .sha256 ∧
      E.digest systemId (some devSalt) .sha512 = some (d.msgProtoId ++ d.srvCommId) ∧
      d.msgProtoId.length = 32 ∧ d.srvCommId.length = 32 := by
  have hmb := maxBuffer_val
  obtain ⟨x, hx, _⟩ := hE.digest_len systemId none .sha256
  obtain ⟨y, hy, hyl⟩ := hE.digest_len systemId (some devSalt) .sha512
  have h64 : y.length = 64 := hyl
  refine ⟨⟨devSalt, some x, (y.drop 0).take 32, (y.drop 32).take 32⟩, ?_, rfl, hx.symm, ?_, by simp; omega, by simp; omega⟩
  · simp [devInfoDerive, hx, hy, copySection_of (b := y) (s := 0) (l := 32) (by omega) (by omega) (by omega) (by omega),
      copySection_of (b := y) (s := 32) (l := 32) (by omega) (by omega) (by omega) (by omega)]
  · rw [hy]
    simp only [List.drop_zero, Option.some.injEq]
    rw [List.take_of_length_le (l := y.drop 32) (by simp; omega), List.take_append_drop]

/-- C49 is about something: two toy devices with different local keys and the same remote key. -/
example : (rootKeysLocalize toyEngine ⟨toyKey 5, ⟨.gcm, List.replicate 32 1⟩, ⟨.gcm, List.replicate 32 2⟩⟩ toyDev).map (·.loc) ≠
    (rootKeysLocalize toyEngine ⟨toyKey 5, ⟨.gcm, List.replicate 32 1⟩, ⟨.gcm, List.replicate 32 2⟩⟩
      { toyDev with systemSalt := some [3] }).map (·.loc) := by decide +kernel

end Wickr
