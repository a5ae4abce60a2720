import Verif.Lemmas.SepObj
import Verif.Model.HeapKeys
/-
Key material on the heap.
-/
namespace Wickr
open Asrt

/-! ### Storage keys and root keys -/

theorem hStorageCreate_spec (c : Rules) (f : Bool) (p q : Addr) (k l : CipherKey) :
    Triple c f (isCKey p k ∗ isCKey q l) (hStorageCreate (some p) (some q))
      (fun r f' => orKeep (isCKey p k ∗ isCKey q l) isStorage ⟨k, l⟩ r f') := by
  unfold hStorageCreate
  sgo

theorem hStorageDestroy_spec (c : Rules) (a : Addr) (v : StorageKeys) :
    Destroys c (isStorage a v) (hStorageDestroy (some a)) := by
  intro f
  unfold hStorageDestroy
  obtain ⟨k, l⟩ := v
  sopen isStorage
  sgo

theorem hStorageCopy_keep (c : Rules) (f : Bool) (hc : c.crash) (a : Addr) (v : StorageKeys) (h : Heap)
    (hx : isStorage a v h) :
    Triple c f (keep h) (hStorageCopy (some a)) (fun r f' => keep h ∗ fresh isStorage v r f') := by
  unfold hStorageCopy
  obtain ⟨k, l⟩ := v
  skeep hx isStorage
  sgo

theorem hStorageCopy_spec (c : Rules) (f : Bool) (hc : c.crash) (a : Addr) (v : StorageKeys) :
    Triple c f (isStorage a v) (hStorageCopy (some a)) (fun r f' => isStorage a v ∗ fresh isStorage v r f') :=
  Triple.owned fun h hx => hStorageCopy_keep c f hc a v h hx

theorem hRootCreate_spec (c : Rules) (f : Bool) (p q r : Addr) (k : EcKey) (l m : CipherKey) :
    Triple c f (isKey p k ∗ isCKey q l ∗ isCKey r m) (hRootCreate (some p) (some q) (some r))
      (fun x f' => orKeep (isKey p k ∗ isCKey q l ∗ isCKey r m) isRoot ⟨k, l, m⟩ x f') := by
  unfold hRootCreate
  sgo

theorem hRootDestroy_spec (c : Rules) (a : Addr) (v : RootKeys) : Destroys c (isRoot a v) (hRootDestroy (some a)) := by
  intro f
  unfold hRootDestroy
  obtain ⟨k, l, m⟩ := v
  sopen isRoot
  sgo

theorem hRootCopy_keep (c : Rules) (f : Bool) (hc : c.crash) (a : Addr) (v : RootKeys) (hp : c.pub v.sigRoot.pub) (h : Heap)
    (hx : isRoot a v h) :
    Triple c f (keep h) (hRootCopy (some a)) (fun r f' => keep h ∗ fresh isRoot v r f') := by
  unfold hRootCopy
  obtain ⟨k, l, m⟩ := v
  skeep hx isRoot
  sgo

theorem hRootCopy_spec (c : Rules) (f : Bool) (hc : c.crash) (a : Addr) (v : RootKeys) (hp : c.pub v.sigRoot.pub) :
    Triple c f (isRoot a v) (hRootCopy (some a)) (fun r f' => isRoot a v ∗ fresh isRoot v r f') :=
  Triple.owned fun h hx => hRootCopy_keep c f hc a v hp h hx

/-! ### Device information -/

theorem hDevCreate_spec (c : Rules) (f : Bool) (p : Addr) (s : Ptr) (q r : Addr) (b : Bytes) (y : Option Bytes) (d e : Bytes) :
    Triple c f (isBuf p b ∗ optRep isBuf s y ∗ isBuf q d ∗ isBuf r e) (hDevCreate (some p) s (some q) (some r))
      (fun x f' => orKeep (isBuf p b ∗ optRep isBuf s y ∗ isBuf q d ∗ isBuf r e) isDev ⟨b, y, d, e⟩ x f') := by
  unfold hDevCreate
  sgo

theorem hDevDestroy_spec (c : Rules) (a : Addr) (v : DevInfo) : Destroys c (isDev a v) (hDevDestroy (some a)) := by
  intro f
  unfold hDevDestroy
  obtain ⟨b, y, d, e⟩ := v
  sopen isDev
  sopt <;> sgo

theorem hDevCopy_keep (c : Rules) (f : Bool) (a : Addr) (v : DevInfo) (hs : v.systemSalt.isSome) (h : Heap)
    (hx : isDev a v h) :
    Triple c f (keep h) (hDevCopy (some a)) (fun r f' => keep h ∗ fresh isDev v r f') := by
  unfold hDevCopy
  obtain ⟨b, y, d, e⟩ := v
  skeep hx isDev
  skopt <;> simp at hs
  sgo

theorem hDevCopy_spec (c : Rules) (f : Bool) (a : Addr) (v : DevInfo) (hs : v.systemSalt.isSome) :
    Triple c f (isDev a v) (hDevCopy (some a)) (fun r f' => isDev a v ∗ fresh isDev v r f') :=
  Triple.owned fun h hx => hDevCopy_keep c f a v hs h hx

/-- There is no copy of device information without a system salt. -/
theorem hDevCopy_none (c : Rules) (f : Bool) (a : Addr) (v : DevInfo) (hs : v.systemSalt = none) (h : Heap)
    (hx : isDev a v h) : Triple c f (keep h) (hDevCopy (some a)) (fun r f' => ⌜r = none ∧ f' = f⌝ ∗ keep h) := by
  unfold hDevCopy
  obtain ⟨b, y, d, e⟩ := v
  skeep hx isDev
  skopt <;> simp at hs
  sgo
  unfold onNull
  sgo

/-! ### Key derivation -/

theorem KdfMeta.ok_iff (m : KdfMeta) : m.Ok ↔ kdfMetaCreate m.algo m.salt m.info = some m := by
  obtain ⟨⟨k, i, s, o, c⟩, salt, info⟩ := m
  unfold kdfMetaCreate KdfMeta.Ok
  cases k <;> cases salt <;> cases info <;> simp

theorem hKdfMetaCreate_spec (c : Rules) (f : Bool) (al : KdfAlgo) (p q : Ptr) (s i : Option Bytes) (ho : KdfMeta.Ok ⟨al, s, i⟩) :
    Triple c f (optRep isBuf p s ∗ optRep isBuf q i) (hKdfMetaCreate al p q)
      (fun r f' => orKeep (optRep isBuf p s ∗ optRep isBuf q i) isKdfMeta ⟨al, s, i⟩ r f') := by
  unfold hKdfMetaCreate
  obtain ⟨h1, h2, h3⟩ := id ho
  dsimp at h1 h2 h3
  by_cases hk : al.kind = .hkdf
  · sopt <;> simp [hk] at h1 ⊢ <;> sgo
  · sopt <;> simp [hk] at h2 ⊢
    all_goals
      have h3 := h3 _ hk rfl
      sgo

theorem hKdfMetaDestroy_spec {c : Rules} {a : Addr} {m : KdfMeta} (hp : ∀ b ∈ m.publics, c.pub b) :
    Destroys c (isKdfMeta a m) (hKdfMetaDestroy (some a)) := by
  intro f
  unfold hKdfMetaDestroy
  obtain ⟨al, s, i⟩ := m
  simp only [KdfMeta.publics] at hp
  sopen isKdfMeta
  sopt <;> simp at hp <;> sgo

theorem hKdfMetaCopy_keep (c : Rules) (f : Bool) (a : Addr) (m : KdfMeta)
    (hs : ∀ s, m.salt = some s → c.pub s) (h : Heap) (hx : isKdfMeta a m h) :
    Triple c f (keep h) (hKdfMetaCopy (some a)) (fun r f' => keep h ∗ leaky isKdfMeta Eq m r f') := by
  unfold hKdfMetaCopy
  obtain ⟨al, s, i⟩ := m
  skeep hx isKdfMeta
  have ho : KdfMeta.Ok ⟨al, s, i⟩ := by assumption
  skopt <;> simp at hs <;> sgo

theorem hKdfMetaCopy_spec (c : Rules) (f : Bool) (a : Addr) (m : KdfMeta) (hs : ∀ s, m.salt = some s → c.pub s) :
    Triple c f (isKdfMeta a m) (hKdfMetaCopy (some a)) (fun r f' => isKdfMeta a m ∗ leaky isKdfMeta Eq m r f') :=
  Triple.owned fun h hx => hKdfMetaCopy_keep c f a m hs h hx

theorem hKdfResCreate_spec (c : Rules) (f : Bool) (p q : Addr) (m : KdfMeta) (b : Bytes) :
    Triple c f (isKdfMeta p m ∗ isBuf q b) (hKdfResCreate (some p) (some q))
      (fun r f' => orKeep (isKdfMeta p m ∗ isBuf q b) isKdfRes ⟨m, b⟩ r f') := by
  unfold hKdfResCreate
  sgo

theorem hKdfResDestroy_spec {c : Rules} {a : Addr} {r : KdfResult} (hp : ∀ b ∈ r.publics, c.pub b) :
    Destroys c (isKdfRes a r) (hKdfResDestroy (some a)) := by
  intro f
  unfold hKdfResDestroy
  obtain ⟨m, b⟩ := r
  simp only [KdfResult.publics] at hp
  sopen isKdfRes
  sgo

theorem hKdfResCopy_keep (c : Rules) (f : Bool) (a : Addr) (r : KdfResult) (hp : ∀ b ∈ r.publics, c.pub b)
    (hs : ∀ s, r.info.salt = some s → c.pub s) (h : Heap) (hx : isKdfRes a r h) :
    Triple c f (keep h) (hKdfResCopy (some a)) (fun x f' => keep h ∗ leaky isKdfRes Eq r x f') := by
  unfold hKdfResCopy
  obtain ⟨m, b⟩ := r
  simp only [KdfResult.publics] at hp
  skeep hx isKdfRes
  sgo

/-! ### Streams -/

theorem hSKeyCreate_spec (c : Rules) (f : Bool) (p q : Addr) (n : UInt32) (u : Ptr) (k : CipherKey) (b : Bytes) (d : Option Bytes)
    (hn : ppeMin ≤ n ∧ n ≤ ppeMax) :
    Triple c f (isCKey p k ∗ isBuf q b ∗ optRep isBuf u d) (hSKeyCreate (some p) (some q) n u)
      (fun r f' => orKeep (isCKey p k ∗ isBuf q b ∗ optRep isBuf u d) isSKey ⟨k, b, n, d⟩ r f') := by
  unfold hSKeyCreate
  have hn' : ¬ (n < ppeMin ∨ n > ppeMax) := by
    rintro (h | h)
    · exact absurd hn.1 (by simpa using h)
    · exact absurd hn.2 (by simpa using h)
  simp only [hn', if_false]
  sgo

theorem hSKeyDestroy_spec {c : Rules} {a : Addr} {v : StreamKey} (hp : ∀ b ∈ v.publics, c.pub b) :
    Destroys c (isSKey a v) (hSKeyDestroy (some a)) := by
  intro f
  unfold hSKeyDestroy
  obtain ⟨k, b, n, d⟩ := v
  simp only [StreamKey.publics] at hp
  sopen isSKey
  sopt <;> simp at hp <;> sgo

theorem hSKeyCopy_keep (c : Rules) (f : Bool) (hc : c.crash) (a : Addr) (v : StreamKey) (hp : ∀ b ∈ v.publics, c.pub b)
    (h : Heap) (hx : isSKey a v h) :
    Triple c f (keep h) (hSKeyCopy (some a)) (fun r f' => keep h ∗ fresh isSKey v r f') := by
  unfold hSKeyCopy
  obtain ⟨k, b, n, d⟩ := v
  simp only [StreamKey.publics] at hp
  skeep hx isSKey
  skopt <;> simp at hp <;> sgo

theorem hSKeyCopy_spec (c : Rules) (f : Bool) (hc : c.crash) (a : Addr) (v : StreamKey) (hp : ∀ b ∈ v.publics, c.pub b) :
    Triple c f (isSKey a v) (hSKeyCopy (some a)) (fun r f' => isSKey a v ∗ fresh isSKey v r f') :=
  Triple.owned fun h hx => hSKeyCopy_keep c f hc a v hp h hx

theorem hSIvDestroy_spec {c : Rules} {a : Addr} {v : StreamIv} (hp : c.pub v.seed) :
    Destroys c (isSIv a v) (hSIvDestroy (some a)) := by
  intro f
  unfold hSIvDestroy
  obtain ⟨ci, b, n⟩ := v
  sopen isSIv
  sgo

theorem hSIvCopy_keep (c : Rules) (f : Bool) (a : Addr) (v : StreamIv) (hp : c.pub v.seed) (h : Heap) (hx : isSIv a v h) :
    Triple c f (keep h) (hSIvCopy (some a)) (fun r f' => keep h ∗ fresh isSIv v r f') := by
  unfold hSIvCopy
  obtain ⟨ci, b, n⟩ := v
  skeep hx isSIv
  sgo

theorem hSIvCopy_spec (c : Rules) (f : Bool) (a : Addr) (v : StreamIv) (hp : c.pub v.seed) :
    Triple c f (isSIv a v) (hSIvCopy (some a)) (fun r f' => isSIv a v ∗ fresh isSIv v r f') :=
  Triple.owned fun h hx => hSIvCopy_keep c f a v hp h hx

theorem hSCtxDestroy_spec {c : Rules} {a : Addr} {v : StreamCtx} (hr : v.ref = 0 ∨ v.ref = 1)
    (hp : ∀ b ∈ v.publics, c.pub b) : Destroys c (isSCtx a v) (hSCtxDestroy (some a)) := by
  intro f
  unfold hSCtxDestroy
  obtain ⟨k, i, s, d, n⟩ := v
  simp only [StreamCtx.publics, List.mem_append, or_imp, forall_and] at hp
  obtain ⟨h1, h2⟩ := hp
  sopen isSCtx
  have e : (if n ≠ 0 then n - 1 else n) = 0 := by rcases hr with h | h <;> simp at h <;> simp [h]
  sopt <;> simp at h2 <;> sgo

/-- Giving up one of several references. -/
theorem hSCtxDestroy_ref (c : Rules) (f : Bool) (a : Addr) (v : StreamCtx) (hr : 1 < v.ref) :
    Triple c f (isSCtx a v) (hSCtxDestroy (some a))
      (fun r _ => ⌜r = some a⌝ ∗ isSCtx a { v with ref := v.ref - 1 }) := by
  unfold hSCtxDestroy
  obtain ⟨k, i, s, d, n⟩ := v
  dsimp only at hr
  sopen isSCtx
  have e : (if n ≠ 0 then n - 1 else n) = n - 1 := by
    have : n ≠ 0 := by rintro rfl; exact absurd hr (by decide)
    simp [this]
  have e' : n - 1 ≠ 0 := by
    intro h
    have : n = 1 := by rw [← UInt64.sub_add_cancel n 1, h]; rfl
    subst this
    exact absurd hr (by decide)
  sgo
  · rw [e]
    sgo
  · rename_i h; exact absurd (e ▸ Decidable.of_not_not h) e'

theorem hSCtxCopy_keep (c : Rules) (f : Bool) (hc : c.crash) (a : Addr) (v : StreamCtx) (hp : ∀ b ∈ v.publics, c.pub b)
    (h : Heap) (hx : isSCtx a v h) :
    Triple c f (keep h) (hSCtxCopy (some a)) (fun r f' => keep h ∗ fresh isSCtx { v with ref := 1 } r f') := by
  unfold hSCtxCopy
  obtain ⟨k, i, s, d, n⟩ := v
  simp only [StreamCtx.publics, List.mem_append, or_imp, forall_and] at hp
  obtain ⟨h1, h2⟩ := hp
  skeep hx isSCtx
  skopt <;> simp at h2 <;> sgo

/-! ### Transport root keys, ECDH contexts -/

theorem hTRootCreate_spec (c : Rules) (f : Bool) (p : Addr) (ci : Cipher) (m n : UInt32) (b : Bytes) (hb : b.length = ci.keyLen) :
    Triple c f (isBuf p b) (hTRootCreate (some p) ci m n) (fun r f' => orKeep (isBuf p b) isTRoot ⟨b, ci, m, n⟩ r f') := by
  unfold hTRootCreate
  sgo

theorem hTRootDestroy_spec (c : Rules) (a : Addr) (v : RootKey) : Destroys c (isTRoot a v) (hTRootDestroy (some a)) := by
  intro f
  unfold hTRootDestroy
  obtain ⟨b, ci, m, n⟩ := v
  sopen isTRoot
  sgo

theorem hTRootCopy_keep (c : Rules) (f : Bool) (a : Addr) (v : RootKey) (h : Heap) (hx : isTRoot a v h) :
    Triple c f (keep h) (hTRootCopy (some a)) (fun r f' => keep h ∗ fresh isTRoot v r f') := by
  unfold hTRootCopy
  obtain ⟨b, ci, m, n⟩ := v
  skeep hx isTRoot
  sgo

theorem hEcdhCreate_spec (c : Rules) (f : Bool) (p : Addr) (ci : Cipher) (k : EcKey) :
    Triple c f (isKey p k) (hEcdhCreate (some p) ci) (fun r f' => orKeep (isKey p k) isEcdh ⟨ci, k⟩ r f') := by
  unfold hEcdhCreate
  sgo

theorem hEcdhDestroy_spec (c : Rules) (a : Addr) (v : EcdhCtx) : Destroys c (isEcdh a v) (hEcdhDestroy (some a)) := by
  intro f
  unfold hEcdhDestroy
  obtain ⟨ci, k⟩ := v
  sopen isEcdh
  sgo

theorem hEcdhCopy_keep (c : Rules) (f : Bool) (hc : c.crash) (a : Addr) (v : EcdhCtx) (hp : c.pub v.key.pub) (h : Heap)
    (hx : isEcdh a v h) :
    Triple c f (keep h) (hEcdhCopy (some a)) (fun r f' => keep h ∗ fresh isEcdh v r f') := by
  unfold hEcdhCopy
  obtain ⟨ci, k⟩ := v
  skeep hx isEcdh
  sgo

end Wickr
