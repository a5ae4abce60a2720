import Verif.Lemmas.SepUnpack
import Verif.Spec.Releases
import Verif.Lemmas.Engine
import Verif.Lemmas.Fits
/-
Key material and passphrase encryption on the heap.
-/
namespace Wickr
open Asrt Spec

macro_rules | `(tactic| sarg) => `(tactic| first | assumption | (simp_all; done) | (grind (splits := 12)))

variable {E : Engine}

/-! ### Copies of objects that are only looked at -/

theorem hCKeyCopy_view (c : Rules) (f : Bool) (hc : c.crash) (h : Heap) (a : Addr) (k : CipherKey) (hb : Has isCKey h a k) :
    Triple c f (keep h) (hCKeyCopy (some a)) (fun r f' => keep h ∗ fresh isCKey k r f') :=
  Triple.view (fun x hx => hCKeyCopy_keep c f hc a k x hx) hb

/-! ### cipher.c -/

theorem copySection_valid {b d : Bytes} {s n : Nat} (h : copySection b s n = some d) : ValidBuf d := by
  unfold copySection at h
  split at h
  · simp at h
    subst h
    unfold ValidBuf
    simp
    omega
  · simp at h

theorem hSection_spec (c : Rules) (f : Bool) (b : Bytes) (s n : Nat) :
    Triple c f emp (hSection b s n) (fun r f' => emp ∗ gives isBuf (copySection b s n) r f') := by
  unfold hSection
  cases hk : copySection b s n with
  | none => vgo
  | some d =>
    have := copySection_valid hk
    vgo

theorem hCResSerialize_view (c : Rules) (f : Bool) (h : Heap) (a : Addr) (r : CipherResult) (hb : Has isCRes h a r) :
    Triple c f (keep h) (hCResSerialize (some a)) (fun x f' => keep h ∗ gives isBuf (cipherResultSerialize r) x f') := by
  unfold hCResSerialize cipherResultSerialize
  vgo

theorem hCKeySerialize_view (c : Rules) (f : Bool) (h : Heap) (a : Addr) (r : CipherKey) (hb : Has isCKey h a r) :
    Triple c f (keep h) (hCKeySerialize (some a)) (fun x f' => keep h ∗ gives isBuf (cipherKeySerialize r) x f') := by
  unfold hCKeySerialize cipherKeySerialize
  vgo

@[grind →] theorem copySection_length {b d : Bytes} {s n : Nat} (h : copySection b s n = some d) : d.length = n := by
  unfold copySection at h
  split at h
  · simp at h
    subst h
    simp
    omega
  · simp at h

theorem hCKeyFromBytes_spec (c : Rules) (f : Bool) (hc : c.crash) (b : Bytes) :
    Triple c f emp (hCKeyFromBytes b) (fun r f' => emp ∗ gives isCKey (cipherKeyFromBuffer b) r f') := by
  unfold hCKeyFromBytes cipherKeyFromBuffer cipherKeyCreate
  rcases b with _ | ⟨b0, t⟩
  · vgo
  · dsimp only
    cases hf : Cipher.find b0 with
    | none => vgo
    | some ci =>
      vgo

theorem hCKeyFromBuffer_view (c : Rules) (f : Bool) (hc : c.crash) (h : Heap) (a : Addr) (b : Bytes) (hb : Has isBuf h a b) :
    Triple c f (keep h) (hCKeyFromBuffer (some a)) (fun x f' => keep h ∗ gives isCKey (cipherKeyFromBuffer b) x f') := by
  unfold hCKeyFromBuffer
  vgo

theorem copySection_within {b : Bytes} {s n : Nat} (hv : b.length ≤ maxBuffer) (h0 : 0 < n) (h : s + n ≤ b.length) (hn : n < maxBuffer) :
    copySection b s n = some ((b.drop s).take n) := by
  unfold copySection
  rw [if_pos (by omega)]

theorem hSection_eq {b d : Bytes} {s n : Nat} (h : copySection b s n = some d) : hSection b s n = hOut d := by
  unfold hSection
  rw [h]

theorem hCResFromBytes_spec (c : Rules) (f : Bool) (hc : c.crash) (b : Bytes) (hv : b.length ≤ maxBuffer)
    (hp : ∀ x ∈ cresHead b, c.pub x ∨ c.lax) :
    Triple c f emp (hCResFromBytes b) (fun r f' => emp ∗ gives isCRes (cipherResultFromBuffer b) r f') := by
  unfold hCResFromBytes cipherResultFromBuffer
  rcases b with _ | ⟨b0, t⟩
  · vgo
  · dsimp only [cresHead] at hp ⊢
    cases hf : Cipher.find b0 with
    | none => vgo
    | some ci =>
      rw [hf] at hp
      dsimp only at hp ⊢
      have hm : maxBuffer = 2147483647 - 16 := rfl
      have h1 : 0 < ci.ivLen ∧ ci.ivLen < 100 := by cases ci <;> decide
      have h2 : ci.tagLen < 100 := by cases ci <;> decide
      have h3 : ci.isAuth = true → 0 < ci.tagLen := by cases ci <;> decide
      have h4 : ci.isAuth = false → ci.tagLen = 0 := by cases ci <;> decide
      generalize b0 :: t = b at *
      by_cases hl : b.length < 1 + ci.ivLen + ci.tagLen
      · simp only [hl, if_true]
        vgo
      · simp only [hl, if_false]
        have e1 := copySection_within (s := 1) (n := ci.ivLen) hv (by omega) (by omega) (by omega)
        have v1 := copySection_valid e1
        have l1 := copySection_length e1
        have hp1 := hp (List.take ci.ivLen (List.drop 1 b)) (by rw [e1]; simp)
        simp only [e1, hSection_eq e1, Option.bind_some]
        generalize List.take ci.ivLen (List.drop 1 b) = iv at *
        cases ha : ci.isAuth
        · have h4 := h4 ha
          by_cases hg : b.length > 1 + ci.ivLen + ci.tagLen
          · have e2 := copySection_within (s := 1 + ci.ivLen) (n := b.length - (1 + ci.ivLen)) hv (by omega) (by omega) (by omega)
            have v2 := copySection_valid e2
            simp only [e2, hSection_eq e2]
            generalize List.take _ (List.drop _ b) = ct at *
            have hk : CipherResult.Ok ⟨ci, iv, some ct, none⟩ := ⟨l1, by simp [ha], by simp⟩
            have ho := (CipherResult.ok_iff _).1 hk
            dsimp only at ho
            simp only [hg, if_true, if_false, Option.bind_some, ho, Bool.false_eq_true]
            rcases hp1 with hp1 | hp1 <;> vgo
          · have hk : CipherResult.Ok ⟨ci, iv, none, none⟩ := ⟨l1, by simp [ha], by simp⟩
            have ho := (CipherResult.ok_iff _).1 hk
            dsimp only at ho
            simp only [hg, if_false, ho, Bool.false_eq_true]
            vgo
        · have h3 := h3 ha
          have e3 := copySection_within (s := 1 + ci.ivLen) (n := ci.tagLen) hv (by omega) (by omega) (by omega)
          have v3 := copySection_valid e3
          have l3 := copySection_length e3
          have hp3 := hp (List.take ci.tagLen (List.drop (1 + ci.ivLen) b)) (by rw [e3]; simp)
          simp only [e3, hSection_eq e3, Option.bind_some, if_true]
          generalize List.take ci.tagLen (List.drop (1 + ci.ivLen) b) = tag at *
          by_cases hg : b.length > 1 + ci.ivLen + ci.tagLen
          · have e2 := copySection_within (s := 1 + ci.ivLen + ci.tagLen) (n := b.length - (1 + ci.ivLen + ci.tagLen)) hv (by omega) (by omega)
              (by omega)
            have v2 := copySection_valid e2
            simp only [e2, hSection_eq e2]
            generalize List.take _ (List.drop _ b) = ct at *
            have hk : CipherResult.Ok ⟨ci, iv, some ct, some tag⟩ := ⟨l1, by simp, by simp [l3]⟩
            have ho := (CipherResult.ok_iff _).1 hk
            dsimp only at ho
            simp only [hg, if_true, Option.bind_some, ho]
            rcases hp1 with hp1 | hp1 <;> rcases hp3 with hp3 | hp3 <;> vgo
          · have hk : CipherResult.Ok ⟨ci, iv, none, some tag⟩ := ⟨l1, by simp, by simp [l3]⟩
            have ho := (CipherResult.ok_iff _).1 hk
            dsimp only at ho
            simp only [hg, if_false, ho]
            rcases hp1 with hp1 | hp1 <;> vgo

theorem hCResFromBuffer_view (c : Rules) (f : Bool) (hc : c.crash) (h : Heap) (a : Addr) (b : Bytes)
    (hp : ∀ x ∈ cresHead b, c.pub x ∨ c.lax) (hb : Has isBuf h a b) :
    Triple c f (keep h) (hCResFromBuffer (some a)) (fun x f' => keep h ∗ gives isCRes (cipherResultFromBuffer b) x f') := by
  unfold hCResFromBuffer
  have hv := (has_valid hb).2
  vgo

/-! ### kdf.c -/

theorem readKdfMeta_view {h : Heap} {a : Addr} {m : KdfMeta} (hb : Has isKdfMeta h a m) : Reads (keep h) (readKdfMeta (some a)) m := by
  intro c f
  unfold readKdfMeta
  obtain ⟨al, s, i⟩ := m
  sview hb isKdfMeta
  vgo

theorem KdfMeta.ok_of_create {a : KdfAlgo} {s i : Option Bytes} {m : KdfMeta} (h : kdfMetaCreate a s i = some m) :
    m = ⟨a, s, i⟩ ∧ m.Ok := by
  unfold kdfMetaCreate at h
  have : m = ⟨a, s, i⟩ := by
    split at h
    · split at h <;> simp at h
      exact h.symm
    · split at h
      · simp at h
      · split at h <;> simp at h
        exact h.symm
  subst this
  exact ⟨rfl, (KdfMeta.ok_iff _).2 h⟩

theorem KdfAlgo.find_hkdf {b : UInt8} {a : KdfAlgo} (h : KdfAlgo.find b = some a) : a.saltSize.toNat < 100 := by
  unfold KdfAlgo.find at h
  repeat' split at h
  all_goals simp at h
  all_goals subst h; decide

/-- Parameters of a key derivation as they are read from a buffer. -/
theorem hKdfMetaFromBuffer_view (c : Rules) (f : Bool) (h : Heap) (a : Addr) (b : Bytes) (hb : Has isBuf h a b) :
    Triple c f (keep h) (hKdfMetaFromBuffer (some a)) (fun x f' => keep h ∗ givesN isKdfMeta (kdfMetaFromBuffer b) x f') := by
  unfold hKdfMetaFromBuffer kdfMetaFromBuffer
  have hv := has_valid hb
  dsimp only
  vgo
  rename_i h1 h2
  simp only [h1, h2, if_false]
  rcases b with _ | ⟨b0, t⟩
  · vgo
  · dsimp only
    cases hf : KdfAlgo.find b0 with
    | none => vgo
    | some al =>
      dsimp only
      vgo
      rename_i s _ _
      have := copySection_length (by assumption)
      have ho : KdfMeta.Ok ⟨al, some s, none⟩ := ⟨by simp, by simp, by simp [*]⟩
      have := (KdfMeta.ok_iff _).1 ho
      vgo

theorem hKdfMetaSerialize_view (c : Rules) (f : Bool) (h : Heap) (a : Addr) (m : KdfMeta) (hb : Has isKdfMeta h a m) :
    Triple c f (keep h) (hKdfMetaSerialize (some a)) (fun x f' => keep h ∗ gives isBuf (kdfMetaSerialize m) x f') := by
  unfold hKdfMetaSerialize kdfMetaSerialize
  vgo

theorem bcryptSetting_valid {s : Bytes} (h : 7 + s.length ≤ 64) : ValidBuf (bcryptSetting s) := by
  unfold bcryptSetting ValidBuf maxBuffer
  simp
  omega

theorem hBcrypt_spec (c : Rules) (f : Bool) (salt pass hash : Bytes) (h1 : 7 + salt.length ≤ 64) (h2 : pass.length < maxBuffer)
    (h3 : ValidBuf hash) (hp : c.pub (bcryptSetting salt)) (hq : c.pub (pass ++ [0])) :
    Triple c f emp (hBcrypt salt pass hash) (fun r f' => fresh isBuf hash r f') := by
  unfold hBcrypt
  have v1 := bcryptSetting_valid h1
  have v2 : ValidBuf (pass ++ [0]) := by unfold ValidBuf; simp; omega
  vgo

theorem hKdfHash_spec (hE : E.Fits) (c : Rules) (f : Bool) (m : KdfMeta) (pass : Bytes) (hp : ∀ x ∈ m.spills pass, c.pub x) :
    Triple c f emp (hKdfHash E m pass) (fun r f' => emp ∗ gives isBuf (E.kdf m pass) r f') := by
  unfold hKdfHash
  cases hk : E.kdf m pass with
  | none => vgo
  | some k =>
    have h2 := hE.kdf _ _ _ hk
    have h3 := hE.bcrypt _ _ _ hk
    obtain ⟨⟨kind, i, ss, os, co⟩, s, inf⟩ := m
    unfold KdfMeta.spills at hp
    cases kind
    case bcrypt =>
      cases s
      · vgo
      · have h3 := h3 rfl _ rfl
        simp at hp
        vgo
    all_goals vgo

theorem hKdfMetaOf_spec (c : Rules) (f : Bool) (m : KdfMeta) (ho : m.Ok) (hs : ∀ s, m.salt = some s → ValidBuf s ∧ (c.pub s ∨ c.lax))
    (hi : ∀ i, m.info = some i → ValidBuf i) :
    Triple c f emp (hKdfMetaOf m) (fun r f' => emp ∗ givesN isKdfMeta (some m) r f') := by
  unfold hKdfMetaOf
  obtain ⟨al, s, i⟩ := m
  cases s with
  | none => cases i <;> simp at hi <;> vgo
  | some s =>
    obtain ⟨h1, h2⟩ := hs s rfl
    dsimp only
    rcases h2 with h2 | h2 <;> cases i <;> simp at hi <;> vgo

/-- What a key derivation needs of its parameters, and may release when an allocation fails. -/
structure KdfRules (E : Engine) (c : Rules) (m : KdfMeta) (pass : Bytes) : Prop where
  ok : m.Ok
  salt : ∀ s, m.salt = some s → ValidBuf s ∧ (c.pub s ∨ c.lax)
  info : ∀ i, m.info = some i → ValidBuf i
  spills : ∀ x ∈ m.spills pass, c.pub x
  hash : ∀ h, E.kdf m pass = some h → c.pub h ∨ c.lax

theorem hKdfWith_spec (hE : E.Fits) (c : Rules) (f : Bool) (m : KdfMeta) (pass : Bytes) (hk : KdfRules E c m pass) :
    Triple c f emp (hKdfWith E m pass) (fun r f' => emp ∗ givesN isKdfRes ((E.kdf m pass).map (KdfResult.mk m)) r f') := by
  unfold hKdfWith
  obtain ⟨h1, h2, h3, h4, h5⟩ := hk
  cases he : E.kdf m pass with
  | none => vgo
  | some k => rcases h5 k he with h6 | h6 <;> vgo

theorem hKdf_view (hE : E.Fits) (c : Rules) (f : Bool) (h : Heap) (a p : Addr) (m : KdfMeta) (pass : Bytes) (hk : KdfRules E c m pass)
    (hb : Has isKdfMeta h a m) (hp : Has isBuf h p pass) :
    Triple c f (keep h) (hKdf E (some a) (some p)) (fun r f' => keep h ∗ givesN isKdfRes ((E.kdf m pass).map (KdfResult.mk m)) r f') := by
  unfold hKdf
  vgo

theorem hKdfSalt_spec (c : Rules) (f : Bool) (hc : c.crash) (a : KdfAlgo) (rnd salt : Bytes) (hr : a.kind = .bcrypt → ValidBuf rnd)
    (hs : ValidBuf salt) (hb : a.kind = .bcrypt → salt.length ≤ 57) (hp : a.kind = .bcrypt → c.pub rnd ∧ c.pub ([36, 50, 121, 36, 49, 53, 36] ++ salt ++ [0])) :
    Triple c f emp (hKdfSalt a rnd salt) (fun r f' => fresh isBuf salt r f') := by
  unfold hKdfSalt
  obtain ⟨k, i, ss, os, co⟩ := a
  cases k
  case bcrypt =>
    simp only [true_imp_iff] at hr hb hp
    have v : ValidBuf ([36, 50, 121, 36, 49, 53, 36] ++ salt ++ [0]) := by unfold ValidBuf maxBuffer; simp; omega
    have := hp.1
    have := hp.2
    vgo
  all_goals vgo

theorem hKdfGen_view (hE : E.Fits) (c : Rules) (f : Bool) (hc : c.crash) (h : Heap) (p : Addr) (a : KdfAlgo) (pass rnd salt : Bytes)
    (hk : KdfRules E c ⟨a, some salt, none⟩ pass) (hr : a.kind = .bcrypt → ValidBuf rnd) (hb' : a.kind = .bcrypt → salt.length ≤ 57)
    (hs : c.pub salt) (hq : ∀ x ∈ a.saltSpills rnd salt, c.pub x) (hp : Has isBuf h p pass) :
    Triple c f (keep h) (hKdfGen E a (some p) rnd salt)
      (fun r f' => keep h ∗ givesN isKdfRes ((E.kdf ⟨a, some salt, none⟩ pass).map (KdfResult.mk ⟨a, some salt, none⟩)) r f') := by
  unfold hKdfGen
  have hv := (hk.salt salt rfl).1
  have : a.kind = .bcrypt → c.pub rnd ∧ c.pub ([36, 50, 121, 36, 49, 53, 36] ++ salt ++ [0]) := fun h => by
    unfold KdfAlgo.saltSpills at hq
    simp only [h, if_true] at hq
    exact ⟨hq _ (by simp), hq _ (by simp)⟩
  vgo

/-! ### crypto_engine.c -/

theorem hCKeyCreate_refuse (c : Rules) (f : Bool) (q : Addr) (ci : Cipher) (b : Bytes) (hb : b.length ≠ ci.keyLen) :
    Triple c f (isBuf q b) (hCKeyCreate ci (some q)) (fun r _ => ⌜r = none⌝ ∗ isBuf q b) := by
  unfold hCKeyCreate
  vgo

theorem hCKeyFromKdf_view (c : Rules) (f : Bool) (hc : c.crash) (h : Heap) (a : Addr) (r : KdfResult) (ci : Cipher) (hb : Has isKdfRes h a r) :
    Triple c f (keep h) (hCKeyFromKdf (some a) ci) (fun x f' => keep h ∗ gives isCKey (cipherKeyFromKdf r.hash ci) x f') := by
  unfold hCKeyFromKdf cipherKeyFromKdf cipherKeyCreate dup
  sview hb isKdfRes
  have hv := has_valid (by assumption)
  vgo

theorem hKdfEncrypt_view (hE : E.Fits) (c : Rules) (f : Bool) (hc : c.crash) (h : Heap) (p a : Addr) (b : Bytes) (r : KdfResult) (ci : Cipher)
    (iv : Bytes) (hp : ∀ x, E.encrypt b none ⟨ci, r.hash⟩ iv = some x → ∀ y ∈ x.publics, c.pub y)
    (hb : Has isBuf h p b) (hr : Has isKdfRes h a r) :
    Triple c f (keep h) (hKdfEncrypt E (some p) (some a) ci iv) (fun x f' => keep h ∗ gives isCRes (E.encrypt b none ⟨ci, r.hash⟩ iv) x f') := by
  unfold hKdfEncrypt
  have hv := has_valid hb
  sview hr isKdfRes
  vgo

theorem hKdfResMeta_view (c : Rules) (f : Bool) (h : Heap) (a : Addr) (r : KdfResult) (hr : Has isKdfRes h a r) :
    Triple c f (keep h) (hKdfResMeta (some a)) (fun x f' => keep h ∗ gives isBuf (kdfMetaSerialize r.info) x f') := by
  unfold hKdfResMeta
  sview hr isKdfRes
  vgo

theorem hCResSeal_spec (c : Rules) (f : Bool) (a : Addr) (r : CipherResult) (hp : ∀ y ∈ r.publics, c.pub y) :
    Triple c f (isCRes a r) (hCResSeal (some a)) (fun x f' => emp ∗ gives isBuf (cipherResultSerialize r) x f') := by
  unfold hCResSeal
  vgo

theorem hKdfResSeal_spec (c : Rules) (f : Bool) (a : Addr) (r : KdfResult) (hp : ∀ y ∈ r.publics, c.pub y) :
    Triple c f (isKdfRes a r) (hKdfResSeal (some a)) (fun x f' => emp ∗ gives isBuf (kdfMetaSerialize r.info) x f') := by
  unfold hKdfResSeal
  vgo

theorem hConcatPtr_view (c : Rules) (f : Bool) (h : Heap) (p q : Ptr) (x y : Option Bytes) (hx : HasOpt isBuf h p x)
    (hy : HasOpt isBuf h q y) :
    Triple c f (keep h) (hConcatPtr p q) (fun r f' => keep h ∗ gives isBuf (concat2 x y) r f') := by
  unfold hConcatPtr
  vgo

theorem hJoin_spec (c : Rules) (f : Bool) (a b : Addr) (x y : Bytes) (hx : c.pub x) (hy : c.pub y) :
    Triple c f (isBuf a x ∗ isBuf b y) (hJoin (some a) (some b)) (fun r f' => emp ∗ gives isBuf (concat2 (some x) (some y)) r f') := by
  unfold hJoin
  vgo

theorem hKdfCipher_view (hE : E.Fits) (c : Rules) (f : Bool) (hc : c.crash) (h : Heap) (p q : Addr) (a : KdfAlgo) (ci : Cipher)
    (value pass rnd salt iv : Bytes) (hs : ValidBuf salt) (hl : salt.length = a.saltSize.toNat)
    (hp : ∀ x ∈ kdfCipherPubs E a ci value pass salt iv, c.pub x)
    (hh : ∀ h, E.kdf ⟨a, some salt, none⟩ pass = some h → c.pub h ∨ c.lax)
    (hb : Has isBuf h p value) (hq : Has isBuf h q pass) :
    Triple c f (keep h) (hKdfCipher E a ci (some p) (some q) rnd salt iv)
      (fun x f' => keep h ∗ givesN isBuf (kdfCipher E a ci value pass salt iv) x f') := by
  unfold hKdfCipher kdfCipher
  unfold kdfCipherPubs at hp
  have hp1 := hp salt (by simp)
  have hp3 : ∀ b, kdfMetaSerialize ⟨a, some salt, none⟩ = some b → c.pub b := fun b hb => hp b (by simp [hb])
  by_cases hn : a.kind ≠ .scrypt ∨ ci.isAuth = false ∨ a.outputSize.toNat ≠ ci.keyLen
  · simp only [hn, if_true]
    clear hp
    vgo
  have ha : a.kind = .scrypt := by simp at hn; exact hn.1
  simp only [hn, if_false]
  have hk : KdfRules E c ⟨a, some salt, none⟩ pass :=
    ⟨⟨by simp, by simp, by simp [hl]⟩, by simp [hs, hp1], by simp, by simp [KdfMeta.spills, ha], hh⟩
  have h3 : ∀ x ∈ a.saltSpills rnd salt, c.pub x := by
    unfold KdfAlgo.saltSpills; intro x hx; simp [ha] at hx
  have h4 : a.kind = .bcrypt → ValidBuf rnd := by simp [ha]
  have h5 : a.kind = .bcrypt → salt.length ≤ 57 := by simp [ha]
  cases he : E.kdf ⟨a, some salt, none⟩ pass with
  | none => clear hp hh hn hl hs; (vgo)
  | some k =>
    have hp2 : ∀ r, E.encrypt value none ⟨ci, k⟩ iv = some r → ∀ x ∈ r.publics, c.pub x := fun r hr x hx =>
      hp x (by simp [he]; exact Or.inr (Or.inl ⟨r, hr, Or.inl hx⟩))
    have hp4 : ∀ r, E.encrypt value none ⟨ci, k⟩ iv = some r → ∀ x, cipherResultSerialize r = some x → c.pub x := fun r hr x hx =>
      hp x (by simp [he]; exact Or.inr (Or.inl ⟨r, hr, Or.inr hx⟩))
    have hr : ∀ b ∈ KdfResult.publics ⟨⟨a, some salt, none⟩, k⟩, c.pub b := by simp [KdfResult.publics, KdfMeta.publics]
    clear hp hh hn hl hs
    simp only [Option.bind_some]
    vgo

theorem hKdfOnce_spec (hE : E.Fits) (c : Rules) (f : Bool) (h : Heap) (a p : Addr) (m : KdfMeta) (pass : Bytes) (hk : KdfRules E c m pass)
    (hm : ∀ y ∈ m.publics, c.pub y) (hp : Has isBuf h p pass) :
    Triple c f (keep h ∗ isKdfMeta a m) (hKdfOnce E (some a) (some p))
      (fun r f' => keep h ∗ givesN isKdfRes ((E.kdf m pass).map (KdfResult.mk m)) r f') := by
  unfold hKdfOnce
  vgo

theorem hCKeyTake_spec (c : Rules) (f : Bool) (hc : c.crash) (a : Addr) (r : KdfResult) (ci : Cipher) (hp : ∀ y ∈ r.publics, c.pub y) :
    Triple c f (isKdfRes a r) (hCKeyTake (some a) ci) (fun x f' => emp ∗ gives isCKey (cipherKeyFromKdf r.hash ci) x f') := by
  unfold hCKeyTake
  vgo

theorem kdfMetaFromBuffer_some {b : Bytes} {m : KdfMeta} (h : kdfMetaFromBuffer b = some m) :
    m.Ok ∧ m.info = none ∧ ∃ s, m.salt = some s ∧ ValidBuf s := by
  unfold kdfMetaFromBuffer at h
  dsimp only at h
  split at h
  · simp at h
  · split at h
    · simp at h
    · split at h
      · simp at h
      · split at h
        · simp at h
        · obtain ⟨s, h1, h2⟩ := Option.bind_eq_some_iff.1 h
          obtain ⟨rfl, h3⟩ := KdfMeta.ok_of_create h2
          exact ⟨h3, rfl, s, rfl, copySection_valid h1⟩

theorem hKdfDecipher_view (hE : E.Fits) (c : Rules) (f : Bool) (hc : c.crash) (h : Heap) (p q : Addr) (b pass : Bytes)
    (hw : ∀ m, kdfMetaFromBuffer b = some m → E.kdf m pass = none ∨ cipherResultFromBuffer (b.drop (kdfMetaSize b).toNat) ≠ none)
    (hp : ∀ x ∈ kdfDecipherPubs b pass, c.pub x) (hl : c.lax)
    (hb : Has isBuf h p b) (hq : Has isBuf h q pass) :
    Triple c f (keep h) (hKdfDecipher E (some p) (some q)) (fun x f' => keep h ∗ givesN isBuf (kdfDecipher E b pass) x f') := by
  unfold hKdfDecipher kdfDecipher
  dsimp only
  have hv := (has_valid hb).2
  have hv' : (b.drop (kdfMetaSize b).toNat).length ≤ maxBuffer := by simp; omega
  unfold kdfDecipherPubs at hp
  cases hm : kdfMetaFromBuffer b with
  | none => clear hp hw; vgo
  | some m =>
    replace hw := hw m hm
    obtain ⟨h1, h2, s, h3, h4⟩ := kdfMetaFromBuffer_some hm
    have hk : KdfRules E c m pass := ⟨h1, by simp [h3, h4, hl], by simp [h2], fun x hx => hp x (by simp [hm, hx]), fun _ _ => Or.inr hl⟩
    have hmp : ∀ y ∈ m.publics, c.pub y := by simp [KdfMeta.publics, h2]
    have hh : ∀ x ∈ cresHead (b.drop (kdfMetaSize b).toNat), c.pub x ∨ c.lax := fun _ _ => Or.inr hl
    have hr : ∀ k, ∀ y ∈ KdfResult.publics ⟨m, k⟩, c.pub y := fun k => hmp
    cases he : E.kdf m pass with
    | none => clear hp; vgo
    | some k =>
      replace hr := hr k
      cases hd : cipherResultFromBuffer (b.drop (kdfMetaSize b).toNat) with
      | none => simp [hd, he] at hw
      | some r =>
        replace hp : ∀ y ∈ r.publics, c.pub y := fun y hy => hp y (by simp [hd, hy])
        clear hw
        vgo

/-! ### ecdh_cipher_ctx.c -/

theorem hEcdhNew_spec (c : Rules) (f : Bool) (hc : c.crash) (cv : Curve) (ci : Cipher) (pub pri : Bytes) (hv : ValidBuf pub)
    (hv' : ValidBuf pri) :
    Triple c f emp (hEcdhNew cv ci pub pri) (fun r f' => fresh isEcdh ⟨ci, cv, pub, some pri⟩ r f') := by
  unfold hEcdhNew
  vgo

theorem hKdfResHash_view (c : Rules) (f : Bool) (h : Heap) (a : Addr) (r : KdfResult) (hr : Has isKdfRes h a r) :
    Triple c f (keep h) (hKdfResHash (some a)) (fun x f' => keep h ∗ fresh isBuf r.hash x f') := by
  unfold hKdfResHash
  sview hr isKdfRes
  vgo

theorem hEcdhDerive_view (hE : E.Fits) (c : Rules) (f : Bool) (h : Heap) (a p : Addr) (k l : EcKey) (m : KdfMeta)
    (hk : ∀ z, E.sharedSecret k l = some z → KdfRules E c m z) (hm : ∀ y ∈ m.publics, c.pub y)
    (ha : Has isKey h a k) (hp : Has isKey h p l) :
    Triple c f (keep h) (hEcdhDerive E (some a) (some p) m)
      (fun r f' => keep h ∗ givesN isBuf ((E.sharedSecret k l).bind fun z => E.kdf m z) r f') := by
  unfold hEcdhDerive
  cases hz : E.sharedSecret k l with
  | none => vgo
  | some z =>
    replace hk := hk z hz
    have hr : ∀ k, ∀ y ∈ KdfResult.publics ⟨m, k⟩, c.pub y := fun k => hm
    cases he : E.kdf m z with
    | none => vgo
    | some x =>
      replace hr := hr x
      vgo

theorem KdfMeta.sized_ok {m : KdfMeta} {ci : Cipher} (hk : m.algo.kind = .hkdf) (h : m.Ok) : (m.sized ci).Ok := by
  unfold KdfMeta.sized
  split
  · exact ⟨fun _ => h.1 hk, fun h => absurd hk h, fun _ h => absurd hk h⟩
  · exact h

theorem KdfMeta.sized_salt (m : KdfMeta) (ci : Cipher) : (m.sized ci).salt = m.salt ∧ (m.sized ci).info = m.info ∧
    (m.sized ci).algo.kind = m.algo.kind := by
  unfold KdfMeta.sized
  split <;> simp

theorem ecdhCipherKey_eq (E : Engine) (v : EcdhCtx) (peer : EcKey) (m : KdfMeta) :
    ecdhCipherKey E v peer m = if m.algo.kind ≠ .hkdf then none else
      (E.sharedSecret v.key peer).bind fun z => (E.kdf (m.sized v.cipher) z).bind fun h => (dup h).bind (cipherKeyCreate v.cipher) := by
  unfold ecdhCipherKey KdfMeta.sized
  rfl

theorem hEcdhKey_view (hE : E.Fits) (c : Rules) (f : Bool) (hc : c.crash) (h : Heap) (a p q : Addr) (v : EcdhCtx) (peer : EcKey)
    (m : KdfMeta) (hm : ∀ y ∈ m.publics, c.pub y) (hl : c.lax)
    (ha : Has isEcdh h a v) (hp : Has isKey h p peer) (hq : Has isKdfMeta h q m) :
    Triple c f (keep h) (hEcdhKey E (some a) (some p) (some q))
      (fun r f' => keep h ∗ givesN isCKey (ecdhCipherKey E v peer m) r f') := by
  rw [ecdhCipherKey_eq]
  unfold hEcdhKey
  by_cases hk : m.algo.kind ≠ .hkdf
  · vgo
  · simp at hk
    have hr : ∀ z, KdfRules E c (m.sized v.cipher) z := by
      obtain ⟨h1, h2, h3⟩ := m.sized_salt v.cipher
      obtain ⟨al, s, i⟩ := m
      sview hq isKdfMeta
      refine fun z => ⟨KdfMeta.sized_ok hk (by assumption), ?_, ?_, ?_, fun _ _ => Or.inr hl⟩
      · rw [h1]
        rintro s' rfl
        svset
        exact ⟨has_valid (by assumption), Or.inr hl⟩
      · rw [h2]
        rintro s' rfl
        svset
        exact has_valid (by assumption)
      · simp [KdfMeta.spills, h3, hk]
    have hm' : ∀ y ∈ (m.sized v.cipher).publics, c.pub y := by
      unfold KdfMeta.publics at hm ⊢
      rwa [(m.sized_salt v.cipher).2.1]
    sview ha isEcdh
    have hv := hE.kdf (m.sized v.cipher)
    simp only [hk, ne_eq, not_true_eq_false, if_false]
    unfold cipherKeyCreate dup
    vgo
    rename_i k _ hk'
    obtain ⟨z, h1, h2⟩ := Option.bind_eq_some_iff.1 hk'
    have hvk := hv _ _ h2
    simp only [h1, h2, hvk, if_true, Option.bind_some]
    by_cases hlen : k.length = v.cipher.keyLen
    · simp only [hlen]
      vgo
    · unfold onNull
      sstep hCKeyCreate_refuse _ _ _ _ _ hlen
      intro r _ _
      sintro
      subst r
      vgo

theorem hEcdhCipher_view (hE : E.Fits) (c : Rules) (f : Bool) (hc : c.crash) (h : Heap) (a p q r : Addr) (v : EcdhCtx) (pt : Bytes)
    (peer : EcKey) (m : KdfMeta) (iv : Bytes) (hm : ∀ y ∈ m.publics, c.pub y) (hl : c.lax)
    (he : ∀ k, ecdhCipherKey E v peer m = some k → ∀ x, E.encrypt pt none k iv = some x → ∀ y ∈ x.publics, c.pub y)
    (ha : Has isEcdh h a v) (hr : Has isBuf h r pt) (hp : Has isKey h p peer) (hq : Has isKdfMeta h q m) :
    Triple c f (keep h) (hEcdhCipher E (some a) (some r) (some p) (some q) iv)
      (fun r f' => keep h ∗ givesN isCRes (ecdhCipher E v pt peer m iv) r f') := by
  unfold hEcdhCipher ecdhCipher
  vgo

theorem hEcdhDecipher_view (hE : E.Fits) (c : Rules) (f : Bool) (hc : c.crash) (h : Heap) (a p q r : Addr) (v : EcdhCtx) (ct : CipherResult)
    (peer : EcKey) (m : KdfMeta) (hm : ∀ y ∈ m.publics, c.pub y) (hl : c.lax)
    (ha : Has isEcdh h a v) (hr : Has isCRes h r ct) (hp : Has isKey h p peer) (hq : Has isKdfMeta h q m) :
    Triple c f (keep h) (hEcdhDecipher E (some a) (some r) (some p) (some q))
      (fun r f' => keep h ∗ givesN isBuf (ecdhDecipher E v ct peer m) r f') := by
  unfold hEcdhDecipher ecdhDecipher
  sview ha isEcdh
  sview hr isCRes
  vgo


/-! ### root_keys.c, devinfo.c -/

theorem hRootGenerate_spec (c : Rules) (f : Bool) (hc : c.crash) (node rem : CipherKey) (cv : Curve) (pub pri : Bytes)
    (h1 : ValidBuf node.key) (h2 : node.key.length = node.cipher.keyLen) (h3 : ValidBuf rem.key)
    (h4 : rem.key.length = rem.cipher.keyLen) (hv : ValidBuf pub) (hv' : ValidBuf pri) :
    Triple c f emp (hRootGenerate node rem cv pub pri) (fun r f' => fresh isRoot ⟨⟨cv, pub, some pri⟩, node, rem⟩ r f') := by
  unfold hRootGenerate
  vgo
  unfold hRootCreate onNull
  vgo

theorem hPack_spec (c : Rules) (f : Bool) (m : List Field) :
    Triple c f emp (hPack m) (fun r f' => emp ∗ gives isBuf (protoPack m) r f') := by
  unfold hPack
  cases hk : protoPack m with
  | none => vgo
  | some b =>
    have := dup_some hk
    vgo

theorem hRootSerialize_view (c : Rules) (f : Bool) (h : Heap) (a : Addr) (k : RootKeys) (hs : k.sigRoot.pri.isSome)
    (ha : Has isRoot h a k) :
    Triple c f (keep h) (hRootSerialize (some a)) (fun r f' => keep h ∗ gives isBuf (rootKeysSerialize k).toOption r f') := by
  unfold hRootSerialize rootKeysSerialize
  obtain ⟨⟨cv, pub, pri⟩, n, m⟩ := k
  obtain ⟨s, rfl⟩ := Option.isSome_iff_exists.1 hs
  sview ha isRoot
  sviews isKey
  svset
  simp only [Res.toOption_ofOption]
  vgo

theorem hRootExport_view (hE : E.Fits) (c : Rules) (f : Bool) (hc : c.crash) (h : Heap) (a q : Addr) (k : RootKeys) (key : CipherKey)
    (iv : Bytes) (hs : k.sigRoot.pri.isSome)
    (hr : ∀ x, (rootKeysExport E k key iv).toOption = some x → ∀ y ∈ x.publics, c.pub y)
    (ha : Has isRoot h a k) (hq : Has isCKey h q key) :
    Triple c f (keep h) (hRootExport E (some a) (some q) iv) (fun r f' => keep h ∗ gives isCRes (rootKeysExport E k key iv).toOption r f') := by
  unfold hRootExport
  unfold rootKeysExport at hr ⊢
  cases hk : rootKeysSerialize k with
  | ub =>
    obtain ⟨s, hs⟩ := Option.isSome_iff_exists.1 hs
    simp [rootKeysSerialize, hs, Res.ofOption] at hk; split at hk <;> simp at hk
  | null =>
    have e : (rootKeysSerialize k).toOption = none := by rw [hk]; rfl
    clear hr
    simp only [Res.bind, Res.toOption]
    vgo
  | ok b =>
    have e : (rootKeysSerialize k).toOption = some b := by rw [hk]; rfl
    simp only [hk, Res.bind, Res.toOption_ofOption] at hr ⊢
    vgo

theorem hRootLocalize_view (hE : E.Fits) (c : Rules) (f : Bool) (hc : c.crash) (h : Heap) (a p : Addr) (k : RootKeys) (d : DevInfo)
    (ha : Has isRoot h a k) (hp : Has isDev h p d) :
    Triple c f (keep h) (hRootLocalize E (some a) (some p)) (fun r f' => keep h ∗ gives isStorage (rootKeysLocalize E k d) r f') := by
  unfold hRootLocalize rootKeysLocalize
  obtain ⟨⟨cv, pub, pri⟩, ⟨c1, k1⟩, ⟨c2, k2⟩⟩ := k
  sview ha isRoot
  sview hp isDev
  sviews isCKey
  have hv2 : ValidBuf k2 := has_valid (by assumption)
  unfold cipherKeyCreate
  cases hd : E.digest k1 d.systemSalt .sha256 with
  | none => vgo
  | some x =>
    have hv := hE.digest _ _ _ _ hd
    simp only [Option.bind_some]
    by_cases hlen : x.length = c1.keyLen
    · simp only [hlen, cipherKeyCopy, cipherKeyCreate, dup_of hv2]
      vgo
    · vgo
      rename_i hx
      rw [hd] at hx
      cases hx
      unfold onNull
      sstep hCKeyCreate_refuse _ _ _ _ _ hlen
      intro r _ _
      sintro
      subst r
      vgo

theorem hBufSection_view (c : Rules) (f : Bool) (h : Heap) (a : Addr) (b : Bytes) (s n : Nat) (ha : Has isBuf h a b) :
    Triple c f (keep h) (hBufSection (some a) s n) (fun r f' => keep h ∗ gives isBuf (copySection b s n) r f') := by
  unfold hBufSection
  vgo
  cases hk : copySection b s n with
  | none => vgo
  | some d =>
    have := copySection_valid hk
    dsimp only
    rw [show hBufCreate d = hOut d by unfold hOut hBufCreate onNull; congr 1]
    vgo

theorem hDevRest_spec (c : Rules) (f : Bool) (p : Addr) (d : Bytes) (hd : c.pub d) :
    Triple c f (isBuf p d) (hDevRest (some p)) (fun r f' => emp ∗ gives isBuf (copySection d 32 32) r f') := by
  unfold hDevRest
  vgo

theorem hRootFromBuffer_view (hE : E.Fits) (c : Rules) (f : Bool) (hc : c.crash) (h : Heap) (a : Addr) (b : Bytes)
    (hp : ∀ x ∈ rootPubs E b, c.pub x) (ha : Has isBuf h a b) :
    Triple c f (keep h) (hRootFromBuffer E (some a)) (fun r f' => keep h ∗ gives isRoot (rootKeysFromBuffer E b) r f') := by
  unfold hRootFromBuffer rootKeysFromBuffer
  have hl : ∀ x ∈ rootParts b, c.pub x := fun x hx => hp x (List.mem_append_left _ hx)
  replace hp : ∀ k, (fieldsDec b).bind PRootKeys.unpack = some k →
      ∀ x, E.ecImport (optBytes k.nodeSignatureRoot) true = some x → c.pub x.pub :=
    fun k hk x hx => hp _ (List.mem_append_right _ (by simp [hk, hx]))
  unfold rootParts at hl
  cases hk : (fieldsDec b).bind PRootKeys.unpack with
  | none =>
    vgo
    simp only [hk]
    vgo
  | some k =>
    replace hp := hp k hk
    rw [hk] at hl
    simp only [Option.toList_some, List.flatMap_cons, List.flatMap_nil, List.append_nil] at hl
    vgo
    simp only [hk]
    clear hk
    obtain ⟨v, n, r, s⟩ := k
    simp only [Option.bind_some] at hp ⊢
    rcases n with _ | n
    · vgo
    · rcases r with _ | r
      · vgo
      · dsimp only
        by_cases hv : v > 1
        · simp only [hv, if_true]
          vgo
        · simp only [hv, if_false]
          simp only [PRootKeys.parts, show ∀ x, optBytes (some x) = x from fun _ => rfl] at hl ⊢
          generalize optBytes s = s at *
          vgo

theorem hDevDerive_view (hE : E.Fits) (c : Rules) (f : Bool) (hc : c.crash) (h : Heap) (a p : Addr) (b s : Bytes)
    (h1 : ∀ x, E.digest b none .sha256 = some x → c.pub x) (h2 : ∀ x, E.digest b (some s) .sha512 = some x → c.pub x)
    (h3 : ∀ x y, E.digest b (some s) .sha512 = some x → copySection x 0 32 = some y → c.pub y)
    (h4 : ∀ x y, E.digest b (some s) .sha512 = some x → copySection x 32 32 = some y → c.pub y)
    (ha : Has isBuf h a b) :
    Triple c f (isBuf p s ∗ keep h) (hDevDerive E (some p) (some a)) (fun r f' => keep h ∗ orGives (isBuf p s) isDev (devInfoDerive E s b) r f') := by
  unfold hDevDerive devInfoDerive
  vgo

theorem hDevNew_view (hE : E.Fits) (c : Rules) (f : Bool) (hc : c.crash) (h : Heap) (a : Addr) (b s : Bytes) (hv : ValidBuf s)
    (hs : c.pub s) (h1 : ∀ x, E.digest b none .sha256 = some x → c.pub x) (h2 : ∀ x, E.digest b (some s) .sha512 = some x → c.pub x)
    (h3 : ∀ x y, E.digest b (some s) .sha512 = some x → copySection x 0 32 = some y → c.pub y)
    (h4 : ∀ x y, E.digest b (some s) .sha512 = some x → copySection x 32 32 = some y → c.pub y)
    (ha : Has isBuf h a b) :
    Triple c f (keep h) (hDevNew E (some a) s) (fun r f' => keep h ∗ gives isDev (devInfoDerive E s b) r f') := by
  unfold hDevNew
  vgo

end Wickr
