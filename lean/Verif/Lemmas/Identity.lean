import Verif.Spec.Identity
import Verif.Lemmas.Engine
import Verif.Lemmas.Proto
import Verif.Lemmas.List
import Verif.Props.Codec
set_option linter.unusedSimpArgs false
namespace Wickr
open Spec

theorem bufIsEqual_none {a b : Option Bytes} :
    bufIsEqual a b none = true ↔ ∃ x, a = some x ∧ b = some x := by
  cases a with
  | none => simp [bufIsEqual]
  | some x => cases b with
    | none => simp [bufIsEqual]
    | some y =>
      by_cases h : x = y
      · subst h; simp [bufIsEqual]
      · simp [bufIsEqual, h, Ne.symm h]

theorem verifyOpt_iff {E : Engine} {s : Option EcdsaResult} {k : EcKey} {d : Bytes} :
    E.verifyOpt s k d = true ↔ Signed E s k d := by
  cases s <;> simp [Engine.verifyOpt, Signed]

/-- The chain's fresh status. -/
def freshStatus (E : Engine) (r n : Identity) : Status :=
  if E.verifyOpt n.sig r.key n.key.pub then .valid else .invalid

theorem chainGenuine_iff {E : Engine} {c : Chain} :
    ChainGenuine E c ↔ freshStatus E c.root c.node = .valid := by
  unfold ChainGenuine freshStatus
  rw [← verifyOpt_iff]
  split <;> simp_all

theorem statusCache_congr (E : Engine) (c : Chain) :
    chainStatusCache E c = chainStatusCache E ⟨c.root, c.node, c.status, none⟩ := rfl

theorem statusCache_some {E : Engine} {c : Chain} {h : Bytes} (hs : chainStatusCache E c = some h) :
    ∃ s, c.node.sig = some s ∧
      E.digest (c.root.key.pub ++ s.sig ++ c.node.key.pub ++ [c.status.byte]) none .sha512 = some h := by
  unfold chainStatusCache at hs
  cases hsig : c.node.sig with
  | none => simp [hsig] at hs
  | some s =>
    simp only [hsig, Option.bind_eq_some_iff] at hs
    obtain ⟨b, hb, hd⟩ := hs
    have := (concatMulti_some.1 hb).1
    refine ⟨s, rfl, ?_⟩
    simp only [List.flatMap_cons, List.flatMap_nil, optBytes, List.append_nil] at this
    subst this
    simpa using hd

theorem status_byte_inj {a b : Status} (h : a.byte = b.byte) : a = b := by
  cases a <;> cases b <;> first | rfl | (exfalso; revert h; decide)

/-- The invariant behind C42: a cache, if present, was computed for some occurring pair of
identities with its fresh status. -/
def CacheInv (E : Engine) (Occ : Identity → Identity → Prop) (c : Chain) : Prop :=
  Occ c.root c.node ∧ ∀ h, c.cache = some h → ∃ r n, Occ r n ∧
    chainStatusCache E ⟨r, n, freshStatus E r n, none⟩ = some h

/-- What collision-freeness has to give. -/
def CacheSep (E : Engine) (Occ : Identity → Identity → Prop) : Prop :=
  ∀ r n r' n' st st' h, Occ r n → Occ r' n' →
    chainStatusCache E ⟨r, n, st, none⟩ = some h → chainStatusCache E ⟨r', n', st', none⟩ = some h →
    st = st' ∧ freshStatus E r n = freshStatus E r' n'

theorem CacheInv.hit {E : Engine} {Occ} {c : Chain} (hi : CacheInv E Occ c) (hs : CacheSep E Occ)
    (hc : chainHasValidCache E c = true) : c.status = freshStatus E c.root c.node := by
  unfold chainHasValidCache at hc
  cases hcache : c.cache with
  | none => simp [hcache] at hc
  | some h =>
    simp only [hcache] at hc
    obtain ⟨x, hx, hx'⟩ := bufIsEqual_none.1 hc
    cases hx
    obtain ⟨r, n, ho, hr⟩ := hi.2 h hcache
    have := hs _ _ _ _ _ _ h hi.1 ho (by rw [← statusCache_congr]; exact hx') hr
    rw [this.1, this.2]

theorem CacheInv.validate {E : Engine} {Occ} {c : Chain} (hi : CacheInv E Occ c)
    (hs : CacheSep E Occ) :
    CacheInv E Occ (chainValidate E c).1 ∧
    ((chainValidate E c).2 = true ↔ freshStatus E c.root c.node = .valid) ∧
    (chainValidate E c).1.root = c.root ∧ (chainValidate E c).1.node = c.node ∧
    (chainValidate E c).1.status = freshStatus E c.root c.node := by
  unfold chainValidate
  by_cases hc : chainHasValidCache E c = true
  · rw [if_pos hc]
    have := hi.hit hs hc
    exact ⟨hi, by simp [this], rfl, rfl, this⟩
  · rw [if_neg hc]
    refine ⟨⟨hi.1, ?_⟩, ?_, rfl, rfl, rfl⟩
    · intro h hh
      refine ⟨c.root, c.node, hi.1, ?_⟩
      simpa [chainUpdateCache, chainStatusCache, freshStatus] using hh
    · unfold freshStatus
      cases E.verifyOpt c.node.sig c.root.key c.node.key.pub <;> simp

theorem ecKeyCopy_some {k k' : EcKey} (h : ecKeyCopy k = some k') : k' = k := by
  unfold ecKeyCopy at h
  simp only [Option.bind_eq_some_iff, Option.map_eq_some_iff] at h
  obtain ⟨p, hp, q, hq, rfl⟩ := h
  have h1 := (dup_eq_some.1 hp).2
  have h2 := (dupOpt_eq_some.1 hq).1
  subst p; subst q; rfl

theorem identityCopy_some {i i' : Identity} (h : identityCopy i = some i')
    (hv : ∀ s, i.sig = some s → ValidBuf s.sig) : i' = i := by
  unfold identityCopy at h
  simp only [Option.bind_eq_some_iff] at h
  obtain ⟨id, hid, k, hk, hc⟩ := h
  have h1 := (dup_eq_some.1 hid).2
  have h2 := ecKeyCopy_some hk
  subst id; subst k
  unfold identityCreate at hc
  split at hc
  · simp at hc
  · have : i.sig.bind ecdsaCopy = i.sig := by
      cases hs : i.sig with
      | none => rfl
      | some s => simp [ecdsaCopy, dup_of (hv s hs)]
    rw [this] at hc
    cases hc; rfl

theorem chainCopy_some {c c' : Chain} (h : chainCopy c = some c')
    (hr : ∀ s, c.root.sig = some s → ValidBuf s.sig)
    (hn : ∀ s, c.node.sig = some s → ValidBuf s.sig) : c' = c := by
  unfold chainCopy at h
  simp only [Option.bind_eq_some_iff, Option.map_eq_some_iff] at h
  obtain ⟨r, h1, n, h2, q, h3, rfl⟩ := h
  have e1 := identityCopy_some h1 hr
  have e2 := identityCopy_some h2 hn
  have e3 := (dupOpt_eq_some.1 h3).1
  subst r; subst n; subst q; rfl

theorem freshStatus_ne (E : Engine) (r n : Identity) : freshStatus E r n ≠ .unknown := by
  unfold freshStatus; split <;> simp

theorem CacheInv.step {E : Engine} {Occ} {c : Chain} {op : ChainOp} (hi : CacheInv E Occ c)
    (hs : CacheSep E Occ)
    (hval : ∀ r n, Occ r n → (∀ s, r.sig = some s → ValidBuf s.sig) ∧
      (∀ s, n.sig = some s → ValidBuf s.sig))
    (hr : ∀ i, op = .setRoot i → Occ i c.node) (hn : ∀ i, op = .setNode i → Occ c.root i) :
    CacheInv E Occ (op.apply E c) := by
  cases op with
  | validate => exact (hi.validate hs).1
  | copy =>
    show CacheInv E Occ ((chainCopy c).getD c)
    cases h : chainCopy c with
    | none => exact hi
    | some c' =>
      have := chainCopy_some h (hval _ _ hi.1).1 (hval _ _ hi.1).2
      subst c'; exact hi
  | setStatus s => exact hi
  | setRoot i => exact ⟨hr i rfl, hi.2⟩
  | setNode i => exact ⟨hn i rfl, hi.2⟩

end Wickr
