import Verif.Lemmas.SepEngine
import Verif.Model.HeapFun
import Verif.Spec.Releases
/-
The functions that combine objects and the crypto engine, on the heap.
-/
namespace Wickr
open Asrt Spec

macro_rules | `(tactic| sside) => `(tactic| first | assumption | rfl | (grind (splits := 12)))

variable {E : Engine}

/-! ### Buffers -/

theorem hBufCopy_view (c : Rules) (f : Bool) (h : Heap) (a : Addr) (b : Bytes) (hb : Has isBuf h a b) :
    Triple c f (keep h) (hBufCopy (some a)) (fun r f' => keep h ∗ fresh isBuf b r f') :=
  Triple.view (fun x hx => hBufCopy_keep c f a b x hx) hb

theorem concatMulti_valid {bs : List (Option Bytes)} {b : Bytes} (h : concatMulti bs = some b) : ValidBuf b := by
  unfold concatMulti at h
  dsimp only at h
  split at h
  · simp at h
  · simp at h
    subst h
    unfold ValidBuf
    omega

theorem concat2_valid {x y : Option Bytes} {b : Bytes} (h : concat2 x y = some b) : ValidBuf b := by
  unfold concat2 at h
  split at h
  · split at h
    · simp at h
    · simp at h
      subst h
      unfold ValidBuf
      simp
      omega
  · simp at h

theorem hConcatMulti_spec (c : Rules) (f : Bool) (bs : List (Option Bytes)) :
    Triple c f emp (hConcatMulti bs) (fun r f' => emp ∗ gives isBuf (concatMulti bs) r f') := by
  unfold hConcatMulti
  cases hk : concatMulti bs with
  | none => vgo
  | some b =>
    have := concatMulti_valid hk
    vgo

theorem hConcat_spec (c : Rules) (f : Bool) (x y : Option Bytes) :
    Triple c f emp (hConcat x y) (fun r f' => emp ∗ gives isBuf (concat2 x y) r f') := by
  unfold hConcat
  cases hk : concat2 x y with
  | none => vgo
  | some b =>
    have := concat2_valid hk
    vgo

theorem hIsEqual_view (h : Heap) {p q : Ptr} {x y : Option Bytes} (hp : HasOpt isBuf h p x) (hq : HasOpt isBuf h q y) :
    Reads (keep h) (hIsEqual p q) (bufIsEqual x y none) := by
  intro c f
  unfold hIsEqual
  vgo

/-! ### Identities -/

theorem hIdentitySign_view (hE : E.Fits) (c : Rules) (f : Bool) (hc : c.crash) (h : Heap) (a p : Addr) (i : Identity) (b n : Bytes)
    (hi : Has isId h a i) (hb : Has isBuf h p b) :
    Triple c f (keep h) (hIdentitySign E (some a) (some p) n) (fun r f' => keep h ∗ gives isSig (identitySign E i b n) r f') := by
  unfold hIdentitySign identitySign
  obtain ⟨t, idn, ⟨cv, pub, pri⟩, sg⟩ := i
  sview hi isId
  rename Has isKey _ _ _ => hk
  sview hk isKey
  vgo
  svopt <;> vgo

theorem hSignPub_view (hE : E.Fits) (c : Rules) (f : Bool) (hc : c.crash) (h : Heap) (a p : Addr) (i : Identity) (k : EcKey) (n : Bytes)
    (hi : Has isId h a i) (hb : Has isKey h p k) :
    Triple c f (keep h) (hSignPub E (some a) (some p) n) (fun r f' => keep h ∗ gives isSig (identitySign E i k.pub n) r f') := by
  unfold hSignPub
  sview hb isKey
  vgo

theorem hIdCreate_refuse (c : Rules) (f : Bool) (t : IdType) (q : Addr) (k p : Ptr) (b : Bytes) (hb : 128 ≤ b.length) :
    Triple c f (isBuf q b) (hIdCreate t (some q) k p) (fun r _ => ⌜r = none⌝ ∗ isBuf q b) := by
  unfold hIdCreate
  vgo

theorem hNodeIdentityGen_view (hE : E.Fits) (c : Rules) (f : Bool) (hc : c.crash) (h : Heap) (a : Addr) (p : Ptr) (i : Identity)
    (idn : Option Bytes) (cv : Curve) (pub pri rid n : Bytes) (hv : ValidBuf pub) (hv' : ValidBuf pri) (hr : ValidBuf rid)
    (hp' : c.pub (idn.getD rid)) (hs : ∀ s, identitySign E i pub n = some s → c.pub s.sig)
    (hi : Has isId h a i) (hb : HasOpt isBuf h p idn) :
    Triple c f (keep h) (hNodeIdentityGen E (some a) p cv pub pri rid n)
      (fun r f' => keep h ∗ gives isId (nodeIdentityGen E i ⟨cv, pub, some pri⟩ (idn.getD rid) n) r f') := by
  unfold hNodeIdentityGen nodeIdentityGen
  sview hi isId
  have hd : ∀ b, ValidBuf b → dup b = some b := fun b hb => by unfold dup; simp [hb]
  have hid : ∀ b k s, identityCreate .node b k s = if b.length < 128 then some ⟨.node, b, k, s⟩ else none := fun b k s => by
    unfold identityCreate; by_cases h : b.length < 128 <;> simp [h]
  have hvb : ValidBuf (idn.getD rid) := by
    cases idn with
    | none => exact hr
    | some b => cases p with
      | none => exact hb.elim
      | some q => exact has_valid hb
  by_cases hl : (idn.getD rid).length < 128
  all_goals
    simp only [hd _ hvb, hid, hl, if_true, if_false, Option.bind_some]
    svopt <;> simp at hp' hl hvb <;> vgo
  all_goals
    unfold onNull
    sstep hIdCreate_refuse _ _ _ _ _ _ _ hl
    intro r _ _
    sintro
    subst r
    vgo

/-! ### Chains -/

theorem chainStatusCache_eq (E : Engine) (ch : Chain) :
    chainStatusCache E ch = ch.digestInput.bind fun b => E.digest b none .sha512 := by
  unfold chainStatusCache Chain.digestInput
  cases ch.node.sig <;> rfl

theorem hChainStatusCache_view (hE : E.Fits) (c : Rules) (f : Bool) (hc : c.crash) (h : Heap) (a : Addr) (ch : Chain)
    (hp : ∀ b, ch.digestInput = some b → c.pub b) (hi : Has isChain h a ch) :
    Triple c f (keep h) (hChainStatusCache E (some a)) (fun r f' => keep h ∗ gives isBuf (chainStatusCache E ch) r f') := by
  rw [chainStatusCache_eq]
  unfold hChainStatusCache
  unfold Chain.digestInput at hp ⊢
  obtain ⟨⟨t1, i1, ⟨c1, pub1, pri1⟩, s1⟩, ⟨t2, i2, ⟨c2, pub2, pri2⟩, s2⟩, st, ca⟩ := ch
  sview hi isChain
  sviews isId
  sviews isKey
  cases s2 <;> svset
  · vgo
  · sviews isSig
    vgo

theorem hChainHasValidCache_view (hE : E.Fits) (c : Rules) (f : Bool) (hc : c.crash) (h : Heap) (a : Addr) (ch : Chain)
    (hp : ∀ b, ch.digestInput = some b → c.pub b) (hp' : ∀ b, chainStatusCache E ch = some b → c.pub b) (hi : Has isChain h a ch) :
    Triple c f (keep h) (hChainHasValidCache E (some a))
      (fun r f' => ⌜(r = true → chainHasValidCache E ch = true) ∧ (f' = false → r = chainHasValidCache E ch)⌝ ∗ keep h) := by
  unfold hChainHasValidCache
  have e : chainHasValidCache E ch = match ch.cache with
    | none => false
    | some b => bufIsEqual (chainStatusCache E ch) (some b) none := by
    unfold chainHasValidCache
    cases ch.cache with
    | none => rfl
    | some b => unfold bufIsEqual; cases chainStatusCache E ch <;> simp [eq_comm]
  rw [e]
  obtain ⟨rt, nd, st, ca⟩ := ch
  sview hi isChain
  cases ca <;> svset
  · vgo
  · have e' : ∀ v : Bytes, bufIsEqual none (some v) none = false := by simp [bufIsEqual]
    vgo

theorem hChainCheck_view (h : Heap) (a : Addr) (ch : Chain) (hi : Has isChain h a ch) :
    Reads (keep h) (hChainCheck E (some a)) (E.verifyOpt ch.node.sig ch.root.key ch.node.key.pub) := by
  intro c f
  unfold hChainCheck
  obtain ⟨⟨t1, i1, ⟨c1, pub1, pri1⟩, s1⟩, ⟨t2, i2, ⟨c2, pub2, pri2⟩, s2⟩, st, ca⟩ := ch
  sview hi isChain
  sviews isId
  sviews isKey
  vgo

end Wickr
