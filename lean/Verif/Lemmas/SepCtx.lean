import Verif.Lemmas.SepKeyFun
import Verif.Lemmas.SepNode
import Verif.Spec.ReprCtx
import Verif.Lemmas.Identity
/-
Contexts on the heap.
-/
set_option linter.unusedSimpArgs false

namespace Wickr
open Asrt Spec

variable {E : Engine}

theorem hHeaderKey_view (hE : E.Fits) (c : Rules) (f : Bool) (hc : c.crash) (h : Heap) (ci : Cipher) (a : Addr) (ch : Chain)
    (hk : ∀ x, E.digest ch.root.identifier (some ch.node.identifier) (digestMatchingCipher ci) = some x → x.length ≠ ci.keyLen → c.pub x)
    (ha : Has isChain h a ch) :
    Triple c f (keep h) (hHeaderKey E ci (some a)) (fun r f' => keep h ∗ gives isCKey (genHeaderKey E ci ch) r f') := by
  unfold hHeaderKey genHeaderKey
  obtain ⟨⟨t1, i1, k1, s1⟩, ⟨t2, i2, k2, s2⟩, st, ca⟩ := ch
  sview ha isChain
  sviews isId
  unfold cipherKeyCreate
  cases hd : E.digest i1 (some i2) (digestMatchingCipher ci) with
  | none => vgo
  | some x =>
    have hv := hE.digest _ _ _ _ hd
    simp only [Option.bind_some]
    by_cases hlen : x.length = ci.keyLen
    · simp only [hlen]
      vgo
    · replace hk := hk _ hd hlen
      vgo
      rename_i hx
      rw [hd] at hx
      cases hx
      unfold onNull
      sstep hCKeyCreate_refuse _ _ _ _ _ hlen
      intro r _ _
      sintro
      subst r
      vgo

/-- The condition under which a header key is not released without being wiped. -/
abbrev HeaderOk (E : Engine) (c : Rules) (ch : Chain) : Prop :=
  ∀ x, E.digest ch.root.identifier (some ch.node.identifier) (digestMatchingCipher defaultCipher) = some x →
    x.length ≠ defaultCipher.keyLen → c.pub x

theorem hCtxCreate_spec (hE : E.Fits) (c : Rules) (f : Bool) (hc : c.crash) (p q r : Addr) (d : DevInfo) (ch : Chain) (st : StorageKeys)
    (hk : HeaderOk E c ch) :
    Triple c f (isDev p d ∗ isChain q ch ∗ isStorage r st) (hCtxCreate E (some p) (some q) (some r))
      (fun x f' => emp ∗ orSpills (isDev p d ∗ isChain q ch ∗ isStorage r st) isCtx (ctxCreate E d ch st) x f') := by
  unfold hCtxCreate ctxCreate
  vgo

theorem hCtxDestroy_spec {c : Rules} {a : Addr} {v : Ctx} (hp : ∀ b ∈ v.publics, c.pub b) :
    Destroys c (isCtx a v) (hCtxDestroy (some a)) := by
  intro f
  unfold hCtxDestroy
  obtain ⟨d, ch, st, k, n⟩ := v
  unfold Ctx.publics at hp
  sopen isCtx
  sgo

theorem hDevCopy_view (c : Rules) (f : Bool) (h : Heap) (a : Addr) (v : DevInfo) (ha : Has isDev h a v) :
    Triple c f (keep h) (hDevCopy (some a)) (fun r f' => keep h ∗ gives isDev (devInfoCopy v) r f') := by
  obtain ⟨b, y, d, e⟩ := v
  cases y with
  | none =>
    refine Triple.conseq (Triple.view (Q := fun r f' => ⌜r = none⌝) (fun x hx => Triple.conseq (hDevCopy_none c f a _ rfl x hx)
      (fun _ h => h) ?_) ha) (fun _ h => h) ?_
    · intro r f' y _ hy
      obtain ⟨⟨rfl, -⟩, hz⟩ := Asrt.pure_star.1 hy
      rw [Asrt.star_comm]
      exact Asrt.pure_star.2 ⟨rfl, hz⟩
    · intro r f' y _ hy
      rw [Asrt.star_comm, Asrt.pure_star] at hy
      obtain ⟨rfl, hy⟩ := hy
      show (keep h ∗ ⌜_⌝) y
      rw [Asrt.star_comm, Asrt.pure_star]
      exact ⟨Or.inr rfl, hy⟩
  | some s =>
    have e' : devInfoCopy ⟨b, some s, d, e⟩ = some ⟨b, some s, d, e⟩ := by
      sview ha isDev
      svset
      simp only [devInfoCopy, Option.bind_some]
      have hv : ∀ {q b}, Has isBuf h q b → dup b = some b := fun hh => dup_of (has_valid hh)
      simp [hv (by assumption : Has isBuf _ _ b), hv (by assumption : Has isBuf _ _ s), hv (by assumption : Has isBuf _ _ d),
        hv (by assumption : Has isBuf _ _ e)]
    rw [e']
    refine Triple.conseq (Triple.view (fun x hx => hDevCopy_keep c f a _ rfl x hx) ha) (fun _ h => h) ?_
    intro r f' y _ hy
    cases r with
    | none =>
      refine Asrt.star_mono_r (fun z hz => ?_) hy
      exact ⟨Or.inl hz.1, hz.2⟩
    | some q =>
      refine Asrt.star_mono_r (fun z hz => ?_) hy
      exact ⟨_, Asrt.pure_star.2 ⟨rfl, hz⟩⟩

theorem hChainCopy_view (c : Rules) (f : Bool) (hc : c.crash) (h : Heap) (a : Addr) (v : Chain) (hp : ∀ b ∈ v.publics, c.pub b)
    (ha : Has isChain h a v) :
    Triple c f (keep h) (hChainCopy (some a)) (fun r f' => keep h ∗ freshL isChain chainLoss v r f') :=
  Triple.view (fun x hx => hChainCopy_keep c f hc a v hp x hx) ha

theorem hStorageCopy_view (c : Rules) (f : Bool) (hc : c.crash) (h : Heap) (a : Addr) (v : StorageKeys) (ha : Has isStorage h a v) :
    Triple c f (keep h) (hStorageCopy (some a)) (fun r f' => keep h ∗ fresh isStorage v r f') :=
  Triple.view (fun x hx => hStorageCopy_keep c f hc a v x hx) ha

theorem hRootCopy_view (c : Rules) (f : Bool) (hc : c.crash) (h : Heap) (a : Addr) (v : RootKeys) (hp : c.pub v.sigRoot.pub)
    (ha : Has isRoot h a v) :
    Triple c f (keep h) (hRootCopy (some a)) (fun r f' => keep h ∗ fresh isRoot v r f') :=
  Triple.view (fun x hx => hRootCopy_keep c f hc a v hp x hx) ha

theorem hKeyCopy_view (c : Rules) (f : Bool) (hc : c.crash) (h : Heap) (a : Addr) (v : EcKey) (hp : c.pub v.pub) (ha : Has isKey h a v) :
    Triple c f (keep h) (hKeyCopy (some a)) (fun r f' => keep h ∗ fresh isKey v r f') :=
  Triple.view (fun x hx => hKeyCopy_keep c f hc a v hp x hx) ha

theorem chainLoss_header {ch ch' : Chain} (h : chainLoss ch ch') :
    ch'.root.identifier = ch.root.identifier ∧ ch'.node.identifier = ch.node.identifier := by
  obtain ⟨h1, h2, -, -⟩ := h
  constructor
  · rcases h1 with h1 | h1 <;> rw [h1]
  · rcases h2 with h2 | h2 <;> rw [h2]

theorem genHeaderKey_of {ch ch' : Chain} (ci : Cipher)
    (h : ch'.root.identifier = ch.root.identifier ∧ ch'.node.identifier = ch.node.identifier) :
    genHeaderKey E ci ch' = genHeaderKey E ci ch := by
  unfold genHeaderKey
  rw [h.1, h.2]

/-- Objects in memory can be copied. -/
theorem ecKeyCopy_has {h : Heap} {a : Addr} {k : EcKey} (ha : Has isKey h a k) : ecKeyCopy k = some k := by
  obtain ⟨cv, pub, pri⟩ := k
  sview ha isKey
  have hv : ∀ {q b}, Has isBuf h q b → dup b = some b := fun hh => dup_of (has_valid hh)
  cases pri <;> svset
  · simp [ecKeyCopy, dupOpt, hv (by assumption : Has isBuf _ _ pub)]
  · rename_i pri _ _ _
    simp [ecKeyCopy, dupOpt, hv (by assumption : Has isBuf _ _ pub), hv (by assumption : Has isBuf _ _ pri)]

theorem cipherKeyCopy_has {h : Heap} {a : Addr} {k : CipherKey} (ha : Has isCKey h a k) : cipherKeyCopy k = some k := by
  obtain ⟨c, b⟩ := k
  sview ha isCKey
  simp [cipherKeyCopy, cipherKeyCreate, dup_of (has_valid (by assumption : Has isBuf _ _ b))]
  assumption

theorem rootKeysCopy_has {h : Heap} {a : Addr} {k : RootKeys} (ha : Has isRoot h a k) : rootKeysCopy k = some k := by
  obtain ⟨s, n, r⟩ := k
  sview ha isRoot
  simp [rootKeysCopy, ecKeyCopy_has (by assumption : Has isKey _ _ s), cipherKeyCopy_has (by assumption : Has isCKey _ _ n),
    cipherKeyCopy_has (by assumption : Has isCKey _ _ r)]

theorem Triple.doneL {α : Type _} {c : Rules} {f : Bool} {A : Asrt} {h : Heap} {R : Addr → α → Asrt} {L : α → α → Prop}
    {x : Option α} {q : Addr} {v v' : α} (hA : A = R q v' ∗ keep h) (e : x = some v) (hl : L v v') (he : f = false → v' = v) :
    Triple c f A (Pure.pure (some q)) (fun r f' => keep h ∗ givesL R L x r f') := by
  subst hA
  refine Triple.ret fun y hy => ?_
  refine Asrt.star_mono_r (F := R q v') (fun z hz => ?_) (by rw [Asrt.star_comm]; exact hy)
  exact ⟨_, _, Asrt.pure_star.2 ⟨⟨e, hl, he⟩, hz⟩⟩

theorem Triple.doneA {α : Type _} {c : Rules} {f : Bool} {A : Asrt} {h : Heap} {R : Addr → α → Asrt} {L : α → α → Prop}
    {x : Option α} {q : Addr} {v v' : α} (hA : A = R q v' ∗ keep h) (e : x = some v) (hl : L v v') (he : f = false → v' = v) :
    Triple c f A (Pure.pure (some q)) (fun r f' => keep h ∗ givesA R L x r f') := by
  subst hA
  refine Triple.ret fun y hy => ?_
  refine Asrt.star_mono_r (F := R q v') (fun z hz => ?_) (by rw [Asrt.star_comm]; exact hy)
  refine ⟨_, _, Asrt.pure_star.2 ⟨⟨e, hl, he⟩, ?_⟩⟩
  have : (R q v' ∗ emp) z := by rw [Asrt.star_emp]; exact hz
  refine Asrt.star_mono_r (fun w hw => ?_) this
  cases f with
  | false => exact hw
  | true => trivial

theorem Triple.doneS {α : Type _} {c : Rules} {f f0 : Bool} {A : Asrt} {h : Heap} {R : Addr → α → Asrt} {L : α → α → Prop}
    {x : Option α} {q : Addr} {v v' : α} (hA : A = (spill f0 ∗ R q v') ∗ keep h) (hf : f0 = true → f = true)
    (e : x = some v) (hl : L v v') (he : f = false → v' = v) :
    Triple c f A (Pure.pure (some q)) (fun r f' => keep h ∗ givesA R L x r f') := by
  subst hA
  refine Triple.ret fun y hy => ?_
  refine Asrt.star_mono_r (F := spill f0 ∗ R q v') (fun z hz => ?_) (by rw [Asrt.star_comm]; exact hy)
  refine ⟨_, _, Asrt.pure_star.2 ⟨⟨e, hl, he⟩, ?_⟩⟩
  rw [Asrt.star_comm]
  refine Asrt.star_mono (fun w hw => ?_) hz
  cases f0 with
  | false =>
    cases f with
    | false => exact hw
    | true => trivial
  | true => rw [hf rfl]; trivial

theorem ctx_setScal (c : Rules) (f : Bool) (a : Addr) (v : Ctx) (n : UInt8) :
    Triple c f (isCtx a v) (setScal (some a) (.ver n)) (fun _ _ => isCtx a { v with version := n }) := by
  obtain ⟨d, ch, st, k, m⟩ := v
  sopen isCtx
  sgo

theorem storageCopy_has {h : Heap} {a : Addr} {k : StorageKeys} (ha : Has isStorage h a k) : storageCopy k = some k := by
  obtain ⟨l, r⟩ := k
  sview ha isStorage
  simp [storageCopy, cipherKeyCopy_has (by assumption : Has isCKey _ _ l), cipherKeyCopy_has (by assumption : Has isCKey _ _ r)]

theorem identityCopy_has {h : Heap} {a : Addr} {i : Identity} (ha : Has isId h a i) : identityCopy i = some i := by
  obtain ⟨t, b, k, s⟩ := i
  sview ha isId
  have hl : b.length < 128 := by assumption
  have hv := dup_of (has_valid (by assumption : Has isBuf _ _ b))
  have hk := ecKeyCopy_has (by assumption : Has isKey _ _ k)
  have he : s.bind ecdsaCopy = s := by
    cases s with
    | none => rfl
    | some s =>
      obtain ⟨cv, d, sg⟩ := s
      svset
      sviews isSig
      simp [ecdsaCopy, dup_of (has_valid (by assumption : Has isBuf _ _ sg))]
  simp [identityCopy, hv, hk, he, identityCreate]
  omega

theorem chainCopy_has {h : Heap} {a : Addr} {ch : Chain} (ha : Has isChain h a ch) : chainCopy ch = some ch := by
  obtain ⟨r, n, st, ca⟩ := ch
  sview ha isChain
  have h1 := identityCopy_has (by assumption : Has isId _ _ r)
  have h2 := identityCopy_has (by assumption : Has isId _ _ n)
  have h3 : dupOpt ca = some ca := by
    cases ca with
    | none => rfl
    | some b =>
      svset
      simp [dupOpt, dup_of (has_valid (by assumption : Has isBuf _ _ b))]
  simp [chainCopy, h1, h2, h3]

/-- The value of a copy of a context, if it can be made. -/
def ctxCopyOf (E : Engine) (v : Ctx) : Option Ctx :=
  (devInfoCopy v.dev).bind fun d => (genHeaderKey E defaultCipher v.chain).map fun k => { v with dev := d, headerKey := k }

theorem ctxCopyOf_eq {h : Heap} {a : Addr} {v : Ctx} (ha : Has isCtx h a v) : ctxCopyOf E v = (ctxCopy E v).toOption := by
  obtain ⟨d, ch, st, k, n⟩ := v
  sview ha isCtx
  unfold ctxCopyOf ctxCopy
  cases devInfoCopy d with
  | none => rfl
  | some d' =>
    simp only [Option.bind_some, chainCopy_has (by assumption : Has isChain _ _ ch),
      storageCopy_has (by assumption : Has isStorage _ _ st), ctxCreate]
    cases genHeaderKey E defaultCipher ch <;> rfl

theorem hCtxCopy_view (hE : E.Fits) (c : Rules) (f : Bool) (hc : c.crash) (h : Heap) (a : Addr) (v : Ctx)
    (hp : ∀ b ∈ v.publics, c.pub b) (hk : HeaderOk E c v.chain) (hs : (genHeaderKey E defaultCipher v.chain).isSome)
    (ha : Has isCtx h a v) :
    Triple c f (keep h) (hCtxCopy E (some a)) (fun r f' => keep h ∗ givesL isCtx ctxLoss (ctxCopyOf E v) r f') := by
  unfold hCtxCopy ctxCopyOf
  obtain ⟨d, ch, st, k, n⟩ := v
  sview ha isCtx
  unfold Ctx.publics at hp
  vgo
  rename_i q2 _ d' _ hd q1 _ ch' _ hl he q0 f0 _
  dsimp only
  have hh := chainLoss_header hl
  have hk' : HeaderOk E c ch' := by unfold HeaderOk; rw [hh.1, hh.2]; exact hk
  have hp' : ∀ b ∈ ch'.publics, c.pub b := publics_of_loss chainLoss_publics hl hp
  have eg := genHeaderKey_of (E := E) defaultCipher hh
  refine Triple.onNullS (hCtxCreate_spec hE c f0 hc q2 q1 q0 d' ch' st hk') (by frame) ?_ ?_ ?_
  · intro f1 h1 h2
    vgo
  · intro f1 h1 h2
    simp [ctxCreate, eg] at h2
    simp [h2] at hs
  · intro q f1 v h1 h2
    sstep ctx_setScal c f1 q v n
    intro _ f2 h3
    simp only [ctxCreate, eg, Option.map_eq_some_iff] at h2
    obtain ⟨k', hk2, rfl⟩ := h2
    simp only [hd, hk2, Option.bind_some, Option.map_some]
    exact Triple.doneL (v' := ⟨d', ch', st, k', n⟩) (by frame) rfl ⟨rfl, hl, rfl, rfl, rfl⟩ fun hf => by simp [he (by grind)]

theorem hGenCreate_spec (c : Rules) (f : Bool) (p q r : Addr) (x : Ctx) (k : CipherKey) (rk : RootKeys) :
    Triple c f (isCtx p x ∗ isCKey q k ∗ isRoot r rk) (hGenCreate (some p) (some q) (some r))
      (orKeep (isCtx p x ∗ isCKey q k ∗ isRoot r rk) isGen ⟨x, k, rk⟩) := by
  unfold hGenCreate
  sgo

theorem hGenDestroy_spec {c : Rules} {a : Addr} {v : GenResult} (hp : ∀ b ∈ v.publics, c.pub b) :
    Destroys c (isGen a v) (hGenDestroy (some a)) := by
  intro f
  unfold hGenDestroy
  obtain ⟨x, k, rk⟩ := v
  have h1 : ∀ b ∈ x.publics, c.pub b := fun b hb => hp b (by simp [GenResult.publics, hb])
  have h2 : c.pub rk.sigRoot.pub := hp _ (by simp [GenResult.publics])
  clear hp
  sopen isGen
  sgo

theorem ctxLoss_publics {v v' : Ctx} (h : ctxLoss v v') : ∀ b ∈ v'.publics, b ∈ v.publics :=
  chainLoss_publics h.2.1

theorem ctxCopyOf_publics {v v' : Ctx} (h : ctxCopyOf E v = some v') : v'.publics = v.publics := by
  simp only [ctxCopyOf, Option.bind_eq_some_iff, Option.map_eq_some_iff] at h
  obtain ⟨d, hd, k, hk, rfl⟩ := h
  rfl

local macro_rules
  | `(tactic| sarg) => `(tactic| exact publics_of_loss ctxLoss_publics (by assumption)
      (by rw [ctxCopyOf_publics (by assumption)]; assumption))

/-- The value of a copy of a result, if it can be made. -/
def genCopyOf (E : Engine) (v : GenResult) : Option GenResult := (ctxCopyOf E v.ctx).map fun x => { v with ctx := x }

theorem genCopyOf_eq {h : Heap} {a : Addr} {v : GenResult} (ha : Has isGen h a v) : genCopyOf E v = (genResultCopy E v).toOption := by
  obtain ⟨x, k, r⟩ := v
  sview ha isGen
  unfold genCopyOf genResultCopy
  rw [ctxCopyOf_eq (by assumption : Has isCtx _ _ x)]
  cases ctxCopy E x <;> simp [Res.bind, Res.toOption, Res.ofOption, cipherKeyCopy_has (by assumption : Has isCKey _ _ k),
    rootKeysCopy_has (by assumption : Has isRoot _ _ r)]

theorem hGenCopy_view (hE : E.Fits) (c : Rules) (f : Bool) (hc : c.crash) (h : Heap) (a : Addr) (v : GenResult)
    (hp : ∀ b ∈ v.publics, c.pub b) (hk : HeaderOk E c v.ctx.chain) (hs : (genHeaderKey E defaultCipher v.ctx.chain).isSome)
    (ha : Has isGen h a v) :
    Triple c f (keep h) (hGenCopy E (some a)) (fun r f' => keep h ∗ givesL isGen genLoss (genCopyOf E v) r f') := by
  unfold hGenCopy genCopyOf
  obtain ⟨x, k, rk⟩ := v
  have h1 : ∀ b ∈ x.publics, c.pub b := fun b hb => hp b (by simp [GenResult.publics, hb])
  have h2 : c.pub rk.sigRoot.pub := hp _ (by simp [GenResult.publics])
  clear hp
  sview ha isGen
  vgo
  rename_i q2 _ v v' _ hx hl he _ _ _ _ _ _ _ _ _
  exact Triple.doneL (v := ⟨v, k, rk⟩) (v' := ⟨v', k, rk⟩) (by frame) (by rw [hx]; rfl) ⟨hl, rfl, rfl⟩ fun hf => by simp [he (by grind)]

/-! ### Making contexts -/

theorem hRootIdentity_view (c : Rules) (f : Bool) (hc : c.crash) (h : Heap) (a q : Addr) (k : RootKeys) (b : Bytes)
    (hp : c.pub k.sigRoot.pub) (hi : c.pub b) (ha : Has isRoot h a k) (hq : Has isBuf h q b) :
    Triple c f (keep h) (hRootIdentity (some a) (some q))
      (fun r f' => keep h ∗ gives isId (identityCreate .root b k.sigRoot none) r f') := by
  unfold hRootIdentity
  sview ha isRoot
  by_cases hl : b.length < 128
  · rw [show identityCreate .root b k.sigRoot none = some ⟨.root, b, k.sigRoot, none⟩ by unfold identityCreate; simp; omega]
    vgo
  · rw [show identityCreate .root b k.sigRoot none = none by unfold identityCreate; simp; omega]
    vgo
    unfold onNull
    sstep hIdCreate_refuse _ _ _ _ _ _ _ (Nat.le_of_not_lt hl)
    intro r _ _
    sintro
    subst r
    vgo

/-- What may be released without wiping while a chain is made. -/
structure GenOk (E : Engine) (c : Rules) (ch : Chain) : Prop where
  shown : ch.Shown E c
  pubs : ∀ b ∈ ch.publics, c.pub b
  done : ∀ b ∈ (chainValidate E ch).1.publics, c.pub b
  header : HeaderOk E c ch

theorem hChainMake_spec (hE : E.Fits) (c : Rules) (f : Bool) (hc : c.crash) (p q : Addr) (i j : Identity)
    (hv : E.verifyOpt j.sig i.key j.key.pub = true) (ho : GenOk E c ⟨i, j, .unknown, none⟩) :
    Triple c f (isId p i ∗ isId q j) (hChainMake E (some p) (some q))
      (fun r f' => freshL isChain chainUncached (chainValidate E ⟨i, j, .unknown, none⟩).1 r f') := by
  unfold hChainMake
  have h1 : ∀ b ∈ i.publics, c.pub b := fun b hb => ho.pubs b (by simp [Chain.publics, hb])
  have h2 : ∀ b ∈ j.publics, c.pub b := fun b hb => ho.pubs b (by simp [Chain.publics, hb])
  refine Triple.onNullK (hChainCreate_spec c f p q i j) (by frame) ?_ ?_
  · intro f1 _ _
    sgo
  · intro a f1 _
    sstep hChainValidate_spec hE c f1 hc a ⟨i, j, .unknown, none⟩ ho.shown.input ho.shown.cache ho.shown.current
    intro ok f2 _
    sintro
    rename_i ch' ho'
    obtain ⟨ho1, ho2⟩ := ho'
    have hn : chainHasValidCache E ⟨i, j, .unknown, none⟩ = false := rfl
    simp only [hn, Bool.false_eq_true, false_and, false_or, hv] at ho1
    obtain ⟨rfl, x, rfl, hx⟩ := ho1
    simp only [if_true] at *
    have e : chainValidate E ⟨i, j, .unknown, none⟩ = (chainUpdateCache E ⟨i, j, .valid, none⟩, true) := by
      simp [chainValidate, hn, hv]
    rw [e] at ho2 ⊢
    refine Triple.ret fun y hy => ⟨_, Asrt.pure_star.2 ⟨⟨?_, fun h => (Prod.mk.inj (ho2 h)).1⟩, by simpa using hy⟩⟩
    rcases hx with rfl | rfl
    · exact Or.inr rfl
    · exact Or.inl rfl

theorem nodeIdentityGen_verify {r n : Identity} {nk : EcKey} {nid nonce : Bytes}
    (hv : ∀ s, identitySign E r nk.pub nonce = some s → E.verify s r.key nk.pub = true)
    (h : nodeIdentityGen E r nk nid nonce = some n) : E.verifyOpt n.sig r.key n.key.pub = true := by
  unfold nodeIdentityGen at h
  split at h
  · simp at h
  · split at h
    · simp at h
    · rename_i s hs
      simp only [Option.bind_eq_some_iff] at h
      obtain ⟨b, hb, hn⟩ := h
      unfold identityCreate at hn
      split at hn
      · simp at hn
      · cases hn
        exact hv s hs

theorem hChainGen_view (hE : E.Fits) (c : Rules) (f : Bool) (hc : c.crash) (h : Heap) (a q : Addr) (k : RootKeys) (b : Bytes)
    (cv : Curve) (pub pri rid nonce : Bytes) (h1 : ValidBuf pub) (h2 : ValidBuf pri) (h3 : ValidBuf rid)
    (hv : ∀ r s, identityCreate .root b k.sigRoot none = some r → identitySign E r pub nonce = some s →
      E.verify s r.key pub = true)
    (hp : c.pub k.sigRoot.pub) (hi : c.pub b) (hr : c.pub rid)
    (hs : ∀ r s, identityCreate .root b k.sigRoot none = some r → identitySign E r pub nonce = some s → c.pub s.sig)
    (ho : ∀ ch, chainDraft E k.sigRoot b ⟨cv, pub, some pri⟩ rid nonce = some ch → GenOk E c ch)
    (ha : Has isRoot h a k) (hq : Has isBuf h q b) :
    Triple c f (keep h) (hChainGen E (some a) (some q) cv pub pri rid nonce)
      (fun r f' => keep h ∗ givesL isChain chainUncached
        ((chainDraft E k.sigRoot b ⟨cv, pub, some pri⟩ rid nonce).map fun ch => (chainValidate E ch).1) r f') := by
  unfold hChainGen
  unfold chainDraft at ho ⊢
  refine Triple.onNullG (hRootIdentity_view c f hc h a q k b hp hi ha hq) (by frame) ?_ ?_
  · intro f1 _ hx
    vgo
  · intro p f1 r _ hr
    have hv := fun s => hv r s hr
    have hs := fun s => hs r s hr
    simp only [hr, Option.bind_some] at ho ⊢
    have hpr : ∀ y ∈ r.publics, c.pub y := by
      unfold identityCreate at hr
      split at hr
      · simp at hr
      · cases hr
        simp [Identity.publics, hp, hi]
    refine Triple.lend0 (P := isId p r) (by frame) fun h' hh => ?_
    refine Triple.onNullG (hNodeIdentityGen_view hE c f1 hc h' p none r none cv pub pri rid nonce h1 h2 h3 ‹_› hs (has_of hh) trivial)
      (by frame) ?_ ?_
    · intro f2 _ hx
      refine Triple.giveBack0 hh (by frame) ?_
      vgo
    · intro p' f2 n _ hn
      refine Triple.giveBack0 hh (by frame) ?_
      simp only [Option.getD_none] at hn
      simp only [hn, Option.map_some] at ho ⊢
      have hv' := nodeIdentityGen_verify hv hn
      have ho := ho _ rfl
      vgo
      rename_i hx
      exact Triple.doneL (by frame) rfl hx.1 hx.2

/-- The context of a chain. -/
def ctxOf (E : Engine) (dev : DevInfo) (k : RootKeys) (ch : Chain) : Option Ctx :=
  (rootKeysLocalize E k dev).bind fun st => (devInfoCopy dev).bind fun d => ctxCreate E d ch st

theorem hCtxOf_spec (hE : E.Fits) (c : Rules) (f : Bool) (hc : c.crash) (h : Heap) (p q a : Addr) (d : DevInfo) (k : RootKeys)
    (ch : Chain) (hp : ∀ b ∈ ch.publics, c.pub b) (hk : HeaderOk E c ch) (hd : Has isDev h p d) (hr : Has isRoot h q k) :
    Triple c f (keep h ∗ isChain a ch) (hCtxOf E (some p) (some q) (some a))
      (fun r f' => keep h ∗ givesN isCtx (ctxOf E d k ch) r f') := by
  unfold hCtxOf ctxOf
  vgo

/-- What `wickr_ctx_gen_with_root_keys` makes when the new signature verifies. -/
def ctxGenOf (E : Engine) (d : DevInfo) (k : RootKeys) (i : Bytes) (nk : EcKey) (nid nonce : Bytes) (rec' : CipherKey) :
    Option GenResult :=
  (chainDraft E k.sigRoot i nk nid nonce).bind fun ch => (ctxOf E d k (chainValidate E ch).1).map fun x => ⟨x, rec', k⟩

theorem chainUncached_header {ch ch' : Chain} (h : chainUncached ch ch') :
    ch'.root.identifier = ch.root.identifier ∧ ch'.node.identifier = ch.node.identifier := by
  rcases h with rfl | rfl <;> exact ⟨rfl, rfl⟩

theorem chainUncached_publics {ch ch' : Chain} (h : chainUncached ch ch') : ∀ b ∈ ch'.publics, b ∈ ch.publics := by
  rcases h with rfl | rfl
  · exact fun _ h => h
  · intro b hb
    simp only [Chain.publics, Option.toList_none, List.append_nil] at hb
    simp only [Chain.publics]
    exact List.mem_append_left _ hb

theorem chainValidate_header (ch : Chain) :
    (chainValidate E ch).1.root.identifier = ch.root.identifier ∧ (chainValidate E ch).1.node.identifier = ch.node.identifier := by
  unfold chainValidate
  split <;> exact ⟨rfl, rfl⟩

theorem ctxOf_uncached {d : DevInfo} {k : RootKeys} {ch ch' : Chain} {x' : Ctx} (hl : chainUncached ch ch')
    (h : ctxOf E d k ch' = some x') :
    ∃ x, ctxOf E d k ch = some x ∧ ctxUncached x x' ∧ (ch' = ch → x' = x) := by
  have eg := genHeaderKey_of (E := E) defaultCipher (chainUncached_header hl)
  simp only [ctxOf, ctxCreate, Option.bind_eq_some_iff, Option.map_eq_some_iff, eg] at h ⊢
  obtain ⟨st, h1, d', h2, kk, h3, rfl⟩ := h
  refine ⟨_, ⟨st, h1, d', h2, kk, h3, rfl⟩, ?_, ?_⟩
  · rcases hl with rfl | rfl
    · exact Or.inl rfl
    · exact Or.inr rfl
  · rintro rfl; rfl

theorem ctxOf_publics {d : DevInfo} {k : RootKeys} {ch : Chain} {x : Ctx} (h : ctxOf E d k ch = some x) : x.publics = ch.publics := by
  simp only [ctxOf, ctxCreate, Option.bind_eq_some_iff, Option.map_eq_some_iff] at h
  obtain ⟨st, h1, d', h2, kk, h3, rfl⟩ := h
  rfl

/-- The conditions under which a context is made of root keys without undefined behaviour or leaks: the new signature verifies, and
what is released unwiped is public. -/
structure GenHyp (E : Engine) (c : Rules) (k : RootKeys) (b : Bytes) (cv : Curve) (pub pri rid nonce : Bytes) : Prop where
  verifies : ∀ r s, identityCreate .root b k.sigRoot none = some r → identitySign E r pub nonce = some s → E.verify s r.key pub = true
  key : c.pub k.sigRoot.pub
  sig : ∀ r s, identityCreate .root b k.sigRoot none = some r → identitySign E r pub nonce = some s → c.pub s.sig
  chain : ∀ ch, chainDraft E k.sigRoot b ⟨cv, pub, some pri⟩ rid nonce = some ch → GenOk E c ch

theorem ctxGenOf_eq {d : DevInfo} {k : RootKeys} {b : Bytes} {nk : EcKey} {rid nonce : Bytes} {rk : CipherKey}
    (h1 : ecKeyCopy k.sigRoot = some k.sigRoot) (h2 : dup b = some b) (h3 : rootKeysCopy k = some k)
    (hv : ∀ r s, identityCreate .root b k.sigRoot none = some r → identitySign E r nk.pub nonce = some s →
      E.verify s r.key nk.pub = true) :
    ctxGenOf E d k b nk rid nonce rk = ctxGenWithRootKeys E d k b ⟨nk, rid, nonce, rk⟩ := by
  unfold ctxGenOf ctxGenWithRootKeys chainDraft ctxOf
  simp only [h1, h2, h3, Option.bind_some, Option.map_some]
  cases hr : identityCreate .root b k.sigRoot none with
  | none => rfl
  | some r =>
    simp only [Option.bind_some]
    cases hn : nodeIdentityGen E r nk rid nonce with
    | none => rfl
    | some n =>
      have := nodeIdentityGen_verify (hv r · hr) hn
      have e : (chainValidate E ⟨r, n, .unknown, none⟩).2 = true := by
        simp [chainValidate, chainHasValidCache, this]
      simp only [chainCreate, e, Option.bind_some, Option.map_some, Bool.not_true, Bool.false_eq_true, if_false]
      cases rootKeysLocalize E k d <;> simp
      cases devInfoCopy d <;> simp
      rw [Option.map_eq_bind]
      rfl

theorem hCtxGen_view (hE : E.Fits) (c : Rules) (f : Bool) (hc : c.crash) (h : Heap) (p a q : Addr) (d : DevInfo) (k : RootKeys)
    (b : Bytes) (cv : Curve) (pub pri rid nonce : Bytes) (rk : CipherKey) (h1 : ValidBuf pub) (h2 : ValidBuf pri)
    (h3 : ValidBuf rid) (h4 : ValidBuf rk.key) (h5 : rk.key.length = rk.cipher.keyLen)
    (hi : c.pub b) (hr : c.pub rid) (hg : GenHyp E c k b cv pub pri rid nonce)
    (hd : Has isDev h p d) (ha : Has isRoot h a k) (hq : Has isBuf h q b) :
    Triple c f (keep h) (hCtxGen E (some p) (some a) (some q) cv pub pri rid nonce rk)
      (fun r f' => keep h ∗ givesA isGen genUncached (ctxGenWithRootKeys E d k b ⟨⟨cv, pub, some pri⟩, rid, nonce, rk⟩) r f') := by
  obtain ⟨hv, hp, hs, ho⟩ := hg
  have ⟨_, hroot⟩ : ∃ x, Has isKey h x k.sigRoot := by
    sview ha isRoot
    exact ⟨_, by assumption⟩
  rw [← ctxGenOf_eq (ecKeyCopy_has hroot) (dup_of (has_valid hq)) (rootKeysCopy_has ha) hv]
  unfold hCtxGen ctxGenOf
  refine Triple.onNullGL (hChainGen_view hE c f hc h a q k b cv pub pri rid nonce h1 h2 h3 hv hp hi hr hs ho ha hq) (by frame) ?_ ?_
  · intro f1 _ hx
    simp only [Option.map_eq_none_iff] at hx
    vgo
  · intro q1 f1 ch0 ch' _ hx hl he
    simp only [Option.map_eq_some_iff] at hx
    obtain ⟨ch, hx, rfl⟩ := hx
    have ho := ho ch hx
    simp only [hx, Option.bind_some]
    have hp' : ∀ b ∈ ch'.publics, c.pub b := fun b hb => ho.done b (chainUncached_publics hl b hb)
    have hk : HeaderOk E c ch' := by
      have e1 := chainUncached_header hl
      have e2 := chainValidate_header (E := E) ch
      unfold HeaderOk
      rw [e1.1, e1.2, e2.1, e2.2]
      exact ho.header
    refine Triple.onNullN (hCtxOf_spec hE c f1 hc h p a q1 d k ch' hp' hk hd ha) (by frame) ?_ ?_ ?_
    · intro f2 _ hf
      vgo
    · intro f2 _ hf
      have hf' : ctxOf E d k (chainValidate E ch).1 = none := by
        cases e : ctxOf E d k (chainValidate E ch).1 with
        | none => rfl
        | some y =>
          have eg := genHeaderKey_of (E := E) defaultCipher (chainUncached_header hl)
          simp only [ctxOf, ctxCreate, Option.bind_eq_some_iff, Option.map_eq_some_iff] at e
          obtain ⟨st, h1, d', h2, kk, h3, rfl⟩ := e
          simp [ctxOf, ctxCreate, h1, h2, eg, h3] at hf
      simp only [hf', Option.map_none]
      vgo
    · intro q2 f2 x' _ hx2
      obtain ⟨x, hx3, hl2, he2⟩ := ctxOf_uncached hl hx2
      simp only [hx3, Option.map_some]
      have hp2 : ∀ b ∈ x'.publics, c.pub b := by rw [ctxOf_publics hx2]; exact hp'
      vgo
      · unfold hGenCreate onNull
        vgo
      · refine Triple.doneA (v := ⟨x, rk, k⟩) (v' := ⟨x', rk, k⟩) (by frame) rfl ?_ fun hf => by simp [he2 (he (by grind))]
        rcases hl2 with rfl | rfl
        · exact Or.inl rfl
        · exact Or.inr rfl

/-! ### Recovery -/

theorem hUnseal_spec (hE : E.Fits) (c : Rules) (f : Bool) (h : Heap) (a p : Addr) (r : CipherResult) (k : CipherKey)
    (hp : ∀ y ∈ r.publics, c.pub y) (hk : Has isCKey h p k) :
    Triple c f (keep h ∗ isCRes a r) (hUnseal E (some a) (some p))
      (fun x f' => keep h ∗ gives isBuf (E.decrypt r none k true) x f') := by
  unfold hUnseal
  vgo

theorem hImportRecovery_view (hE : E.Fits) (c : Rules) (f : Bool) (hc : c.crash) (h : Heap) (a q : Addr) (b : Bytes) (k : CipherKey)
    (hl : ∀ x ∈ cresHead b, c.pub x ∨ c.lax) (hp : ∀ r, cipherResultFromBuffer b = some r → ∀ y ∈ r.publics, c.pub y)
    (hd : ∀ r d, cipherResultFromBuffer b = some r → E.decrypt r none k true = some d →
      ∀ x ∈ rootPubs E d, c.pub x)
    (ha : Has isBuf h a b) (hq : Has isCKey h q k) :
    Triple c f (keep h) (hImportRecovery E (some a) (some q))
      (fun x f' => keep h ∗ gives isRoot (importRecovery E b k) x f') := by
  unfold hImportRecovery importRecovery
  refine Triple.onNullG (hCResFromBuffer_view c f hc h a b hl ha) (by frame) ?_ ?_
  · intro f1 _ hx
    vgo
  · intro p f1 r _ hr
    have hp := hp r hr
    simp only [hr, Option.bind_some]
    refine Triple.onNullG (hUnseal_spec hE c f1 h p q r k hp hq) (by frame) ?_ ?_
    · intro f2 _ hx
      clear hp hl hd
      vgo
    · intro p' f2 d _ hdd
      have hd := hd r d hr hdd
      simp only [hdd, Option.bind_some]
      vgo

theorem genUncached_publics {v v' : GenResult} (h : genUncached v v') : ∀ b ∈ v'.publics, b ∈ v.publics := by
  rcases h with rfl | rfl
  · exact fun _ h => h
  · intro b hb
    simp only [GenResult.publics, Ctx.publics, Chain.publics, Option.toList_none, List.append_nil, List.mem_cons] at hb ⊢
    rcases hb with hb | hb
    · exact Or.inl hb
    · exact Or.inr (List.mem_append_left _ hb)

theorem hCtxGenOnce_spec (hE : E.Fits) (c : Rules) (f : Bool) (hc : c.crash) (h : Heap) (p a q : Addr) (d : DevInfo) (k : RootKeys)
    (b : Bytes) (cv : Curve) (pub pri rid nonce : Bytes) (rk : CipherKey) (h1 : ValidBuf pub) (h2 : ValidBuf pri)
    (h3 : ValidBuf rid) (h4 : ValidBuf rk.key) (h5 : rk.key.length = rk.cipher.keyLen)
    (hi : c.pub b) (hr : c.pub rid) (hg : GenHyp E c k b cv pub pri rid nonce) (hd : Has isDev h p d) (hq : Has isBuf h q b) :
    Triple c f (keep h ∗ isRoot a k) (hCtxGenOnce E (some p) (some a) (some q) cv pub pri rid nonce rk)
      (fun r f' => keep h ∗ givesA isGen genUncached (ctxGenWithRootKeys E d k b ⟨⟨cv, pub, some pri⟩, rid, nonce, rk⟩) r f') := by
  unfold hCtxGenOnce
  have hp := hg.key
  vgo
  rename_i hx _ _
  exact Triple.doneS (by frame) (by assumption) hx.1 hx.2.1 (by grind)

theorem hSwapRecovery_spec (c : Rules) (f : Bool) (hc : c.crash) (h : Heap) (g a : Addr) (v : GenResult) (k : CipherKey)
    (hp : ∀ b ∈ v.publics, c.pub b) (ha : Has isCKey h a k) :
    Triple c f (keep h ∗ isGen g v) (hSwapRecovery (some g) (some a))
      (fun r f' => keep h ∗ fresh isGen { v with recoveryKey := k } r f') := by
  unfold hSwapRecovery
  obtain ⟨x, k', rk⟩ := v
  have h1 : ∀ b ∈ x.publics, c.pub b := fun b hb => hp b (by simp [GenResult.publics, hb])
  have h2 : c.pub rk.sigRoot.pub := hp _ (by simp [GenResult.publics])
  clear hp
  sopen isGen
  vgo
  unfold hGenDestroy
  vgo

theorem hCtxGenNew_view (hE : E.Fits) (c : Rules) (f : Bool) (hc : c.crash) (h : Heap) (p q : Addr) (d : DevInfo) (b : Bytes)
    (node rem : CipherKey) (rcv : Curve) (rpub rpri : Bytes) (cv : Curve) (pub pri rid nonce : Bytes) (rk : CipherKey)
    (g1 : ValidBuf node.key) (g2 : node.key.length = node.cipher.keyLen) (g3 : ValidBuf rem.key)
    (g4 : rem.key.length = rem.cipher.keyLen) (g5 : ValidBuf rpub) (g6 : ValidBuf rpri) (h1 : ValidBuf pub) (h2 : ValidBuf pri)
    (h3 : ValidBuf rid) (h4 : ValidBuf rk.key) (h5 : rk.key.length = rk.cipher.keyLen)
    (hi : c.pub b) (hr : c.pub rid) (hg : GenHyp E c ⟨⟨rcv, rpub, some rpri⟩, node, rem⟩ b cv pub pri rid nonce)
    (hd : Has isDev h p d) (hq : Has isBuf h q b) :
    Triple c f (keep h) (hCtxGenNew E (some p) (some q) node rem rcv rpub rpri cv pub pri rid nonce rk)
      (fun r f' => keep h ∗ givesA isGen genUncached
        (ctxGenNew E d b ⟨⟨rcv, rpub, some rpri⟩, node, rem⟩ ⟨⟨cv, pub, some pri⟩, rid, nonce, rk⟩) r f') := by
  unfold hCtxGenNew ctxGenNew
  vgo

theorem hSwapSig_spec (c : Rules) (f : Bool) (hc : c.crash) (h : Heap) (a p : Addr) (v : RootKeys) (k : EcKey)
    (hp : c.pub v.sigRoot.pub) (hp' : c.pub k.pub) (ha : Has isKey h p k) :
    Triple c f (keep h ∗ isRoot a v) (hSwapSig (some a) (some p))
      (fun r f' => keep h ∗ fresh isRoot { v with sigRoot := k } r f') := by
  unfold hSwapSig
  obtain ⟨s, n, m⟩ := v
  sopen isRoot
  vgo
  unfold hRootDestroy
  vgo

theorem hCtxGenSig_view (hE : E.Fits) (c : Rules) (f : Bool) (hc : c.crash) (h : Heap) (p s q : Addr) (d : DevInfo) (k : EcKey)
    (b : Bytes) (node rem : CipherKey) (rcv : Curve) (rpub rpri : Bytes) (cv : Curve) (pub pri rid nonce : Bytes) (rk : CipherKey)
    (g1 : ValidBuf node.key) (g2 : node.key.length = node.cipher.keyLen) (g3 : ValidBuf rem.key)
    (g4 : rem.key.length = rem.cipher.keyLen) (g5 : ValidBuf rpub) (g6 : ValidBuf rpri) (h1 : ValidBuf pub) (h2 : ValidBuf pri)
    (h3 : ValidBuf rid) (h4 : ValidBuf rk.key) (h5 : rk.key.length = rk.cipher.keyLen)
    (hi : c.pub b) (hr : c.pub rid) (hrp : c.pub rpub) (hg : GenHyp E c ⟨k, node, rem⟩ b cv pub pri rid nonce)
    (hd : Has isDev h p d) (hs : Has isKey h s k) (hq : Has isBuf h q b) :
    Triple c f (keep h) (hCtxGenSig E (some p) (some s) (some q) node rem rcv rpub rpri cv pub pri rid nonce rk)
      (fun r f' => keep h ∗ givesA isGen genUncached
        (ctxGenNewWithSigKey E d k b ⟨⟨rcv, rpub, some rpri⟩, node, rem⟩ ⟨⟨cv, pub, some pri⟩, rid, nonce, rk⟩) r f') := by
  unfold hCtxGenSig ctxGenNewWithSigKey
  have hk := hg.key
  rw [ecKeyCopy_has hs]
  simp only [Option.bind_some]
  vgo

theorem ctxGen_publics {c : Rules} {d : DevInfo} {k : RootKeys} {b : Bytes} {cv : Curve} {pub pri rid nonce : Bytes} {rk : CipherKey}
    {g : GenResult} (hg : GenHyp E c k b cv pub pri rid nonce)
    (h : ctxGenWithRootKeys E d k b ⟨⟨cv, pub, some pri⟩, rid, nonce, rk⟩ = some g) : ∀ y ∈ g.publics, c.pub y := by
  simp only [ctxGenWithRootKeys, Option.bind_eq_some_iff] at h
  obtain ⟨k', hk, b', hb, r, hr, n, hn, h⟩ := h
  split at h
  · simp at h
  · simp only [Option.bind_eq_some_iff, ctxCreate, Option.map_eq_some_iff] at h
    obtain ⟨st, hst, d', hd, x, ⟨kk, hkk, rfl⟩, rk', hrk, rfl⟩ := h
    have e := ecKeyCopy_some hk
    have e2 : b' = b := by
      unfold dup at hb
      split at hb <;> simp_all
    subst e e2
    have e3 : rk'.sigRoot = k.sigRoot := by
      simp only [rootKeysCopy, Option.bind_eq_some_iff, Option.map_eq_some_iff] at hrk
      obtain ⟨s, hs, n, hn, m, hm, rfl⟩ := hrk
      exact ecKeyCopy_some hs
    have hc := hg.chain ⟨r, n, .unknown, none⟩ (by simp [chainDraft, hr, hn])
    intro y hy
    simp only [GenResult.publics, Ctx.publics, e3, List.mem_cons] at hy
    rcases hy with rfl | hy
    · exact hg.key
    · exact hc.done y hy

/-- The conditions under which recovery data can be opened. -/
structure RecoverHyp (E : Engine) (c : Rules) (data : Bytes) (key : CipherKey) : Prop where
  head : ∀ x ∈ cresHead data, c.pub x ∨ c.lax
  result : ∀ r, cipherResultFromBuffer data = some r → ∀ y ∈ r.publics, c.pub y
  root : ∀ r d, cipherResultFromBuffer data = some r → E.decrypt r none key true = some d →
    ∀ x ∈ rootPubs E d, c.pub x

theorem hCtxGenRecovery_view (hE : E.Fits) (c : Rules) (f : Bool) (hc : c.crash) (h : Heap) (p a s q : Addr) (d : DevInfo)
    (data : Bytes) (key : CipherKey) (b : Bytes) (cv : Curve) (pub pri rid nonce : Bytes) (rk : CipherKey)
    (h1 : ValidBuf pub) (h2 : ValidBuf pri) (h3 : ValidBuf rid) (h4 : ValidBuf rk.key) (h5 : rk.key.length = rk.cipher.keyLen)
    (hi : c.pub b) (hr : c.pub rid) (ho : RecoverHyp E c data key)
    (hg : ∀ k, importRecovery E data key = some k → GenHyp E c k b cv pub pri rid nonce)
    (hn : ∀ k, importRecovery E data key = some k →
      (ctxGenWithRootKeys E d k b ⟨⟨cv, pub, some pri⟩, rid, nonce, rk⟩).isSome)
    (hd : Has isDev h p d) (ha : Has isBuf h a data) (hs : Has isCKey h s key) (hq : Has isBuf h q b) :
    Triple c f (keep h) (hCtxGenRecovery E (some p) (some a) (some s) (some q) cv pub pri rid nonce rk)
      (fun r f' => keep h ∗ givesA isGen genUncached
        (ctxGenWithRecovery E d data key b ⟨⟨cv, pub, some pri⟩, rid, nonce, rk⟩).toOption r f') := by
  unfold hCtxGenRecovery ctxGenWithRecovery
  refine Triple.onNullG (hImportRecovery_view hE c f hc h a s data key ho.head ho.result ho.root ha hs) (by frame) ?_ ?_
  · intro f1 _ hx
    clear ho hg hn
    have hx : f1 = true ∨ (match importRecovery E data key with
        | none => Res.null
        | some keys => match ctxGenWithRootKeys E d keys b ⟨⟨cv, pub, some pri⟩, rid, nonce, rk⟩ with
          | none => .ub
          | some g => Res.ofOption ((cipherKeyCopy key).map fun k => { g with recoveryKey := k })).toOption = none := by
      rcases hx with hx | hx
      · exact Or.inl hx
      · rw [hx]; exact Or.inr rfl
    vgo
  · intro p1 f1 k _ hk
    have hg := hg k hk
    obtain ⟨g, hgv⟩ := Option.isSome_iff_exists.1 (hn k hk)
    have hpub := ctxGen_publics hg hgv
    simp only [hk, hgv, cipherKeyCopy_has hs, Option.map_some, Res.toOption_ofOption]
    sstep hCtxGenOnce_spec hE c f1 hc h p p1 q d k b cv pub pri rid nonce rk h1 h2 h3 h4 h5 hi hr hg hd hq
    clear ho hn
    rw [hgv]
    intro r f2 _
    cases r with
    | none =>
      sintro
      unfold hSwapRecovery
      vgo
    | some q2 =>
      sintro
      rename_i v v' hx
      obtain ⟨e, hl, he⟩ := hx
      cases e
      have hpub' : ∀ b ∈ v'.publics, c.pub b := fun b hb => hpub b (genUncached_publics hl b hb)
      sstep hSwapRecovery_spec c f2 hc h q2 s v' key hpub' hs
      intro r f3 _
      cases r with
      | none =>
        sintro
        vgo
      | some q3 =>
        sintro
        refine Triple.doneS (v := { g with recoveryKey := key }) (by frame) (by assumption) rfl ?_ (by grind)
        rcases hl with rfl | rfl
        · exact Or.inl rfl
        · exact Or.inr rfl

theorem hCKeyOpen_spec (c : Rules) (f : Bool) (hc : c.crash) (h : Heap) (a : Addr) (b : Bytes) :
    Triple c f (keep h ∗ isBuf a b) (hCKeyOpen (some a)) (fun r f' => keep h ∗ gives isCKey (cipherKeyFromBuffer b) r f') := by
  unfold hCKeyOpen
  vgo

theorem hImportRecoveryKey_view (hE : E.Fits) (c : Rules) (f : Bool) (hc : c.crash) (h : Heap) (p q : Addr) (b pass : Bytes)
    (hw : ∀ m, kdfMetaFromBuffer b = some m → E.kdf m pass = none ∨ cipherResultFromBuffer (b.drop (kdfMetaSize b).toNat) ≠ none)
    (hp : ∀ x ∈ kdfDecipherPubs b pass, c.pub x) (hl : c.lax) (hb : Has isBuf h p b) (hq : Has isBuf h q pass) :
    Triple c f (keep h) (hImportRecoveryKey E (some p) (some q))
      (fun r f' => keep h ∗ givesN isCKey (importRecoveryKeyPass E b pass) r f') := by
  unfold hImportRecoveryKey importRecoveryKeyPass
  refine Triple.onNullN (hKdfDecipher_view hE c f hc h p q b pass hw hp hl hb hq) (by frame) ?_ ?_ ?_ <;> clear hw hp
  · intro f1 _ _; vgo
  · intro f1 _ hx; simp only [hx, Option.bind_none]; vgo
  · intro a f1 v _ hx; simp only [hx, Option.bind_some]; vgo

theorem hCtxGenPass_view (hE : E.Fits) (c : Rules) (f : Bool) (hc : c.crash) (h : Heap) (p x s a q : Addr) (d : DevInfo)
    (ex pass data b : Bytes) (cv : Curve) (pub pri rid nonce : Bytes) (rk : CipherKey)
    (hw : ∀ m, kdfMetaFromBuffer ex = some m → E.kdf m pass = none ∨ cipherResultFromBuffer (ex.drop (kdfMetaSize ex).toNat) ≠ none)
    (hp : ∀ x ∈ kdfDecipherPubs ex pass, c.pub x) (hl : c.lax)
    (h1 : ValidBuf pub) (h2 : ValidBuf pri) (h3 : ValidBuf rid) (h4 : ValidBuf rk.key) (h5 : rk.key.length = rk.cipher.keyLen)
    (hi : c.pub b) (hr : c.pub rid)
    (ho : ∀ key, importRecoveryKeyPass E ex pass = some key → RecoverHyp E c data key)
    (hg : ∀ key k, importRecoveryKeyPass E ex pass = some key → importRecovery E data key = some k →
      GenHyp E c k b cv pub pri rid nonce)
    (hn : ∀ key k, importRecoveryKeyPass E ex pass = some key → importRecovery E data key = some k →
      (ctxGenWithRootKeys E d k b ⟨⟨cv, pub, some pri⟩, rid, nonce, rk⟩).isSome)
    (hd : Has isDev h p d) (hx : Has isBuf h x ex) (hs : Has isBuf h s pass) (ha : Has isBuf h a data) (hq : Has isBuf h q b) :
    Triple c f (keep h) (hCtxGenPass E (some p) (some x) (some s) (some a) (some q) cv pub pri rid nonce rk)
      (fun r f' => keep h ∗ givesA isGen genUncached
        (ctxGenWithPassphrase E d ex pass data b ⟨⟨cv, pub, some pri⟩, rid, nonce, rk⟩).toOption r f') := by
  unfold hCtxGenPass ctxGenWithPassphrase
  rw [show (kdfDecipher E ex pass).bind cipherKeyFromBuffer = importRecoveryKeyPass E ex pass from rfl]
  refine Triple.onNullN (hImportRecoveryKey_view hE c f hc h x s ex pass hw hp hl hx hs) (by frame) ?_ ?_ ?_ <;> clear hw hp
  · intro f1 _ _
    clear ho hg hn
    vgo
  · intro f1 _ hx
    clear ho hg hn
    simp only [hx, Res.toOption]
    vgo
  · intro p1 f1 key _ hk
    have ho := ho key hk
    have hg := fun k => hg key k hk
    have hn := fun k => hn key k hk
    simp only [hk]
    vgo
    rename_i hx _ _
    exact Triple.doneS (by frame) (by assumption) hx.1 hx.2.1 (by grind)

theorem hExportRecoveryKey_view (hE : E.Fits) (c : Rules) (f : Bool) (hc : c.crash) (h : Heap) (p q : Addr) (g : GenResult)
    (pass rnd salt iv : Bytes) (hs : ValidBuf salt) (hl : salt.length = scrypt17.saltSize.toNat)
    (hp : ∀ b, cipherKeySerialize g.recoveryKey = some b → ∀ x ∈ kdfCipherPubs E scrypt17 defaultCipher b pass salt iv, c.pub x)
    (hh : ∀ h, E.kdf ⟨scrypt17, some salt, none⟩ pass = some h → c.pub h ∨ c.lax)
    (ha : Has isGen h p g) (hq : Has isBuf h q pass) :
    Triple c f (keep h) (hExportRecoveryKey E (some p) (some q) rnd salt iv)
      (fun x f' => keep h ∗ givesN isBuf (exportRecoveryKeyPass E g pass salt iv) x f') := by
  unfold hExportRecoveryKey exportRecoveryKeyPass
  obtain ⟨x, k, r⟩ := g
  sview ha isGen
  sgo1
  refine Triple.onNullG (hCKeySerialize_view c f h _ k (by assumption)) (by frame) ?_ ?_
  · intro f1 _ hx
    clear hp hh
    vgo
  · intro a f1 b _ hb
    have hp := hp b hb
    simp only [hb, Option.bind_some]
    vgo

theorem hMakeRecovery_view (hE : E.Fits) (c : Rules) (f : Bool) (hc : c.crash) (h : Heap) (p : Addr) (g : GenResult) (iv : Bytes)
    (hs : g.rootKeys.sigRoot.pri.isSome)
    (hr : ∀ x, (rootKeysExport E g.rootKeys g.recoveryKey iv).toOption = some x → ∀ y ∈ x.publics, c.pub y) (ha : Has isGen h p g) :
    Triple c f (keep h) (hMakeRecovery E (some p) iv) (fun x f' => keep h ∗ gives isBuf (makeRecovery E g iv).toOption x f') := by
  unfold hMakeRecovery makeRecovery
  obtain ⟨x, k, r⟩ := g
  sview ha isGen
  rw [show ((rootKeysExport E r k iv).bind fun r => Res.ofOption (cipherResultSerialize r)).toOption =
      (rootKeysExport E r k iv).toOption.bind cipherResultSerialize by
    cases rootKeysExport E r k iv with
    | ok a => exact Res.toOption_ofOption _
    | null => rfl
    | ub => rfl]
  vgo

theorem hCipherLocal_view (hE : E.Fits) (c : Rules) (f : Bool) (hc : c.crash) (h : Heap) (p q : Addr) (x : Ctx) (pt iv : Bytes)
    (hp : ∀ r, cipherLocal E x pt iv = some r → ∀ y ∈ r.publics, c.pub y) (ha : Has isCtx h p x) (hq : Has isBuf h q pt) :
    Triple c f (keep h) (hCipherStored E 0 (some p) (some q) iv) (fun r f' => keep h ∗ gives isCRes (cipherLocal E x pt iv) r f') := by
  unfold hCipherStored
  unfold cipherLocal at hp ⊢
  obtain ⟨d, ch, ⟨l, r⟩, k, n⟩ := x
  sview ha isCtx
  sviews isStorage
  vgo

theorem hDecipherLocal_view (hE : E.Fits) (c : Rules) (f : Bool) (h : Heap) (p q : Addr) (x : Ctx) (ct : CipherResult)
    (ha : Has isCtx h p x) (hq : Has isCRes h q ct) :
    Triple c f (keep h) (hDecipherStored E 0 (some p) (some q)) (fun r f' => keep h ∗ gives isBuf (decipherLocal E x ct) r f') := by
  unfold hDecipherStored decipherLocal
  obtain ⟨d, ch, ⟨l, r⟩, k, n⟩ := x
  sview ha isCtx
  sviews isStorage
  vgo

theorem hCipherRemote_view (hE : E.Fits) (c : Rules) (f : Bool) (hc : c.crash) (h : Heap) (p q : Addr) (x : Ctx) (pt iv : Bytes)
    (hp : ∀ r, cipherRemote E x pt iv = some r → ∀ y ∈ r.publics, c.pub y) (ha : Has isCtx h p x) (hq : Has isBuf h q pt) :
    Triple c f (keep h) (hCipherStored E 1 (some p) (some q) iv) (fun r f' => keep h ∗ gives isCRes (cipherRemote E x pt iv) r f') := by
  unfold hCipherStored
  unfold cipherRemote at hp ⊢
  obtain ⟨d, ch, ⟨l, r⟩, k, n⟩ := x
  sview ha isCtx
  sviews isStorage
  vgo

theorem hDecipherRemote_view (hE : E.Fits) (c : Rules) (f : Bool) (h : Heap) (p q : Addr) (x : Ctx) (ct : CipherResult)
    (ha : Has isCtx h p x) (hq : Has isCRes h q ct) :
    Triple c f (keep h) (hDecipherStored E 1 (some p) (some q)) (fun r f' => keep h ∗ gives isBuf (decipherRemote E x ct) r f') := by
  unfold hDecipherStored decipherRemote
  obtain ⟨d, ch, ⟨l, r⟩, k, n⟩ := x
  sview ha isCtx
  sviews isStorage
  vgo

theorem hCtxEphGen_view (hE : E.Fits) (c : Rules) (f : Bool) (hc : c.crash) (h : Heap) (p : Addr) (x : Ctx) (n : UInt64) (cv : Curve)
    (pub pri nonce : Bytes) (hv : ValidBuf pub) (hv' : ValidBuf pri)
    (hs : ∀ s, identitySign E x.chain.node pub nonce = some s → c.pub s.sig) (ha : Has isCtx h p x) :
    Triple c f (keep h) (hCtxEphGen E (some p) n cv pub pri nonce)
      (fun r f' => keep h ∗ gives isEph (ctxEphGen E x n ⟨cv, pub, some pri⟩ nonce) r f') := by
  unfold hCtxEphGen ctxEphGen
  obtain ⟨d, ⟨rt, nd, st, ca⟩, s, k, m⟩ := x
  sview ha isCtx
  sviews isChain
  vgo

end Wickr
