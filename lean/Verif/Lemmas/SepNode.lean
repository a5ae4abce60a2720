import Verif.Lemmas.SepFun
/-
Identity chains, ephemeral keys and nodes: generation and verification on the heap.
-/
set_option linter.unusedSimpArgs false

namespace Wickr
open Asrt Spec

variable {E : Engine}

/-- The end of a program whose result is described by a value. -/
theorem Triple.done {c : Rules} {f : Bool} {V : Type _} {α : Type} {A : Asrt} {a : α} {φ : α → Bool → V → Prop} {P : α → V → Asrt} (w : V)
    (hA : A = P a w ∗ emp) (hφ : φ a f w) :
    Triple c f A (Pure.pure a : H α) (fun r f' => Asrt.ex fun x => ⌜φ r f' x⌝ ∗ P r x) := by
  rw [Asrt.star_emp] at hA
  refine Triple.ret fun x hx => ⟨w, ?_⟩
  dsimp only
  rw [Asrt.pure_star]
  exact ⟨hφ, hA ▸ hx⟩

theorem chain_setScal (c : Rules) (f : Bool) (a : Addr) (ch : Chain) (st : Status) :
    Triple c f (isChain a ch) (setScal (some a) (.status st)) (fun _ _ => isChain a { ch with status := st }) := by
  obtain ⟨rt, nd, st', ca⟩ := ch
  sopen isChain
  sgo

theorem chain_clear (c : Rules) (f : Bool) (a : Addr) (ch : Chain) (hp : ∀ b, ch.cache = some b → c.pub b) :
    Triple c f (isChain a ch) (destroyField hBufDestroy (some a) 2) (fun _ _ => isChain a { ch with cache := none }) := by
  obtain ⟨rt, nd, st', ca⟩ := ch
  sopen isChain
  refine Triple.tail ?_
  sopt <;> simp at hp <;> sgo

theorem chain_setCache (c : Rules) (f : Bool) (a : Addr) (ch : Chain) (p : Ptr) (x : Option Bytes) :
    Triple c f (isChain a { ch with cache := none } ∗ optRep isBuf p x) (setField (some a) 2 p)
      (fun _ _ => isChain a { ch with cache := x }) := by
  obtain ⟨rt, nd, st', ca⟩ := ch
  sopen isChain
  refine Triple.tail ?_
  sopt <;> sgo

/-- The digest of a status does not depend on the digest that is stored. -/
theorem chainStatusCache_cache (ch : Chain) (x : Option Bytes) :
    chainStatusCache E { ch with cache := x } = chainStatusCache E ch := rfl

theorem hChainUpdateCache_spec (hE : E.Fits) (c : Rules) (f : Bool) (hc : c.crash) (a : Addr) (ch : Chain)
    (hp : ∀ b, ch.digestInput = some b → c.pub b) (hp' : ∀ b, ch.cache = some b → c.pub b) :
    Triple c f (isChain a ch) (hChainUpdateCache E (some a)) (fun _ f' => Asrt.ex fun x =>
      ⌜(x = none ∨ x = chainStatusCache E ch) ∧ (f' = false → x = chainStatusCache E ch)⌝ ∗ isChain a { ch with cache := x }) := by
  unfold hChainUpdateCache
  sstep chain_clear c f a ch hp'
  intro _ f1 h1
  refine Triple.lend0 (P := isChain a { ch with cache := none }) (by frame) fun h hh => ?_
  sstep hChainStatusCache_view hE c f1 hc h a { ch with cache := none } hp (has_of hh)
  intro r f2 h2
  refine Triple.giveBack0 hh (by frame) ?_
  cases r with
  | none =>
    dsimp only [gives]
    sintro
    refine Triple.tail ?_
    sstep chain_setCache c f2 a ch none none
    intro _ f3 h3
    exact Triple.done _ (by frame) (by rw [chainStatusCache_cache] at *; grind)
  | some b =>
    dsimp only [gives]
    sintro
    refine Triple.tail ?_
    sstep chain_setCache c f2 a ch (some b) (some _)
    intro _ f3 h3
    exact Triple.done _ (by frame) (by rw [chainStatusCache_cache] at *; grind)

/-- What `wickr_identity_chain_validate` does to a chain and returns, with or without memory. -/
def ChainOutcome (E : Engine) (ch : Chain) (ok : Bool) (f : Bool) (ch' : Chain) : Prop :=
  ((chainHasValidCache E ch = true ∧ ch' = ch ∧ ok = decide (ch.status = .valid)) ∨
    (ok = E.verifyOpt ch.node.sig ch.root.key ch.node.key.pub ∧
      ∃ x, ch' = { ch with status := if ok then .valid else .invalid, cache := x } ∧
        (x = none ∨ x = chainStatusCache E { ch with status := if ok then .valid else .invalid }))) ∧
  (f = false → (ch', ok) = chainValidate E ch)

theorem hChainValidate_spec (hE : E.Fits) (c : Rules) (f : Bool) (hc : c.crash) (a : Addr) (ch : Chain)
    (hp : ∀ st b, { ch with status := st }.digestInput = some b → c.pub b) (hp' : ∀ b, ch.cache = some b → c.pub b)
    (hp'' : ∀ b, chainStatusCache E ch = some b → c.pub b) :
    Triple c f (isChain a ch) (hChainValidate E (some a)) (fun ok f' => Asrt.ex fun ch' =>
      ⌜ChainOutcome E ch ok f' ch'⌝ ∗ isChain a ch') := by
  unfold hChainValidate
  refine Triple.lend0 (P := isChain a ch) (by frame) fun h hh => ?_
  sstep hChainHasValidCache_view hE c f hc h a ch (hp ch.status) hp'' (has_of hh)
  intro v f1 h1
  sintro
  rename_i hv
  cases v with
  | true =>
    have e := hv.1 rfl
    simp only [if_true]
    have hi : Has isChain h a ch := has_of hh
    obtain ⟨rt, nd, st, ca⟩ := ch
    sview hi isChain
    sgo1
    refine Triple.giveBack0 hh (by frame) ?_
    refine Triple.done _ (by frame) ⟨Or.inl ⟨e, rfl, rfl⟩, fun _ => ?_⟩
    simp [chainValidate, e]
  | false =>
    simp only [Bool.false_eq_true, if_false]
    have hi : Has isChain h a ch := has_of hh
    sread hChainCheck_view h a ch hi
    refine Triple.giveBack0 hh (by frame) ?_
    sstep chain_setScal c f1 a ch _
    intro _ f2 h2
    have hu := fun st => hChainUpdateCache_spec hE c f2 hc a { ch with status := st } (hp st) hp'
    sstep hu _
    intro _ f3 h3
    sintro
    rename_i x hx
    refine Triple.done _ (by frame) ⟨Or.inr ⟨rfl, x, rfl, hx.1⟩, fun h => ?_⟩
    have e2 := hx.2 h
    subst e2
    have e3 : f1 = false := by cases f1; rfl; simp_all
    have e4 := hv.2 e3
    simp [chainValidate, ← e4, chainUpdateCache]

/-! ### Ephemeral keys -/

theorem hEphGenerate_view (hE : E.Fits) (c : Rules) (f : Bool) (hc : c.crash) (h : Heap) (n : UInt64) (a : Addr) (i : Identity)
    (cv : Curve) (pub pri nonce : Bytes) (hv : ValidBuf pub) (hv' : ValidBuf pri)
    (hs : ∀ s, identitySign E i pub nonce = some s → c.pub s.sig) (hi : Has isId h a i) :
    Triple c f (keep h) (hEphGenerate E n (some a) cv pub pri nonce)
      (fun r f' => keep h ∗ gives isEph (ephGenerate E n i ⟨cv, pub, some pri⟩ nonce) r f') := by
  unfold hEphGenerate ephGenerate
  vgo

theorem hEphVerifyOwner_view (h : Heap) (p : Ptr) (a : Addr) (e : Option EphKey) (i : Identity)
    (hp : HasOpt isEph h p e) (hi : Has isId h a i) :
    Reads (keep h) (hEphVerifyOwner E p (some a)) (ephVerifyOwner E e i) := by
  intro c f
  unfold hEphVerifyOwner ephVerifyOwner
  obtain ⟨t, j, k, s⟩ := i
  rcases e with _ | ⟨n, ⟨c2, pub2, pri2⟩, s2⟩ <;> svset
  · vgo
  · sview hi isId
    sviews isEph
    rename Has isKey h _ { curve := c2, pub := pub2, pri := pri2 } => h2
    sview h2 isKey
    vgo

/-! ### Nodes -/

/-- What the status of a node is hashed together with. -/
def Node.digestInput (n : Node) : Option Bytes :=
  match n.eph, n.chain.cache with
  | some k, some _ =>
    match k.sig with
    | some s => concatMulti [some k.key.pub, some s.sig, some [n.status.byte]]
    | none => none
  | _, _ => none

theorem nodeStatusCache_eq (E : Engine) (n : Node) :
    nodeStatusCache E n = n.digestInput.bind fun b => E.digest b none .sha512 := by
  unfold nodeStatusCache Node.digestInput
  cases n.eph with
  | none => rfl
  | some k => obtain ⟨i, e, s⟩ := k; cases s <;> cases n.chain.cache <;> rfl

theorem hNodeStatusCache_view (hE : E.Fits) (c : Rules) (f : Bool) (hc : c.crash) (h : Heap) (a : Addr) (n : Node)
    (hp : ∀ b, n.digestInput = some b → c.pub b) (hi : Has isNode h a n) :
    Triple c f (keep h) (hNodeStatusCache E (some a)) (fun r f' => keep h ∗ gives isBuf (nodeStatusCache E n) r f') := by
  rw [nodeStatusCache_eq]
  unfold hNodeStatusCache
  unfold Node.digestInput at hp ⊢
  obtain ⟨d, ⟨rt, nd, cst, cca⟩, e, st, ca⟩ := n
  sview hi isNode
  rcases e with _ | ⟨i, ⟨c2, pub2, pri2⟩, s2⟩ <;> svset
  · vgo
  · sviews isEph
    sviews isChain
    cases s2 <;> svset
    · vgo
    · cases cca <;> svset
      · vgo
      · sviews isSig
        sviews isKey
        vgo

theorem hNodeHasValidCache_view (hE : E.Fits) (c : Rules) (f : Bool) (hc : c.crash) (h : Heap) (a : Addr) (n : Node)
    (hp : ∀ b, n.digestInput = some b → c.pub b) (hp' : ∀ b, nodeStatusCache E n = some b → c.pub b)
    (hq : ∀ b, n.chain.digestInput = some b → c.pub b) (hq' : ∀ b, chainStatusCache E n.chain = some b → c.pub b)
    (hi : Has isNode h a n) :
    Triple c f (keep h) (hNodeHasValidCache E (some a))
      (fun r f' => ⌜(r = true → nodeHasValidCache E n = true) ∧ (f' = false → r = nodeHasValidCache E n)⌝ ∗ keep h) := by
  unfold hNodeHasValidCache nodeHasValidCache
  obtain ⟨d, ch, e, st, ca⟩ := n
  dsimp only at hq hq' ⊢
  sview hi isNode
  cases ca <;> svset
  · vgo
  · have e' : ∀ v : Bytes, bufIsEqual none (some v) none = false := by simp [bufIsEqual]
    vgo

theorem hNodeCheck_view (h : Heap) (a : Addr) (n : Node) (hi : Has isNode h a n) :
    Reads (keep h) (hNodeCheck E (some a)) (ephVerifyOwner E n.eph n.chain.node) := by
  intro c f
  unfold hNodeCheck
  obtain ⟨d, ⟨rt, nd, cst, cca⟩, e, st, ca⟩ := n
  sview hi isNode
  sviews isChain
  vgo

theorem hNodeChainStatus_view (h : Heap) (a : Addr) (n : Node) (hi : Has isNode h a n) :
    Reads (keep h) (hNodeChainStatus (some a)) n.chain.status := by
  intro c f
  unfold hNodeChainStatus
  obtain ⟨d, ⟨rt, nd, cst, cca⟩, e, st, ca⟩ := n
  sview hi isNode
  sviews isChain
  vgo

theorem node_status_view (h : Heap) (a : Addr) (n : Node) (hi : Has isNode h a n) :
    Reads (keep h) (scal (some a)) (.status n.status) := by
  intro c f
  obtain ⟨d, ⟨rt, nd, cst, cca⟩, e, st, ca⟩ := n
  sview hi isNode
  vgo

theorem node_setScal (c : Rules) (f : Bool) (a : Addr) (n : Node) (st : Status) :
    Triple c f (isNode a n) (setScal (some a) (.status st)) (fun _ _ => isNode a { n with status := st }) := by
  obtain ⟨d, ch, e, st', ca⟩ := n
  sopen isNode
  sgo

theorem node_clear (c : Rules) (f : Bool) (a : Addr) (n : Node) (hp : ∀ b, n.cache = some b → c.pub b) :
    Triple c f (isNode a n) (destroyField hBufDestroy (some a) 3) (fun _ _ => isNode a { n with cache := none }) := by
  obtain ⟨d, ch, e, st', ca⟩ := n
  sopen isNode
  refine Triple.tail ?_
  sopt <;> simp at hp <;> sgo

theorem node_setCache (c : Rules) (f : Bool) (a : Addr) (n : Node) (p : Ptr) (x : Option Bytes) :
    Triple c f (isNode a { n with cache := none } ∗ optRep isBuf p x) (setField (some a) 3 p)
      (fun _ _ => isNode a { n with cache := x }) := by
  obtain ⟨d, ch, e, st', ca⟩ := n
  sopen isNode
  refine Triple.tail ?_
  sopt <;> sgo

theorem nodeStatusCache_cache (n : Node) (x : Option Bytes) : nodeStatusCache E { n with cache := x } = nodeStatusCache E n := rfl

theorem hNodeUpdateCache_spec (hE : E.Fits) (c : Rules) (f : Bool) (hc : c.crash) (a : Addr) (n : Node)
    (hp : ∀ b, n.digestInput = some b → c.pub b) (hp' : ∀ b, n.cache = some b → c.pub b) :
    Triple c f (isNode a n) (hNodeUpdateCache E (some a)) (fun _ f' => Asrt.ex fun x =>
      ⌜(x = none ∨ x = nodeStatusCache E n) ∧ (f' = false → x = nodeStatusCache E n)⌝ ∗ isNode a { n with cache := x }) := by
  unfold hNodeUpdateCache
  sstep node_clear c f a n hp'
  intro _ f1 h1
  refine Triple.lend0 (P := isNode a { n with cache := none }) (by frame) fun h hh => ?_
  sstep hNodeStatusCache_view hE c f1 hc h a { n with cache := none } hp (has_of hh)
  intro r f2 h2
  refine Triple.giveBack0 hh (by frame) ?_
  cases r with
  | none =>
    dsimp only [gives]
    sintro
    refine Triple.tail ?_
    sstep node_setCache c f2 a n none none
    intro _ f3 h3
    exact Triple.done _ (by frame) (by rw [nodeStatusCache_cache] at *; grind)
  | some b =>
    dsimp only [gives]
    sintro
    refine Triple.tail ?_
    sstep node_setCache c f2 a n (some b) (some _)
    intro _ f3 h3
    exact Triple.done _ (by frame) (by rw [nodeStatusCache_cache] at *; grind)

/-- What may be released without wiping while a chain is validated. -/
structure Chain.Shown (E : Engine) (c : Rules) (ch : Chain) : Prop where
  input : ∀ st b, { ch with status := st }.digestInput = some b → c.pub b
  cache : ∀ b, ch.cache = some b → c.pub b
  current : ∀ b, chainStatusCache E ch = some b → c.pub b

theorem hNodeValidateChain_spec (hE : E.Fits) (c : Rules) (f : Bool) (hc : c.crash) (a : Addr) (n : Node) (hs : n.chain.Shown E c) :
    Triple c f (isNode a n) (hNodeValidateChain E (some a)) (fun ok f' => Asrt.ex fun ch' =>
      ⌜ChainOutcome E n.chain ok f' ch'⌝ ∗ isNode a { n with chain := ch' }) := by
  unfold hNodeValidateChain
  obtain ⟨d, ch, e, st', ca⟩ := n
  sopen isNode
  sgo1
  refine Triple.seq' (hChainValidate_spec hE c f hc _ ch hs.input hs.cache hs.current) (by frame) fun ok f' h => ?_
  sintro
  sgo

/-- What `wickr_node_verify_signature_chain` does to a node and returns, with or without memory. -/
def NodeOutcome (E : Engine) (n : Node) (ok : Bool) (f : Bool) (n' : Node) : Prop :=
  ((nodeHasValidCache E n = true ∧ n' = n ∧ ok = decide (n.status = .valid)) ∨
    (∃ ch' cok x, ChainOutcome E n.chain cok true ch' ∧
      let st := if cok && ephVerifyOwner E n.eph n.chain.node then Status.valid else .invalid
      n' = { n with chain := ch', status := st, cache := x } ∧
        (x = none ∨ x = nodeStatusCache E { n with chain := ch', status := st }) ∧
        ok = (cok && ephVerifyOwner E n.eph n.chain.node && decide (ch'.status = .valid)))) ∧
  (f = false → (n', ok) = nodeVerify E n)

/-- What may be released without wiping while a node is verified. -/
structure Node.Shown (E : Engine) (c : Rules) (n : Node) : Prop where
  chain : n.chain.Shown E c
  input : ∀ ch st b, { n with chain := ch, status := st }.digestInput = some b → c.pub b
  cache : ∀ b, n.cache = some b → c.pub b
  current : ∀ b, nodeStatusCache E n = some b → c.pub b

theorem ChainOutcome.weaken {ch ch' : Chain} {ok f : Bool} (h : ChainOutcome E ch ok f ch') : ChainOutcome E ch ok true ch' :=
  ⟨h.1, fun h => by simp at h⟩

theorem ChainOutcome.node {ch ch' : Chain} {ok f : Bool} (h : ChainOutcome E ch ok f ch') : ch'.node = ch.node := by
  rcases h.1 with ⟨_, rfl, _⟩ | ⟨_, _, rfl, _⟩ <;> rfl

theorem hNodeVerify_spec (hE : E.Fits) (c : Rules) (f : Bool) (hc : c.crash) (a : Addr) (n : Node) (hs : n.Shown E c) :
    Triple c f (isNode a n) (hNodeVerify E (some a)) (fun ok f' => Asrt.ex fun n' =>
      ⌜NodeOutcome E n ok f' n'⌝ ∗ isNode a n') := by
  unfold hNodeVerify
  refine Triple.lend0 (P := isNode a n) (by frame) fun h hh => ?_
  sstep hNodeHasValidCache_view hE c f hc h a n (hs.input n.chain n.status) hs.current (hs.chain.input _) hs.chain.current (has_of hh)
  intro v f1 h1
  sintro
  rename_i hv
  cases v with
  | true =>
    have e := hv.1 rfl
    simp only [if_true]
    sread node_status_view h a n (has_of hh)
    refine Triple.giveBack0 hh (by frame) ?_
    refine Triple.done _ (by frame) ⟨Or.inl ⟨e, rfl, rfl⟩, fun _ => ?_⟩
    simp [nodeVerify, e]
  | false =>
    simp only [Bool.false_eq_true, if_false]
    refine Triple.giveBack0 hh (by frame) ?_
    sstep hNodeValidateChain_spec hE c f1 hc a n hs.chain
    intro cok f2 h2
    sintro
    rename_i ch' ho
    have hno : f2 = false → (ch', cok) = chainValidate E n.chain ∧ nodeHasValidCache E n = false := fun h =>
      ⟨ho.2 h, (hv.2 (by cases f1 <;> simp_all)).symm⟩
    cases cok with
    | false =>
      simp only [Bool.false_eq_true, if_false]
      sstep node_setScal c f2 a { n with chain := ch' } _
      intro _ f3 h3
      sstep hNodeUpdateCache_spec hE c f3 hc a { n with chain := ch', status := .invalid } (hs.input _ _) hs.cache
      intro _ f4 h4
      sintro
      rename_i x hx
      refine Triple.done _ (by frame) ⟨Or.inr ⟨ch', false, x, ho.weaken, ?_⟩, fun h => ?_⟩
      · simpa using hx.1
      · obtain ⟨e1, e2⟩ := hno (by cases f2 <;> simp_all)
        simp [nodeVerify, e2, ← e1, nodeUpdateCache, hx.2 h]
    | true =>
      simp only [if_true]
      refine Triple.lend0 (P := isNode a { n with chain := ch' }) (by frame) fun h hh => ?_
      sread hNodeCheck_view h a { n with chain := ch' } (has_of hh)
      dsimp only
      rw [ho.node]
      refine Triple.giveBack0 hh (by frame) ?_
      have hst := fun st => node_setScal c f2 a { n with chain := ch' } st
      sstep hst _
      intro _ f3 h3
      have hu := fun st => hNodeUpdateCache_spec hE c f3 hc a { n with chain := ch', status := st } (hs.input _ _) hs.cache
      sstep hu _
      intro _ f4 h4
      sintro
      rename_i x hx
      refine Triple.lend0 (P := isNode a { n with chain := ch', status := _, cache := x }) (by frame) fun h hh => ?_
      sread node_status_view h a _ (has_of hh)
      sread hNodeChainStatus_view h a _ (has_of hh)
      refine Triple.giveBack0 hh (by frame) ?_
      refine Triple.done _ (by frame) ⟨Or.inr ⟨ch', true, x, ho.weaken, ?_⟩, fun h => ?_⟩
      · refine ⟨by simp, by simpa using hx.1, ?_⟩
        cases ephVerifyOwner E n.eph n.chain.node <;> simp
      · obtain ⟨e1, e2⟩ := hno (by cases f2 <;> simp_all)
        simp [nodeVerify, e2, ← e1, nodeUpdateCache, hx.2 h, ho.node]

end Wickr
