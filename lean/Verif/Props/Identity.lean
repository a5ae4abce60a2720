import Verif.Lemmas.Identity
/-
C42: identity chain validation caching; C43: node validation caching; C44: identity codecs.
-/
set_option linter.unusedSimpArgs false
namespace Wickr
open Spec

/-! ### C42 -/

theorem chainRun_append (E : Engine) (c : Chain) (a b : List ChainOp) :
    chainRun E c (a ++ b) = chainRun E (chainRun E c a) b := by simp [chainRun]

/-- C42.  Start from a chain without a cache (as created or parsed) and let any history of
validations, copies and writes to `status` pass.  If SHA-512 does not collide on the three byte
strings that can be hashed for this chain, validation returns what a fresh signature verification
returns. -/
theorem C42_chain_cache_transparent (E : Engine) (c : Chain) (ops : List ChainOp)
    (hc : c.cache = none) (hops : ∀ op ∈ ops, op.KeepsKeys)
    (hrv : ∀ s, c.root.sig = some s → ValidBuf s.sig)
    (hnv : ∀ s, c.node.sig = some s → ValidBuf s.sig)
    (hd : ∀ s, c.node.sig = some s → NoCollision E fun b => ∃ x : UInt8, x.toNat < 3 ∧
      b = c.root.key.pub ++ s.sig ++ c.node.key.pub ++ [x]) :
    (chainValidate E (chainRun E c ops)).2 = true ↔ ChainGenuine E c := by
  let Occ : Identity → Identity → Prop := fun r n => r = c.root ∧ n = c.node
  have hsep : CacheSep E Occ := by
    rintro r n r' n' st st' h ⟨rfl, rfl⟩ ⟨rfl, rfl⟩ h1 h2
    refine ⟨?_, rfl⟩
    obtain ⟨s, hs, h1⟩ := statusCache_some h1
    obtain ⟨s', hs', h2⟩ := statusCache_some h2
    simp only at hs hs'
    rw [hs] at hs'; cases hs'
    have := hd s hs _ _ h ⟨st.byte, by cases st <;> decide, rfl⟩ ⟨st'.byte, by cases st' <;> decide, rfl⟩
      h1 h2
    have := List.append_cancel_left this
    exact status_byte_inj (by simpa using this)
  have hrun : ∀ ops : List ChainOp, (∀ op ∈ ops, op.KeepsKeys) → CacheInv E Occ (chainRun E c ops) := by
    intro ops
    induction ops using snocInd with
    | nil => intro _; exact ⟨⟨rfl, rfl⟩, by simp [chainRun, hc]⟩
    | snoc l op ih =>
      intro hk
      have ih := ih fun o ho => hk o (List.mem_append_left _ ho)
      rw [chainRun_append]
      have hop := hk op (by simp)
      refine ih.step hsep ?_ ?_ ?_
      · rintro r n ⟨rfl, rfl⟩; exact ⟨hrv, hnv⟩
      · rintro i rfl; exact absurd hop id
      · rintro i rfl; exact absurd hop id
  have hi := hrun ops hops
  rw [(hi.validate hsep).2.1, hi.1.1, hi.1.2, chainGenuine_iff]

theorem mem_roots_append {c : Chain} {ops : List ChainOp} {op : ChainOp} {i : Identity}
    (h : i ∈ rootsOf c ops) : i ∈ rootsOf c (ops ++ [op]) := by
  simp only [rootsOf, List.filterMap_append, List.mem_cons, List.mem_append] at *
  exact h.imp_right Or.inl
theorem mem_nodes_append {c : Chain} {ops : List ChainOp} {op : ChainOp} {i : Identity}
    (h : i ∈ nodesOf c ops) : i ∈ nodesOf c (ops ++ [op]) := by
  simp only [nodesOf, List.filterMap_append, List.mem_cons, List.mem_append] at *
  exact h.imp_right Or.inl

theorem append_inj3 {a b c a' b' c' : Bytes} (ha : a.length = a'.length) (hc : c.length = c'.length)
    (h : a ++ b ++ c = a' ++ b' ++ c') : a = a' ∧ b = b' ∧ c = c' := by
  have hl := congrArg List.length h
  simp only [List.length_append] at hl
  have h1 := List.append_inj h (by simp only [List.length_append]; omega)
  have h2 := List.append_inj h1.1 ha
  exact ⟨h2.1, h2.2, h1.2⟩

/-- C42, with keys and signatures written too: the cache notices every replacement of the root or
the node identity, provided SHA-512 does not collide on the byte strings hashed in this history,
all public keys have the same length (P-521 points do) and all signatures use one digest (the
library only signs identities with SHA-512). -/
theorem C42_cache_notices_replacement (E : Engine) (hE : E.Lawful) (c : Chain) (ops : List ChainOp)
    (hc : c.cache = none) (L : Nat) (D : Digest)
    (hr : ∀ i ∈ rootsOf c ops, i.key.pub.length = L ∧ ∀ s, i.sig = some s → ValidBuf s.sig)
    (hn : ∀ i ∈ nodesOf c ops, i.key.pub.length = L ∧
      ∀ s, i.sig = some s → ValidBuf s.sig ∧ s.digest = D)
    (hd : NoCollision E fun b => ∃ r ∈ rootsOf c ops, ∃ n ∈ nodesOf c ops, ∃ s, n.sig = some s ∧
      ∃ x : UInt8, x.toNat < 3 ∧ b = r.key.pub ++ s.sig ++ n.key.pub ++ [x]) :
    (chainValidate E (chainRun E c ops)).2 = true ↔ ChainGenuine E (chainRun E c ops) := by
  let Occ : Identity → Identity → Prop := fun r n => r ∈ rootsOf c ops ∧ n ∈ nodesOf c ops
  have hsep : CacheSep E Occ := by
    rintro r n r' n' st st' h ⟨hr1, hn1⟩ ⟨hr2, hn2⟩ h1 h2
    obtain ⟨s, hs, h1⟩ := statusCache_some h1
    obtain ⟨s', hs', h2⟩ := statusCache_some h2
    simp only at hs hs' h1 h2
    have := hd _ _ h ⟨r, hr1, n, hn1, s, hs, st.byte, by cases st <;> decide, rfl⟩
      ⟨r', hr2, n', hn2, s', hs', st'.byte, by cases st' <;> decide, rfl⟩ h1 h2
    have h3 := List.append_inj' this rfl
    have h4 := append_inj3 ((hr r hr1).1.trans (hr r' hr2).1.symm)
      ((hn n hn1).1.trans (hn n' hn2).1.symm) h3.1
    refine ⟨status_byte_inj (by simpa using h3.2), ?_⟩
    have hss : s = s' := by
      have e1 := ((hn n hn1).2 s hs).2
      have e2 := ((hn n' hn2).2 s' hs').2
      obtain ⟨cu, di, si⟩ := s
      obtain ⟨cu', di', si'⟩ := s'
      simp only at e1 e2 h4
      cases cu; cases cu'
      rw [e1, e2, h4.2.1]
    subst s'
    unfold freshStatus
    simp only [hs, hs', Engine.verifyOpt]
    rw [hE.verify_pub s r'.key r.key n.key.pub h4.1, h4.2.2]
  have hrun : ∀ l r : List ChainOp, ops = l ++ r → CacheInv E Occ (chainRun E c l) ∧
      (chainRun E c l).root ∈ rootsOf c l ∧ (chainRun E c l).node ∈ nodesOf c l := by
    intro l
    induction l using snocInd with
    | nil =>
      intro r _
      exact ⟨⟨⟨by simp [chainRun, rootsOf], by simp [chainRun, nodesOf]⟩, by simp [chainRun, hc]⟩,
        by simp [chainRun, rootsOf], by simp [chainRun, nodesOf]⟩
    | snoc l op ih =>
      intro r hlr
      have ih := ih ([op] ++ r) (by simpa using hlr)
      rw [chainRun_append]
      have hroot : ∀ i, op = .setRoot i → i ∈ rootsOf c ops := by
        rintro i rfl; subst hlr; simp [rootsOf]
      have hnode : ∀ i, op = .setNode i → i ∈ nodesOf c ops := by
        rintro i rfl; subst hlr; simp [nodesOf]
      have hst := ih.1.step (op := op) hsep
        (fun r n h => ⟨(hr r h.1).2, fun s hs => ((hn n h.2).2 s hs).1⟩)
        (fun i hi => ⟨hroot i hi, ih.1.1.2⟩) (fun i hi => ⟨ih.1.1.1, hnode i hi⟩)
      refine ⟨hst, ?_⟩
      have hvr := (hr _ ih.1.1.1).2
      have hvn := fun s hs => ((hn _ ih.1.1.2).2 s hs).1
      show (op.apply E (chainRun E c l)).root ∈ _ ∧ (op.apply E (chainRun E c l)).node ∈ _
      cases op with
      | validate =>
        have := ih.1.validate hsep
        simp only [ChainOp.apply, this.2.2.1, this.2.2.2.1]
        exact ⟨mem_roots_append ih.2.1, mem_nodes_append ih.2.2⟩
      | copy =>
        have : ((chainCopy (chainRun E c l)).getD (chainRun E c l)) = chainRun E c l := by
          cases h : chainCopy (chainRun E c l) with
          | none => rfl
          | some c' => exact chainCopy_some h hvr hvn
        simp only [ChainOp.apply, this]
        exact ⟨mem_roots_append ih.2.1, mem_nodes_append ih.2.2⟩
      | setStatus s => exact ⟨mem_roots_append ih.2.1, mem_nodes_append ih.2.2⟩
      | setRoot i =>
        exact ⟨by simp [ChainOp.apply, rootsOf], mem_nodes_append ih.2.2⟩
      | setNode i =>
        exact ⟨mem_roots_append ih.2.1, by simp [ChainOp.apply, nodesOf]⟩
  have hi := (hrun ops [] (by simp)).1
  rw [(hi.validate hsep).2.1, chainGenuine_iff]

theorem three_cases (z : UInt8) (h : z.toNat < 3) : z = 0 ∨ z = 1 ∨ z = 2 := by
  have : z.toNat = 0 ∨ z.toNat = 1 ∨ z.toNat = 2 := by omega
  rcases this with h | h | h
  · exact .inl (UInt8.toNat_inj.1 h)
  · exact .inr (.inl (UInt8.toNat_inj.1 h))
  · exact .inr (.inr (UInt8.toNat_inj.1 h))

/-- A toy chain: root key 5, node key 7, correctly signed. -/
def toyChain : Chain :=
  chainCreate ⟨.root, [1], toyKey 5, none⟩
    ⟨.node, [2], toyKey 7, some ⟨.p521, .sha512, [5, 3, toySum [0, 7]]⟩⟩

/-- The hypotheses of C42 are met by a concrete chain, with a history that hits and misses the
cache. -/
example : (chainValidate toyEngine (chainRun toyEngine toyChain
    [.validate, .copy, .setStatus .invalid, .validate, .validate, .setStatus .valid])).2 = true ↔
    ChainGenuine toyEngine toyChain := by
  apply C42_chain_cache_transparent toyEngine toyChain _ rfl
  · intro op h
    simp only [List.mem_cons, List.not_mem_nil, or_false] at h
    rcases h with rfl | rfl | rfl | rfl | rfl | rfl <;> trivial
  · intro s h; cases h
  · intro s h; cases h; exact ⟨by decide, by decide⟩
  · intro s h; cases h
    rintro a b d ⟨x, hx, rfl⟩ ⟨y, hy, rfl⟩ h1 h2
    rw [← h2] at h1
    have h3 : x = y := by
      have key : ∀ x y : UInt8, x.toNat < 3 → y.toNat < 3 →
          toyEngine.digest ((toyKey 5).pub ++ [5, 3, toySum [0, 7]] ++ (toyKey 7).pub ++ [x]) none .sha512 =
          toyEngine.digest ((toyKey 5).pub ++ [5, 3, toySum [0, 7]] ++ (toyKey 7).pub ++ [y]) none .sha512 →
          x = y := by
        have three := three_cases
        intro x y hx hy
        rcases three x hx with rfl | rfl | rfl <;> rcases three y hy with rfl | rfl | rfl <;> decide
      exact key x y hx hy h1
    rw [h3]
example : ChainGenuine toyEngine toyChain := ⟨_, rfl, by decide⟩

/-- The digest of the signature is not part of the cache key: with the `digest_mode` field of the
node's signature changed (which breaks the signature) a cached chain is still reported valid.  This
is why `C42_cache_notices_replacement` assumes one digest. -/
theorem C42_digest_mode_not_cached : ∃ c : Chain,
    ¬ ChainGenuine toyEngine (ChainOp.apply toyEngine (chainRun toyEngine c [.validate]) (.setNode
      { c.node with sig := c.node.sig.map fun s => { s with digest := .sha256 } })) ∧
    (chainValidate toyEngine (ChainOp.apply toyEngine (chainRun toyEngine c [.validate]) (.setNode
      { c.node with sig := c.node.sig.map fun s => { s with digest := .sha256 } }))).2 = true := by
  refine ⟨toyChain, ?_, by decide⟩
  rw [chainGenuine_iff]; decide

/-! ### C43 -/

/-- The node's fresh status. -/
def freshNode (E : Engine) (r n : Identity) (k : Option EphKey) : Status :=
  if freshStatus E r n = .valid ∧ ephVerifyOwner E k n = true then .valid else .invalid

theorem nodeGenuine_iff {E : Engine} {n : Node} :
    NodeGenuine E n ↔ freshNode E n.chain.root n.chain.node n.eph = .valid := by
  unfold NodeGenuine freshNode
  rw [chainGenuine_iff]
  have : ephVerifyOwner E n.eph n.chain.node = true ↔
      ∃ k, n.eph = some k ∧ Signed E k.sig n.chain.node.key k.key.pub := by
    unfold ephVerifyOwner
    cases n.eph with
    | none => simp
    | some k => simp [verifyOpt_iff]
  rw [← this]
  split <;> simp_all

theorem nodeStatusCache_some {E : Engine} {n : Node} {h : Bytes} (hs : nodeStatusCache E n = some h) :
    ∃ k s, n.eph = some k ∧ k.sig = some s ∧
      E.digest (k.key.pub ++ s.sig ++ [n.status.byte]) none .sha512 = some h := by
  unfold nodeStatusCache at hs
  cases hk : n.eph with
  | none => simp [hk] at hs
  | some k =>
    simp only [hk] at hs
    split at hs
    · next s _ hsig _ =>
      simp only [Option.bind_eq_some_iff] at hs
      obtain ⟨b, hb, hd⟩ := hs
      have := (concatMulti_some.1 hb).1
      refine ⟨k, s, rfl, hsig, ?_⟩
      simp only [List.flatMap_cons, List.flatMap_nil, optBytes, List.append_nil] at this
      subst this
      simpa using hd
    · simp at hs

theorem ephCopy_some {k k' : EphKey} (h : ephCopy k = some k') : k' = k := by
  unfold ephCopy at h
  simp only [Option.bind_eq_some_iff] at h
  obtain ⟨e, he, h⟩ := h
  have e1 := ecKeyCopy_some he
  subst e
  split at h
  · next hs => cases h; obtain ⟨_, _, _⟩ := k; simp_all
  · next s hs =>
    simp only [Option.map_eq_some_iff, ecdsaCopy] at h
    obtain ⟨s', ⟨x, hx, rfl⟩, rfl⟩ := h
    have := (dup_eq_some.1 hx).2
    subst x
    obtain ⟨_, _, _⟩ := k; simp_all

theorem nodeCopy_some {n n' : Node} (h : nodeCopy n = some n')
    (hr : ∀ s, n.chain.root.sig = some s → ValidBuf s.sig)
    (hn : ∀ s, n.chain.node.sig = some s → ValidBuf s.sig) : n' = n := by
  unfold nodeCopy at h
  simp only [Option.bind_eq_some_iff, Option.map_eq_some_iff] at h
  obtain ⟨d, hd, c, hc, k, hk, q, hq, rfl⟩ := h
  have e1 := (dup_eq_some.1 hd).2
  have e2 := chainCopy_some hc hr hn
  have e3 := (dupOpt_eq_some.1 hq).1
  subst d; subst c; subst q
  have e4 : k = n.eph := by
    cases hke : n.eph with
    | none => simp [hke] at hk; exact hk.symm
    | some k0 =>
      simp only [hke, Option.map_eq_some_iff] at hk
      obtain ⟨k1, h1, rfl⟩ := hk
      rw [ephCopy_some h1]
  subst e4; rfl

/-- The invariant behind C43. -/
structure NodeInv (E : Engine) (r n : Identity) (K : EphKey → Prop) (x : Node) : Prop where
  chain : CacheInv E (fun a b => a = r ∧ b = n) x.chain
  status : x.status ≠ .unknown → x.status = freshNode E r n x.eph
  eph : ∀ k, x.eph = some k → K k
  cache : ∀ h, x.cache = some h → ∃ k s st, K k ∧ k.sig = some s ∧ st ≠ Status.unknown ∧
    E.digest (k.key.pub ++ s.sig ++ [st.byte]) none .sha512 = some h

theorem NodeInv.root {E : Engine} {r n : Identity} {K} {x : Node} (h : NodeInv E r n K x) :
    x.chain.root = r ∧ x.chain.node = n := h.chain.1

theorem NodeInv.hit {E : Engine} {r n : Identity} {K} {x : Node} (hi : NodeInv E r n K x)
    (hd : NoCollision E fun b => ∃ k s, K k ∧ k.sig = some s ∧ ∃ y : UInt8, y.toNat < 3 ∧
      b = k.key.pub ++ s.sig ++ [y])
    (hc : nodeHasValidCache E x = true) : x.status = freshNode E r n x.eph := by
  unfold nodeHasValidCache at hc
  cases hcache : x.cache with
  | none => simp [hcache] at hc
  | some h =>
    simp only [hcache] at hc
    split at hc
    · obtain ⟨y, hy, hy'⟩ := bufIsEqual_none.1 hc
      cases hy'
      obtain ⟨k, s, hk, hs, hdig⟩ := nodeStatusCache_some hy
      obtain ⟨k', s', st, hK, hs', hst, hdig'⟩ := hi.cache h hcache
      have := hd _ _ h ⟨k, s, hi.eph k hk, hs, x.status.byte, by cases x.status <;> decide, rfl⟩
        ⟨k', s', hK, hs', st.byte, by cases st <;> decide, rfl⟩ hdig hdig'
      have h3 := (List.append_inj' this rfl).2
      have : x.status = st := status_byte_inj (by simpa using h3)
      exact hi.status (by rw [this]; exact hst)
    · simp at hc

theorem NodeInv.verify {E : Engine} {r n : Identity} {K} {x : Node} (hi : NodeInv E r n K x)
    (hs : CacheSep E (fun a b => a = r ∧ b = n))
    (hd : NoCollision E fun b => ∃ k s, K k ∧ k.sig = some s ∧ ∃ y : UInt8, y.toNat < 3 ∧
      b = k.key.pub ++ s.sig ++ [y]) :
    NodeInv E r n K (nodeVerify E x).1 ∧
    ((nodeVerify E x).2 = true ↔ freshNode E r n x.eph = .valid) ∧
    (nodeVerify E x).1.eph = x.eph := by
  unfold nodeVerify
  by_cases hc : nodeHasValidCache E x = true
  · rw [if_pos hc]
    exact ⟨hi, by simp [hi.hit hd hc], rfl⟩
  · rw [if_neg hc]
    have hv := hi.chain.validate hs
    have hup : ∀ y : Node, y.status ≠ .unknown → (∀ k, y.eph = some k → K k) →
        ∀ h, (nodeUpdateCache E y).cache = some h → ∃ k s st, K k ∧ k.sig = some s ∧
          st ≠ Status.unknown ∧ E.digest (k.key.pub ++ s.sig ++ [st.byte]) none .sha512 = some h := by
      intro y hy hk h hh
      obtain ⟨k, s, h1, h2, h3⟩ := nodeStatusCache_some (show nodeStatusCache E y = some h from hh)
      exact ⟨k, s, y.status, hk k h1, h2, hy, h3⟩
    rcases hcv : chainValidate E x.chain with ⟨c, ok⟩
    rw [hcv] at hv
    obtain ⟨h1, h2, h3, h4, h5⟩ := hv
    simp only at h1 h2 h3 h4 h5
    have hrn := hi.root
    rw [hrn.1, hrn.2] at h2 h5
    cases ok with
    | false =>
      have hf : freshStatus E r n ≠ .valid := fun h => by have := h2.2 h; simp at this
      have hfn : freshNode E r n x.eph = .invalid := by simp [freshNode, hf]
      refine ⟨⟨h1, ?_, hi.eph, ?_⟩, ?_, rfl⟩
      · intro _; exact hfn.symm
      · exact hup _ (by simp) hi.eph
      · simp [hfn]
    | true =>
      have hf : freshStatus E r n = .valid := h2.1 rfl
      have hn : c.node = n := by rw [h4, hrn.2]
      have hfn : freshNode E r n x.eph =
          if ephVerifyOwner E x.eph n = true then .valid else .invalid := by simp [freshNode, hf]
      simp only [Bool.not_true, Bool.false_eq_true, if_false, hn]
      refine ⟨⟨h1, ?_, hi.eph, ?_⟩, ?_, rfl⟩
      · intro _; exact hfn.symm
      · exact hup _ (by show (if _ then _ else _) ≠ _; split <;> simp) hi.eph
      · rw [hfn, h5, hf]; simp

/-- C43, for every history of API calls.  Start from a node without a status cache and with status
unknown (as created or parsed), whose chain has no cache; let any history of verifications, key
rotations, copies and validations of its chain pass.  If SHA-512 does not collide on the byte
strings that are hashed, verification returns what a fresh verification of the chain and of the
current ephemeral key returns.

Partial: replacing the `id_chain` field is not covered, and cannot be, see
`C43_chain_replacement_not_noticed`. -/
theorem C43_node_cache_transparent_partial (E : Engine) (x : Node) (ops : List NodeOp)
    (hcc : x.chain.cache = none) (hx : x.cache = none) (hst : x.status = .unknown)
    (hrv : ∀ s, x.chain.root.sig = some s → ValidBuf s.sig)
    (hnv : ∀ s, x.chain.node.sig = some s → ValidBuf s.sig)
    (hd1 : ∀ s, x.chain.node.sig = some s → NoCollision E fun b => ∃ y : UInt8, y.toNat < 3 ∧
      b = x.chain.root.key.pub ++ s.sig ++ x.chain.node.key.pub ++ [y])
    (hd2 : NoCollision E fun b => ∃ k s, k ∈ ephsOf x ops ∧ k.sig = some s ∧
      ∃ y : UInt8, y.toNat < 3 ∧ b = k.key.pub ++ s.sig ++ [y]) :
    ((nodeVerify E (nodeRun E x ops)).2 = true ↔ NodeGenuine E (nodeRun E x ops)) ∧
    (nodeRun E x ops).chain.root = x.chain.root ∧ (nodeRun E x ops).chain.node = x.chain.node := by
  have hsep : CacheSep E (fun a b => a = x.chain.root ∧ b = x.chain.node) := by
    rintro r n r' n' st st' h ⟨rfl, rfl⟩ ⟨rfl, rfl⟩ h1 h2
    refine ⟨?_, rfl⟩
    obtain ⟨s, hs, h1⟩ := statusCache_some h1
    obtain ⟨s', hs', h2⟩ := statusCache_some h2
    simp only at hs hs'
    rw [hs] at hs'; cases hs'
    have := hd1 s hs _ _ h ⟨st.byte, by cases st <;> decide, rfl⟩ ⟨st'.byte, by cases st' <;> decide, rfl⟩
      h1 h2
    have := List.append_cancel_left this
    exact status_byte_inj (by simpa using this)
  have hrun : ∀ l r : List NodeOp, ops = l ++ r →
      NodeInv E x.chain.root x.chain.node (· ∈ ephsOf x ops) (nodeRun E x l) := by
    intro l
    induction l using snocInd with
    | nil =>
      intro r _
      refine ⟨⟨⟨rfl, rfl⟩, by simp [nodeRun, hcc]⟩, by simp [nodeRun, hst], ?_, by simp [nodeRun, hx]⟩
      intro k hk
      have : x.eph = some k := hk
      simp [ephsOf, this]
    | snoc l op ih =>
      intro r hlr
      have ih := ih ([op] ++ r) (by simpa using hlr)
      have : nodeRun E x (l ++ [op]) = op.apply E (nodeRun E x l) := by simp [nodeRun]
      rw [this]
      have hrn := ih.root
      cases op with
      | verify => exact (ih.verify hsep hd2).1
      | rotate k b =>
        have hk : k ∈ ephsOf x ops := by subst hlr; simp [ephsOf]
        show NodeInv _ _ _ _ (nodeRotate (nodeRun E x l) k b).1
        unfold nodeRotate
        cases b with
        | false =>
          refine ⟨ih.chain, by simp, ?_, ih.cache⟩
          intro k' h'; cases h'; exact hk
        | true =>
          simp only [if_true]
          cases hcp : ephCopy k with
          | none => exact ⟨ih.chain, by simp, by simp, ih.cache⟩
          | some k' =>
            have := ephCopy_some hcp
            subst k'
            refine ⟨ih.chain, by simp, ?_, ih.cache⟩
            intro k' h'; cases h'; exact hk
      | copy =>
        have : (nodeCopy (nodeRun E x l)).getD (nodeRun E x l) = nodeRun E x l := by
          cases h : nodeCopy (nodeRun E x l) with
          | none => rfl
          | some n' => exact nodeCopy_some h (by rw [hrn.1]; exact hrv) (by rw [hrn.2]; exact hnv)
        show NodeInv _ _ _ _ ((nodeCopy (nodeRun E x l)).getD (nodeRun E x l))
        rw [this]; exact ih
      | validateChain =>
        exact ⟨(ih.chain.validate hsep).1, ih.status, ih.eph, ih.cache⟩
  have hi := hrun ops [] (by simp)
  refine ⟨?_, hi.root.1, hi.root.2⟩
  rw [(hi.verify hsep hd2).2.1, nodeGenuine_iff, hi.root.1, hi.root.2]

/-- A toy node: the toy chain with a correctly signed ephemeral key. -/
def toyNode : Node :=
  nodeCreate [9] toyChain (some ⟨1, toyKey 11, some ⟨.p521, .sha512, [7, 3, toySum [0, 11]]⟩⟩)

/-- An unsigned ephemeral key for the toy node. -/
def toyBadEph : EphKey := ⟨2, toyKey 13, some ⟨.p521, .sha512, [8]⟩⟩

/-- The hypotheses of C43 are met by a concrete node, whose genuine key is rotated to one with a
bad signature: the cached answer "valid" is not reused. -/
example : ((nodeVerify toyEngine (nodeRun toyEngine toyNode
      [.verify, .copy, .verify, .rotate toyBadEph true])).2 = true ↔
    NodeGenuine toyEngine (nodeRun toyEngine toyNode
      [.verify, .copy, .verify, .rotate toyBadEph true])) := by
  refine (C43_node_cache_transparent_partial toyEngine toyNode _ rfl rfl rfl ?_ ?_ ?_ ?_).1
  · intro s h; cases h
  · intro s h; cases h; exact ⟨by decide, by decide⟩
  · intro s h; cases h
    rintro a b d ⟨x, hx, rfl⟩ ⟨y, hy, rfl⟩ h1 h2
    rw [← h2] at h1
    have three := three_cases
    rcases three x hx with rfl | rfl | rfl <;> rcases three y hy with rfl | rfl | rfl <;>
      first
      | rfl
      | exact absurd h1 (by decide)
  · rintro a b d ⟨k, s, hk, hs, x, hx, rfl⟩ ⟨k', s', hk', hs', y, hy, rfl⟩ h1 h2
    rw [← h2] at h1
    have three := three_cases
    simp only [ephsOf, toyNode, nodeCreate, Option.toList, List.filterMap_cons, List.filterMap_nil,
      List.cons_append, List.nil_append, List.mem_cons, List.not_mem_nil, or_false] at hk hk'
    rcases hk with rfl | rfl <;> rcases hk' with rfl | rfl <;> cases hs <;> cases hs' <;>
    rcases three x hx with rfl | rfl | rfl <;> rcases three y hy with rfl | rfl | rfl <;>
      first
      | rfl
      | exact absurd h1 (by decide)
example : (nodeVerify toyEngine (nodeRun toyEngine toyNode [.verify, .copy])).2 = true := by decide
example : (nodeVerify toyEngine (nodeRun toyEngine toyNode
    [.verify, .copy, .verify, .rotate toyBadEph true])).2 = false := by decide

/-- C43 is false when the identity chain of the node is replaced (the header lets the user do so
and says caches are recalculated on changes): the node cache covers the ephemeral key and its signature
only, so a node verified once and then given another identity's chain, validated on its own, is still
reported valid although its key was never signed by that identity. -/
theorem C43_chain_replacement_not_noticed : ∃ (n : Node) (c : Chain),
    (nodeVerify toyEngine n).2 = true ∧
    ¬ NodeGenuine toyEngine { (nodeVerify toyEngine n).1 with chain := (chainValidate toyEngine c).1 } ∧
    (nodeVerify toyEngine
      { (nodeVerify toyEngine n).1 with chain := (chainValidate toyEngine c).1 }).2 = true := by
  refine ⟨toyNode, chainCreate ⟨.root, [1], toyKey 21, none⟩
    ⟨.node, [2], toyKey 23, some ⟨.p521, .sha512, [21, 3, toySum [0, 23]]⟩⟩, by decide, ?_, by decide⟩
  rw [nodeGenuine_iff]; decide

/-- … and even when the new chain itself is invalid. -/
theorem C43_invalid_chain_not_noticed : ∃ (n : Node) (c : Chain),
    (nodeVerify toyEngine n).2 = true ∧ (chainValidate toyEngine c).2 = false ∧
    (nodeVerify toyEngine
      { (nodeVerify toyEngine n).1 with chain := (chainValidate toyEngine c).1 }).2 = true :=
  ⟨toyNode, chainCreate ⟨.root, [1], toyKey 21, none⟩
    ⟨.node, [2], toyKey 23, some ⟨.p521, .sha512, [0]⟩⟩, by decide, by decide, by decide⟩

end Wickr
