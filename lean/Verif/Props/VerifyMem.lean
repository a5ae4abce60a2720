import Verif.Lemmas.SepNode
import Verif.Props.Identity
import Verif.Lemmas.Fits
import Verif.Lemmas.Engine
import Verif.Lemmas.Witness
import Verif.Spec.Verify
/-
C89: verification of chains and nodes does not depend on memory.
-/
namespace Wickr
open Asrt Spec

variable {E : Engine}

theorem honest_cached {ch : Chain} (hh : ChainHonest E ch) (hv : chainHasValidCache E ch = true) :
    ch.status = .valid ↔ ChainGenuine E ch := by
  unfold chainHasValidCache at hv
  cases e : ch.cache with
  | none => simp [e] at hv
  | some d =>
    cases e1 : chainStatusCache E ch with
    | none => simp [e, e1, bufIsEqual] at hv
    | some d' =>
      obtain ⟨s, hs, h1⟩ := statusCache_some e1
      refine hh d s e hs ?_
      simp [e, e1, bufIsEqual] at hv
      rw [h1]
      simp [hv]

theorem outcome_chain {ch ch' : Chain} {ok f : Bool} (hh : ChainHonest E ch) (ho : ChainOutcome E ch ok f ch') :
    (ok = true ↔ ChainGenuine E ch) ∧ ChainHonest E ch' ∧ SameKeys ch ch' ∧ (ok = true → ch'.status = .valid) := by
  rcases ho.1 with ⟨h1, rfl, rfl⟩ | ⟨h1, x, rfl, h2⟩
  · refine ⟨?_, hh, ⟨rfl, rfl⟩, by simp⟩
    simp [honest_cached hh h1]
  · have hg : ok = true ↔ ChainGenuine E ch := by rw [h1]; exact verifyOpt_iff
    refine ⟨hg, ?_, ⟨rfl, rfl⟩, fun h => by simp [h]⟩
    intro d s _ _ _
    show (if ok = true then Status.valid else .invalid) = _ ↔ ChainGenuine E ch
    rw [← hg]
    cases ok <;> simp

theorem ownerGenuine_iff {n : Node} : ephVerifyOwner E n.eph n.chain.node = true ↔
    ∃ k, n.eph = some k ∧ Signed E k.sig n.chain.node.key k.key.pub := by
  unfold ephVerifyOwner
  cases n.eph with
  | none => simp
  | some k => simp [verifyOpt_iff]

theorem node_honest_cached {n : Node} (hh : NodeHonest E n) (hv : nodeHasValidCache E n = true) :
    n.status = .valid ↔ NodeGenuine E n := by
  unfold nodeHasValidCache at hv
  cases e : n.cache with
  | none => simp [e] at hv
  | some d =>
    cases e1 : nodeStatusCache E n with
    | none => simp [e, e1, bufIsEqual] at hv
    | some d' =>
      obtain ⟨k, s, hk, hs, h1⟩ := nodeStatusCache_some e1
      refine hh.2 d k s e hk hs ?_
      simp [e, e1, bufIsEqual] at hv
      rw [h1]
      simp [hv]

theorem outcome_node {n n' : Node} {ok f : Bool} (hh : NodeHonest E n) (ho : NodeOutcome E n ok f n') :
    (ok = true ↔ NodeGenuine E n) ∧ NodeHonest E n' ∧ SameKeys n.chain n'.chain ∧ n'.eph = n.eph ∧ n'.devId = n.devId := by
  rcases ho.1 with ⟨h1, rfl, rfl⟩ | ⟨ch', cok, x, hc, rfl, h2, h3⟩
  · refine ⟨?_, hh, ⟨rfl, rfl⟩, rfl, rfl⟩
    simp [node_honest_cached hh h1]
  · obtain ⟨hg, hh', hk, hst⟩ := outcome_chain hh.1 hc
    have hgn : (cok && ephVerifyOwner E n.eph n.chain.node) = true ↔ NodeGenuine E n := by
      rw [Bool.and_eq_true, hg, ownerGenuine_iff]
      rfl
    refine ⟨?_, ⟨hh', ?_⟩, hk, rfl, rfl⟩
    · rw [← hgn, h3]
      cases cok with
      | false => simp
      | true => simp [hst]
    · intro d k s _ _ _ _
      have : NodeGenuine E { n with chain := ch', status := if (cok && ephVerifyOwner E n.eph n.chain.node) = true then .valid else .invalid, cache := x } ↔
          NodeGenuine E n := by
        unfold NodeGenuine ChainGenuine
        dsimp only
        rw [hk.1, hk.2]
      rw [this, ← hgn]
      cases (cok && ephVerifyOwner E n.eph n.chain.node) <;> simp

/-- Nothing is asked of what is released. -/
abbrev anyRules : Rules := { pub := fun _ => True, crash := True }

theorem chain_shown (ch : Chain) : ch.Shown E anyRules := ⟨fun _ _ _ => trivial, fun _ _ => trivial, fun _ _ => trivial⟩
theorem node_shown (n : Node) : n.Shown E anyRules := ⟨chain_shown _, fun _ _ _ _ => trivial, fun _ _ => trivial, fun _ _ => trivial⟩

/-- `wickr_identity_chain_validate` on a chain whose stored result tells the truth, whatever the allocator does: the answer is
whether the root signed the node's key, the stored result still tells the truth, the identities are as they were, and nothing
else in memory changes.  If no allocation fails, chain and answer are those of the value model. -/
theorem C89_chain (hE : E.Fits) (A : Alloc) (s : St) (a : Addr) (ch : Chain) (rest : Heap) (hh : ChainHonest E ch)
    (hs : (isChain a ch ∗ keep rest) s.heap) :
    match hChainValidate E (some a) A s with
    | .ub => False
    | .crash s' => s'.oom = true
    | .ret ok s' => (ok = true ↔ ChainGenuine E ch) ∧ ∃ ch', (isChain a ch' ∗ keep rest) s'.heap ∧ ChainHonest E ch' ∧
        SameKeys ch ch' ∧ (s'.oom = false → (ch', ok) = chainValidate E ch) := by
  have hd := chain_shown (E := E) ch
  have := hChainValidate_spec hE anyRules s.oom trivial a ch hd.input hd.cache hd.current A s (keep rest) rfl hs
  revert this
  cases hChainValidate E (some a) A s with
  | ub => exact id
  | crash s' => exact fun h => h.2.1
  | ret ok s' =>
    rintro ⟨hq, -, -⟩
    dsimp only at hq
    rw [Asrt.ex_star] at hq
    obtain ⟨ch', hq⟩ := hq
    rw [Asrt.star_assoc] at hq
    obtain ⟨ho, hq⟩ := Asrt.pure_star.1 hq
    obtain ⟨h1, h2, h3, -⟩ := outcome_chain hh ho
    exact ⟨h1, ch', hq, h2, h3, ho.2⟩

/-- `wickr_node_verify_signature_chain`, in the same way: the answer is whether the root signed the node's key and the node signed
the ephemeral key, which is there. -/
theorem C89_node (hE : E.Fits) (A : Alloc) (s : St) (a : Addr) (n : Node) (rest : Heap) (hh : NodeHonest E n)
    (hs : (isNode a n ∗ keep rest) s.heap) :
    match hNodeVerify E (some a) A s with
    | .ub => False
    | .crash s' => s'.oom = true
    | .ret ok s' => (ok = true ↔ NodeGenuine E n) ∧ ∃ n', (isNode a n' ∗ keep rest) s'.heap ∧ NodeHonest E n' ∧
        SameKeys n.chain n'.chain ∧ n'.eph = n.eph ∧ n'.devId = n.devId ∧ (s'.oom = false → (n', ok) = nodeVerify E n) := by
  have := hNodeVerify_spec hE anyRules s.oom trivial a n (node_shown n) A s (keep rest) rfl hs
  revert this
  cases hNodeVerify E (some a) A s with
  | ub => exact id
  | crash s' => exact fun h => h.2.1
  | ret ok s' =>
    rintro ⟨hq, -, -⟩
    dsimp only at hq
    rw [Asrt.ex_star] at hq
    obtain ⟨n', hq⟩ := hq
    rw [Asrt.star_assoc] at hq
    obtain ⟨ho, hq⟩ := Asrt.pure_star.1 hq
    obtain ⟨h1, h2, h3, h4, h5⟩ := outcome_node hh ho
    exact ⟨h1, n', hq, h2, h3, h4, h5, ho.2⟩

theorem genuine_same {c c' : Chain} (h : SameKeys c c') : ChainGenuine E c' ↔ ChainGenuine E c := by
  unfold ChainGenuine; rw [h.1, h.2]

theorem nodeGenuine_same {n n' : Node} (h : SameKeys n.chain n'.chain) (he : n'.eph = n.eph) : NodeGenuine E n' ↔ NodeGenuine E n := by
  unfold NodeGenuine; rw [genuine_same h, h.2, he]

/-- Any number of validations of a chain without a stored result, each with its own allocator: every answer is right. -/
theorem C89_chain_history (hE : E.Fits) (As : List Alloc) (s : St) (a : Addr) (ch : Chain) (rest : Heap) (hc : ch.cache = none)
    (hs : (isChain a ch ∗ keep rest) s.heap) (bs : List Bool) (s' : St)
    (hr : callMany (hChainValidate E (some a)) As s = some (bs, s')) :
    bs.length = As.length ∧ ∀ b ∈ bs, (b = true ↔ ChainGenuine E ch) := by
  have hh : ChainHonest E ch := fun d _ h => by simp [hc] at h
  clear hc
  induction As generalizing s ch bs s' with
  | nil => simp [callMany] at hr; simp [hr.1]
  | cons A As ih =>
    have := C89_chain hE A s a ch rest hh hs
    unfold callMany at hr
    cases e : hChainValidate E (some a) A s with
    | ub => simp [e] at hr
    | crash s1 => simp [e] at hr
    | ret b s1 =>
      simp only [e] at hr this
      obtain ⟨h1, ch', h2, h3, h4, -⟩ := this
      simp only [Option.map_eq_some_iff] at hr
      obtain ⟨⟨bs', s2⟩, hr, he⟩ := hr
      simp at he
      obtain ⟨rfl, rfl⟩ := he
      obtain ⟨l, hb⟩ := ih s1 ch' h2 bs' s2 hr h3
      refine ⟨by simp [l], ?_⟩
      intro b' hb'
      rcases List.mem_cons.1 hb' with rfl | hb'
      · exact h1
      · rw [hb b' hb', genuine_same h4]

/-- The same for nodes. -/
theorem C89_node_history (hE : E.Fits) (As : List Alloc) (s : St) (a : Addr) (n : Node) (rest : Heap) (hc : n.chain.cache = none)
    (hn : n.cache = none) (hs : (isNode a n ∗ keep rest) s.heap) (bs : List Bool) (s' : St)
    (hr : callMany (hNodeVerify E (some a)) As s = some (bs, s')) :
    bs.length = As.length ∧ ∀ b ∈ bs, (b = true ↔ NodeGenuine E n) := by
  have hh : NodeHonest E n := ⟨fun d _ h => by simp [hc] at h, fun d _ _ h => by simp [hn] at h⟩
  clear hc hn
  induction As generalizing s n bs s' with
  | nil => simp [callMany] at hr; simp [hr.1]
  | cons A As ih =>
    have := C89_node hE A s a n rest hh hs
    unfold callMany at hr
    cases e : hNodeVerify E (some a) A s with
    | ub => simp [e] at hr
    | crash s1 => simp [e] at hr
    | ret b s1 =>
      simp only [e] at hr this
      obtain ⟨h1, n', h2, h3, h4, h5, -⟩ := this
      simp only [Option.map_eq_some_iff] at hr
      obtain ⟨⟨bs', s2⟩, hr, he⟩ := hr
      simp at he
      obtain ⟨rfl, rfl⟩ := he
      obtain ⟨l, hb⟩ := ih s1 n' h2 bs' s2 hr h3
      refine ⟨by simp [l], ?_⟩
      intro b' hb'
      rcases List.mem_cons.1 hb' with rfl | hb'
      · exact h1
      · rw [hb b' hb', nodeGenuine_same h4 h5]

theorem toyEngine_fits : toyEngine.Fits := defaultEngine_fits toyPrim_lawful toyPrim_sized

/-- The sizes asked for are those of the default engine. -/
example (P : Prim) (hP : P.Lawful) (hS : P.Sized) : (defaultEngine P).Fits := defaultEngine_fits hP hS

/-- There are chains and nodes in memory, and a chain without a stored result is honest. -/
example : ∃ (s : St) (a : Addr), s.oom = false ∧ Has isChain s.heap a exChain := exists_has (mkChain_spec _ _ trivial) (by decide +kernel)
example : ∃ (s : St) (a : Addr), s.oom = false ∧ Has isNode s.heap a exNode := exists_has (mkNode_spec _ _ trivial) (by decide +kernel)
example (E : Engine) : ChainHonest E exChain := fun d _ h => by simp at h
example (E : Engine) : NodeHonest E exNode := ⟨fun d _ h => by simp at h, fun d _ _ h => by simp at h⟩

/-- A root makes a node identity; the chain of the two. -/
def demoChain : H Ptr := do
  let pub ← litBuf [0, 3]
  let pri ← litBuf [48, 3]
  let k ← hKeyCreate .p521 pub pri
  let i ← litBuf [7]
  let root ← hIdCreate .root i k none
  let node ← hNodeIdentityGen toyEngine root none .p521 [0, 4] [48, 4] [9, 9] [1]
  hChainCreate root node

def demoAnswer (fail : List Nat) (twice : Bool) : Option Bool :=
  match (do
    let c ← demoChain
    let b ← hChainValidate toyEngine c
    if twice then hChainValidate toyEngine c else pure b) (bump fail) St.init with
  | .ret b _ => some b
  | _ => none

/-- The answer is `true` with enough memory, from the stored result, and when the stored result cannot be computed. -/
example : demoAnswer [] false = some true ∧ demoAnswer [] true = some true ∧ demoAnswer [20] false = some true := by decide +kernel

end Wickr
