import Verif.Lemmas.ViewSpecsCtx
import Verif.Lemmas.Refute
import Verif.Props.VerifyMem
/-
Contexts in memory, and runs of functions whose arguments are parts of an object.
-/
namespace Wickr
open Asrt Spec

local macro "dead!" : term => `((do store none (Cell.raw 0); Pure.pure none : H Ptr))

/-- A key pair of the toy engine; `toyRootOf 5 6` has a private key that does not belong to the public key. -/
def mkToyKey (s t : UInt8) : H Ptr := do
  let b ← litBuf [0, s]
  let p ← litBuf [48, t]
  hKeyCreate .p521 b p

abbrev exToyKey (s t : UInt8) : EcKey := ⟨.p521, [0, s], some [48, t]⟩

theorem mkToyKey_spec (c : Rules) (f : Bool) (hc : c.crash) (s t : UInt8) :
    Triple c f emp (mkToyKey s t) (fun r _ => made isKey (exToyKey s t) r) := by
  unfold mkToyKey
  sgo

def mkToyCKey (s : UInt8) : H Ptr := do
  let b ← litBuf (List.replicate 32 s)
  hCKeyCreate .gcm b

abbrev exToyCKey (s : UInt8) : CipherKey := ⟨.gcm, List.replicate 32 s⟩

theorem mkToyCKey_spec (c : Rules) (f : Bool) (hc : c.crash) (s : UInt8) :
    Triple c f emp (mkToyCKey s) (fun r _ => made isCKey (exToyCKey s) r) := by
  unfold mkToyCKey
  have hl : (List.replicate 32 s).length = Cipher.gcm.keyLen := rfl
  sgo

def mkToyRoot (s t : UInt8) : H Ptr := do
  let r ← mkToyKey s t
  let k ← mkToyCKey 1
  let l ← mkToyCKey 2
  onNull (hRootCreate r k l) dead! fun p => pure p

abbrev exToyRoot (s t : UInt8) : RootKeys := ⟨exToyKey s t, exToyCKey 1, exToyCKey 2⟩

theorem mkToyRoot_spec (c : Rules) (f : Bool) (hc : c.crash) (s t : UInt8) :
    Triple c f emp (mkToyRoot s t) (fun r _ => made isRoot (exToyRoot s t) r) := by
  unfold mkToyRoot
  sgo

abbrev exHeader : CipherKey := (genHeaderKey toyEngine defaultCipher exChain).getD (exToyCKey 0)

/-- A device with a given salt, with or without a salt of the system. -/
def mkToyDev (b : Bytes) (salted : Bool) : H Ptr := do
  let p ← litBuf b
  let q ← if salted then litBuf [14] else pure none
  let r ← litBuf [15]
  let t ← litBuf [16]
  onNull (hDevCreate p q r t) dead! fun p => pure p

abbrev exToyDev (b : Bytes) (salted : Bool) : DevInfo := ⟨b, if salted then some [14] else none, [15], [16]⟩

theorem mkToyDev_spec (c : Rules) (f : Bool) (hc : c.crash) (b : Bytes) (salted : Bool) (hb : 0 < b.length ∧ b.length ≤ 1000) :
    Triple c f emp (mkToyDev b salted) (fun r _ => made isDev (exToyDev b salted) r) := by
  unfold mkToyDev exToyDev
  cases salted <;> simp only [if_true, if_false, Bool.false_eq_true] <;> sgo

def mkCtx (b : Bytes) (salted : Bool) : H Ptr := do
  let d ← mkToyDev b salted
  let ch ← mkChain
  let st ← mkStorage
  onNull (hCtxCreate toyEngine d ch st) dead! fun p => pure p

abbrev exCtx (b : Bytes) (salted : Bool) : Ctx := ⟨exToyDev b salted, exChain, exStorage, exHeader, 4⟩

theorem mkCtx_spec (c : Rules) (f : Bool) (hc : c.crash) (b : Bytes) (salted : Bool) (hb : 0 < b.length ∧ b.length ≤ 1000) :
    Triple c f emp (mkCtx b salted) (fun r _ => made isCtx (exCtx b salted) r) := by
  unfold mkCtx
  sgo
  refine Triple.onNullS (hCtxCreate_spec toyEngine_fits c _ hc _ _ _ _ _ _ ?_) (by frame) ?_ ?_ ?_
  · have hl : ((toyEngine.digest exChain.root.identifier (some exChain.node.identifier) (digestMatchingCipher defaultCipher)).map
        List.length).all (· = defaultCipher.keyLen) = true := by decide +kernel
    intro x hx h
    simp [hx, h] at hl
  · intro f1 _ _; sgo
  · intro f1 _ hn
    have hg : genHeaderKey toyEngine defaultCipher exChain = some exHeader := by decide +kernel
    simp [ctxCreate, hg] at hn
  · intro q f1 v _ hv
    have hg : genHeaderKey toyEngine defaultCipher exChain = some exHeader := by decide +kernel
    simp only [ctxCreate, hg, Option.map_some, Option.some.injEq] at hv
    subst hv
    sgo

def mkGen (b : Bytes) (salted : Bool) (s t : UInt8) : H Ptr := do
  let x ← mkCtx b salted
  let k ← mkToyCKey 3
  let r ← mkToyRoot s t
  onNull (hGenCreate x k r) dead! fun p => pure p

abbrev exGen (b : Bytes) (salted : Bool) (s t : UInt8) : GenResult := ⟨exCtx b salted, exToyCKey 3, exToyRoot s t⟩

theorem mkGen_spec (c : Rules) (f : Bool) (hc : c.crash) (b : Bytes) (salted : Bool) (s t : UInt8)
    (hb : 0 < b.length ∧ b.length ≤ 1000) :
    Triple c f emp (mkGen b salted s t) (fun r _ => made isGen (exGen b salted s t) r) := by
  unfold mkGen
  sgo

/-! ### Parts of objects -/

/-- Follows pointers. -/
def Heap.follow (h : Heap) : List Nat → Addr → Option Addr
  | [], a => some a
  | i :: l, a =>
    match h a with
    | some (.obj _ fs) => (fs.getD i none).bind (Heap.follow h l)
    | _ => none

/-- The parts of the result of making a context: device, salt of the device, identifier of the root, recovery key, root keys,
root signature key, context. -/
structure GenParts where
  dev : Addr
  data : Addr
  rid : Addr
  key : Addr
  root : Addr
  sig : Addr
  ctx : Addr

def Heap.genParts (h : Heap) (a : Addr) : Option GenParts := do
  return ⟨← h.follow [0, 0] a, ← h.follow [0, 0, 0] a, ← h.follow [0, 1, 0, 0] a, ← h.follow [1] a, ← h.follow [2] a,
    ← h.follow [2, 0] a, ← h.follow [0] a⟩

/-- What is known about the parts. -/
structure GenParts.Has (x : GenParts) (h : Heap) (g : GenResult) : Prop where
  dev : Spec.Has isDev h x.dev g.ctx.dev
  data : Spec.Has isBuf h x.data g.ctx.dev.devSalt
  rid : Spec.Has isBuf h x.rid g.ctx.chain.root.identifier
  key : Spec.Has isCKey h x.key g.recoveryKey
  root : Spec.Has isRoot h x.root g.rootKeys
  sig : Spec.Has isKey h x.sig g.rootKeys.sigRoot
  ctx : Spec.Has isCtx h x.ctx g.ctx

theorem genParts_has {h : Heap} {a : Addr} {g : GenResult} {x : GenParts} (ha : Has isGen h a g) (hx : h.genParts a = some x) :
    x.Has h g := by
  obtain ⟨⟨d, ch, st, k, n⟩, rk, rt⟩ := g
  sview ha isGen
  rename_i p q r h0 h1 h2 h3
  have h1' := h1
  sview h1 isCtx
  rename_i p' q' r' k' g0 g1 g2 g3 g4
  have g1' := g1
  obtain ⟨s1, s2, s3, s4⟩ := d
  sview g1 isDev
  rename_i _ _ _ _ d0 d1 d2 d3 d4
  obtain ⟨cr, cn, cs, cc⟩ := ch
  sview g2 isChain
  rename_i _ _ _ c0 c1 c2 c3
  obtain ⟨i1, i2, i3, i4⟩ := cr
  sview c1 isId
  rename_i _ _ _ j0 j1 j2 j3
  have h3' := h3
  obtain ⟨k1, k2, k3⟩ := rt
  sview h3 isRoot
  rename_i _ _ _ r0 r1 r2 r3
  simp [Heap.genParts, Heap.follow, h0, g0, d0, c0, j0, r0] at hx
  subst hx
  exact ⟨g1', d1, j1, h2, h3', r1, h1'⟩

theorem genParts_some {h : Heap} {a : Addr} {g : GenResult} (ha : Has isGen h a g) : ∃ x, h.genParts a = some x ∧ x.Has h g := by
  have key : ∃ x, h.genParts a = some x := by
    obtain ⟨⟨d, ch, st, k, n⟩, rk, rt⟩ := g
    sview ha isGen
    rename_i p q r h0 h1 h2 h3
    sview h1 isCtx
    rename_i p' q' r' k' g0 g1 g2 g3 g4
    obtain ⟨s1, s2, s3, s4⟩ := d
    sview g1 isDev
    rename_i _ _ _ _ d0 d1 d2 d3 d4
    obtain ⟨cr, cn, cs, cc⟩ := ch
    sview g2 isChain
    rename_i _ _ _ c0 c1 c2 c3
    obtain ⟨i1, i2, i3, i4⟩ := cr
    sview c1 isId
    rename_i _ _ _ j0 j1 j2 j3
    obtain ⟨k1, k2, k3⟩ := rt
    sview h3 isRoot
    rename_i _ _ _ r0 r1 r2 r3
    simp [Heap.genParts, Heap.follow, h0, g0, d0, c0, j0, r0]
  obtain ⟨x, hx⟩ := key
  exact ⟨x, hx, genParts_has ha hx⟩

/-! ### Refuting statements about functions of the parts -/

section
variable {W : Type} {mk : H Ptr} {g : GenResult} {args : GenParts → Heap → Prop}

theorem run_parts {α : Type} {m : GenParts → H α} (P : St → Out α → Bool) (fail : List Nat)
    (hm : Triple free4all false emp mk (fun r _ => made isGen g r)) (ha : ∀ h x, GenParts.Has x h g → args x h)
    (hb : (match built mk with
      | some (a, s) => (match s.heap.genParts a with
        | some x => P s (m x (bump fail) s)
        | none => false)
      | none => false) = true) :
    ∃ (s : St) (x : GenParts), s.oom = false ∧ args x s.heap ∧ P s (m x (bump fail) s) = true := by
  revert hb
  cases e : built mk with
  | none => exact fun h => nomatch h
  | some p =>
    intro hb
    obtain ⟨h1, h2⟩ := built_has hm (e : built mk = some (p.1, p.2))
    obtain ⟨x, hx, h3⟩ := genParts_some h2
    simp only [hx] at hb
    exact ⟨p.2, x, h1, ha _ _ h3, hb⟩

theorem not_computes_parts {m : GenParts → H Ptr} {R' : Addr → W → Asrt} {L : W → W → Prop} {y : Option W} (a : Addr)
    (hm : Triple free4all false emp mk (fun r _ => made isGen g r)) (ha : ∀ h x, GenParts.Has x h g → args x h)
    (hb : (match built mk with
      | some (a', s) => (match s.heap.genParts a' with
        | some x => (fun s o => Out.bad a s o) s (m x (bump []) s)
        | none => false)
      | none => false) = true) : ¬ ∀ x, ComputesUpTo L (args x) R' y (m x) := by
  intro h
  obtain ⟨s, x, h1, h2, h3⟩ := run_parts (fun s o => Out.bad a s o) [] hm ha hb
  have := h x (bump []) s h1 h2
  revert this h3
  cases m x (bump []) s with
  | ub => exact fun h => nomatch h
  | crash s' => intro h h'; simp [Out.bad] at h; simp [h] at h'
  | ret r s' =>
    cases r with
    | some b => exact fun h => nomatch h
    | none =>
      intro h h'
      simp [Out.bad] at h
      exact h.1 (congrFun (h'.2.2 h.2) a)

theorem not_tidy_parts {m : GenParts → H Ptr} {R' : Addr → W → Asrt} (fail : List Nat) (a : Addr)
    (hm : Triple free4all false emp mk (fun r _ => made isGen g r)) (ha : ∀ h x, GenParts.Has x h g → args x h)
    (hb : (match built mk with
      | some (a', s) => (match s.heap.genParts a' with
        | some x => (fun s o => Out.left a s o) s (m x (bump fail) s)
        | none => false)
      | none => false) = true) : ¬ ∀ x, Tidy (args x) R' (m x) := by
  intro h
  obtain ⟨s, x, h1, h2, h3⟩ := run_parts (fun s o => Out.left a s o) fail hm ha hb
  have := h x (bump fail) s h1 h2
  revert this h3
  cases m x (bump fail) s with
  | ub => exact fun h => nomatch h
  | crash s' => exact fun h => nomatch h
  | ret r s' =>
    cases r with
    | some b => exact fun h => nomatch h
    | none =>
      intro h h'
      dsimp only at h h'
      simp [Out.left, h'] at h

theorem not_sturdy_parts {α : Type} {m : GenParts → H α} (fail : List Nat)
    (hm : Triple free4all false emp mk (fun r _ => made isGen g r)) (ha : ∀ h x, GenParts.Has x h g → args x h)
    (hb : (match built mk with
      | some (a', s) => (match s.heap.genParts a' with
        | some x => (fun _ o => o.isCrash) s (m x (bump fail) s)
        | none => false)
      | none => false) = true) : ¬ ∀ x, Sturdy (args x) (m x) := by
  intro h
  obtain ⟨s, x, h1, h2, h3⟩ := run_parts (fun _ o => o.isCrash) fail hm ha hb
  have := h x (bump fail) s h1 h2
  revert this h3
  cases m x (bump fail) s with
  | ub => exact fun h => nomatch h
  | ret r s' => exact fun h => nomatch h
  | crash s' => exact fun _ h => h s' rfl
end

end Wickr
