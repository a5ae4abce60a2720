import Verif.Lemmas.SepObj
import Verif.Spec.Memory
/-
Objects in memory that is only looked at, and may share blocks: `Has`.
-/
namespace Wickr
open Asrt Spec

theorem HasOpt.null {V : Type _} {R : Addr → V → Asrt} {h : Heap} : HasOpt R h none none := trivial
theorem HasOpt.of {V : Type} {R : Addr → V → Asrt} {h : Heap} {a : Addr} {v : V} (hh : Has R h a v) :
    HasOpt R h (some a) (some v) := hh

macro_rules | `(tactic| sheld) => `(tactic| first | assumption | exact HasOpt.null | exact HasOpt.of (by assumption))

theorem view_mono {P Q : Asrt} {h : Heap} (hp : ∀ x, P x → Q x) (hh : (P ∗ any) h) : (Q ∗ any) h := Asrt.star_mono hp hh

theorem view_star {P Q : Asrt} {h : Heap} (hh : ((P ∗ Q) ∗ any) h) : (P ∗ any) h ∧ (Q ∗ any) h := by
  constructor
  · rw [Asrt.star_assoc] at hh
    exact Asrt.star_mono_r (fun _ _ => trivial) hh
  · rw [Asrt.star_comm P, Asrt.star_assoc] at hh
    exact Asrt.star_mono_r (fun _ _ => trivial) hh

theorem view_ex {α : Sort _} {P : α → Asrt} {h : Heap} (hh : (Asrt.ex P ∗ any) h) : ∃ x, (P x ∗ any) h := by
  rw [Asrt.ex_star] at hh; exact hh

theorem view_pure {φ : Prop} {h : Heap} (hh : ((⌜φ⌝ : Asrt) ∗ any) h) : φ := (Asrt.pure_star.1 hh).1

theorem view_cell {a : Addr} {x : Cell} {h : Heap} (hh : ((a ↦ x) ∗ any) h) : h a = some x := (cell_star.1 hh).1

theorem view_opt {V : Type _} {R : Addr → V → Asrt} {p : Ptr} {v : Option V} {h : Heap} (hh : (optRep R p v ∗ any) h) :
    HasOpt R h p v := by
  cases p <;> cases v
  · trivial
  · exact view_pure hh
  · exact view_pure hh
  · exact hh

/-! ### More memory -/

/-- Everything in `h` is in `h'`. -/
def Heap.Sub (h h' : Heap) : Prop := ∀ a x, h a = some x → h' a = some x

theorem Heap.Sub.trans {h h' h'' : Heap} (h1 : h.Sub h') (h2 : h'.Sub h'') : h.Sub h'' := fun a x hx => h2 a x (h1 a x hx)

theorem view_sub {P : Asrt} {h h' : Heap} (hs : h.Sub h') (hh : (P ∗ any) h) : (P ∗ any) h' := by
  obtain ⟨h1, h2, hd, rfl, hp, -⟩ := hh
  refine ⟨h1, fun a => if h1 a = none then h' a else none, ?_, ?_, hp, trivial⟩
  · intro a
    by_cases ha : h1 a = none
    · exact Or.inl ha
    · exact Or.inr (by simp [ha])
  · funext a
    cases ha : h1 a with
    | none => simp [ha]
    | some x => simp [hs a x (by simp [ha])]

theorem Has.sub {V : Type} {R : Addr → V → Asrt} {h h' : Heap} {a : Addr} {v : V} (hh : Has R h a v) (hs : h.Sub h') :
    Has R h' a v := view_sub hs hh

theorem HasOpt.sub {V : Type _} {R : Addr → V → Asrt} {h h' : Heap} {p : Ptr} {v : Option V} (hh : HasOpt R h p v) (hs : h.Sub h') :
    HasOpt R h' p v := by
  cases p <;> cases v
  · trivial
  · exact hh
  · exact hh
  · exact view_sub hs hh

theorem keep_sub_left {h' h h1 : Heap} (e : keep h' = keep h ∗ keep h1) : h.Sub h' := by
  have : keep h' h' := rfl
  rw [e] at this
  obtain ⟨x, y, hd, rfl, rfl, rfl⟩ := this
  intro a v hv
  simp [hv]

theorem keep_sub_right {h' h h1 : Heap} (e : keep h' = keep h ∗ keep h1) : h1.Sub h' :=
  keep_sub_left (e.trans (Asrt.star_comm _ _))

theorem has_of {V : Type} {R : Addr → V → Asrt} {h : Heap} {a : Addr} {v : V} (hh : R a v h) : Has R h a v := by
  show (R a v ∗ any) h
  rw [← Asrt.star_emp (R a v)] at hh
  exact Asrt.star_mono_r (fun _ _ => trivial) hh

/-! ### Programs -/

/-- Looking at a piece of memory that has what a program needs. -/
theorem Triple.view {c : Rules} {f : Bool} {P : Asrt} {m : H α} {Q : α → Bool → Asrt} {h : Heap}
    (hk : ∀ x, P x → Triple c f (keep x) m (fun r f' => keep x ∗ Q r f')) (hh : (P ∗ any) h) :
    Triple c f (keep h) m (fun r f' => keep h ∗ Q r f') := by
  obtain ⟨h1, h2, h3, -, e⟩ := keep_star hh
  rw [e]
  refine Triple.conseq ((hk h1 h3).frame (keep h2)) (fun _ h => h) fun r f' x _ hx => ?_
  rw [show ((keep h1 ∗ keep h2) ∗ Q r f') = (keep h1 ∗ Q r f') ∗ keep h2 by ac_rfl]
  exact hx

theorem Reads.view {P : Asrt} {m : H α} {v : α} {h : Heap} (hk : ∀ x, P x → Reads (keep x) m v) (hh : (P ∗ any) h) :
    Reads (keep h) m v := by
  obtain ⟨h1, h2, h3, -, e⟩ := keep_star hh
  rw [e]
  intro c f
  refine Triple.conseq ((hk h1 h3 c f).frame (keep h2)) (fun _ h => h) fun r f' x _ hx => ?_
  rw [Asrt.star_assoc] at hx
  exact hx

theorem cell_view {h : Heap} {a : Addr} {x : Cell} (ha : h a = some x) : ((a ↦ x) ∗ any) h := cell_star.2 ⟨ha, trivial⟩

theorem loadObj_view {h : Heap} {a : Addr} {x : Scal} {ps : List Ptr} (ha : h a = some (.obj x ps)) :
    Reads (keep h) (loadObj (some a)) (x, ps) :=
  Reads.view (fun _ hx => by rw [keep_cell hx]; exact loadObj_reads a x ps) (cell_view ha)

theorem field_view {h : Heap} {a : Addr} {x : Scal} {ps : List Ptr} {i : Nat} {q : Ptr} (ha : h a = some (.obj x ps))
    (hi : ps[i]? = some q) : Reads (keep h) (field (some a) i) q :=
  Reads.view (fun _ hx => by rw [keep_cell hx]; exact field_reads a x ps i q hi) (cell_view ha)

theorem scal_view {h : Heap} {a : Addr} {x : Scal} {ps : List Ptr} (ha : h a = some (.obj x ps)) :
    Reads (keep h) (scal (some a)) x :=
  Reads.view (fun _ hx => by rw [keep_cell hx]; exact scal_reads a x ps) (cell_view ha)

/-- Lending an object: from now on it is part of the memory that is only looked at. -/
theorem Triple.lend {c : Rules} {f : Bool} {A P F : Asrt} {h : Heap} {m : H α} {R : α → Bool → Asrt}
    (hA : A = (keep h ∗ P) ∗ F)
    (hk : ∀ h1 h', P h1 → keep h' = keep h ∗ keep h1 → h.Sub h' → h1.Sub h' → Triple c f (keep h' ∗ F) m R) :
    Triple c f A m R := by
  rw [hA]
  intro B s F' hf hp
  obtain ⟨x, y, hd, e, ⟨x1, x2, hd', e', hh, hx⟩, hF'⟩ := hp
  obtain ⟨z1, z2, zd, ez, hz, hP⟩ := hh
  cases hz
  have hfull : keep x1 = keep h ∗ keep z2 := by
    funext w
    apply propext
    constructor
    · intro hw; exact ⟨h, z2, zd, hw.trans ez, rfl, rfl⟩
    · rintro ⟨w1, w2, _, hw, rfl, rfl⟩; exact hw.trans ez.symm
  refine hk z2 x1 hP hfull (keep_sub_left hfull) (keep_sub_right hfull) B s F' hf ?_
  exact ⟨x, y, hd, e, ⟨x1, x2, hd', e', rfl, hx⟩, hF'⟩

/-- The same when nothing is lent yet. -/
theorem Triple.lend0 {c : Rules} {f : Bool} {A P F : Asrt} {m : H α} {R : α → Bool → Asrt}
    (hA : A = P ∗ F) (hk : ∀ h1, P h1 → Triple c f (keep h1 ∗ F) m R) : Triple c f A m R := by
  rw [hA, Asrt.ex_keep P, Asrt.ex_star]
  refine Triple.ex fun h1 => ?_
  rw [Asrt.star_assoc]
  exact Triple.pure fun hp => hk h1 hp

/-- Taking back what was lent. -/
theorem Triple.giveBack {c : Rules} {f : Bool} {A P F : Asrt} {h h1 h' : Heap} {m : H α} {R : α → Bool → Asrt}
    (e : keep h' = keep h ∗ keep h1) (hp : P h1) (hA : A = keep h' ∗ F) (hk : Triple c f (keep h ∗ P ∗ F) m R) :
    Triple c f A m R := by
  rw [hA, e]
  refine Triple.conseq hk ?_ (fun _ _ _ _ h => h)
  intro x hx
  rw [Asrt.star_assoc] at hx
  exact Asrt.star_mono_r (fun y hy => Asrt.star_mono (fun z hz => by cases hz; exact hp) hy) hx

theorem Triple.giveBack0 {c : Rules} {f : Bool} {A P F : Asrt} {h1 : Heap} {m : H α} {R : α → Bool → Asrt}
    (hp : P h1) (hA : A = keep h1 ∗ F) (hk : Triple c f (P ∗ F) m R) : Triple c f A m R := by
  rw [hA]
  refine Triple.conseq hk ?_ (fun _ _ _ _ h => h)
  intro x hx
  exact Asrt.star_mono (fun z hz => by cases hz; exact hp) hx

/-! ### Tactics -/

open Lean Meta Elab Tactic

/-- Splits what is known about an object in memory, `h : (P ∗ any) x`. -/
private partial def splitView (n : Name) : TacticM Unit := withMainContext do
  let some d := (← getLCtx).findFromUserName? n | throwError "sview"
  let hx := mkIdent n
  let ty ← instantiateMVars d.type
  let .app PA _ := ty | return
  let PA := PA.headBeta
  unless PA.isAppOfArity ``Asrt.star 2 do return
  let P := (PA.getArg! 0).headBeta
  if P.isAppOfArity ``Asrt.ex 2 then
    let n' ← mkFreshUserName `hx
    let hx' := mkIdent n'
    evalTactic (← `(tactic| (obtain ⟨_, $hx':ident⟩ := view_ex $hx:ident; clear $hx; try dsimp only at $hx':ident)))
    splitView n'
  else if P.isAppOfArity ``Asrt.star 2 then
    let n1 ← mkFreshUserName `hx
    let n2 ← mkFreshUserName `hy
    evalTactic (← `(tactic| (obtain ⟨$(mkIdent n1):ident, $(mkIdent n2):ident⟩ := view_star $hx; clear $hx)))
    splitView n1
    splitView n2
  else if P.isAppOfArity ``Asrt.cell 2 then
    evalTactic (← `(tactic| (have := view_cell $hx; clear $hx)))
  else if P.isAppOfArity ``Asrt.pure 1 then
    evalTactic (← `(tactic| (have := view_pure $hx; clear $hx)))
  else if P.isAppOfArity ``Wickr.optRep 4 then
    evalTactic (← `(tactic| (have := view_opt $hx; clear $hx)))
  else if P.isAppOfArity ``Asrt.emp 0 then
    evalTactic (← `(tactic| (clear $hx)))
  else
    evalTactic (← `(tactic| (have := (show Has _ _ _ _ from $hx); clear $hx)))

/-- Opens an `n` in memory. -/
elab "sview " h:ident n:ident : tactic => withMainContext do
  let nm ← mkFreshUserName `hv
  evalTactic (← `(tactic| (have $(mkIdent nm) := $h:ident; unfold Has $n at $(mkIdent nm):ident)))
  splitView nm
  evalTactic (← `(tactic| (try dsimp only at *)))

/-- Opens every `n` in memory. -/
elab "sviews " n:ident : tactic => withMainContext do
  let nm ← realizeGlobalConstNoOverloadWithInfo n
  let mut hs := #[]
  for d in ← getLCtx do
    let ty ← instantiateMVars d.type
    if ty.isAppOfArity ``Spec.Has 5 && (ty.getArg! 1).isConstOf nm then hs := hs.push d.fvarId
  for x in hs do
    withMainContext do
    let h ← Lean.Elab.Term.exprToSyntax (.fvar x)
    let v ← mkFreshUserName `hv
    evalTactic (← `(tactic| (have $(mkIdent v) := $h; unfold Has $n at $(mkIdent v):ident)))
    splitView v
  evalTactic (← `(tactic| (try dsimp only at *)))

/-- Splits on whether an optional object in memory is there. -/
private def svoptCore (all : Bool) : TacticM Unit := withMainContext do
  for d in ← getLCtx do
    let ty ← instantiateMVars d.type
    if ty.isAppOfArity ``Wickr.HasOpt 5 then
      let p := ty.getArg! 3
      let v := ty.getArg! 4
      let v' ← whnfR v
      unless (all && v.isFVar) || v'.isAppOf ``Option.none || v'.isAppOf ``Option.some do continue
      if p.isFVar then
        let gs ← (← getMainGoal).cases p.fvarId!
        replaceMainGoal (gs.toList.map (·.mvarId))
        return
      else if v.isFVar then
        let gs ← (← getMainGoal).cases v.fvarId!
        replaceMainGoal (gs.toList.map (·.mvarId))
        return
      else
        let n ← mkFreshUserName `hv
        let g ← (← getMainGoal).rename d.fvarId n
        replaceMainGoal [g]
        let hx := mkIdent n
        let p ← whnfR p
        let v := v'
        if p.isAppOf ``Option.none && v.isAppOf ``Option.none then
          evalTactic (← `(tactic| clear $hx)); return
        else if p.isAppOf ``Option.some && v.isAppOf ``Option.some then
          evalTactic (← `(tactic| (have := (show Has _ _ _ _ from $hx); clear $hx))); return
        else if p.isAppOf ``Option.some || p.isAppOf ``Option.none then
          evalTactic (← `(tactic| exact False.elim $hx)); return
        else throwError "svopt"
  throwError "svopt: nothing optional"
elab "svopt1" : tactic => svoptCore true
elab "svset1" : tactic => svoptCore false
/-- The same for those of which it is known whether they are there. -/
macro "svset" : tactic => `(tactic| repeat' (first | svset1 | fail))
macro "svopt" : tactic => `(tactic| repeat' (first | svopt1 | fail))

/-- Lifts what is known about memory `h` to the memory `h'` that includes it. -/
private def liftViews (h : FVarId) (sub : Name) : TacticM Unit := withMainContext do
  let ds := (← getLCtx).decls.toList.filterMap id
  for d in ds do
    let ty ← instantiateMVars d.type
    let s := mkIdent sub
    let x ← Lean.Elab.Term.exprToSyntax (.fvar d.fvarId)
    if ty.isAppOfArity ``Spec.Has 5 && (ty.getArg! 2) == .fvar h then
      evalTactic (← `(tactic| have := Has.sub $x $s))
    else if ty.isAppOfArity ``Wickr.HasOpt 5 && (ty.getArg! 2) == .fvar h then
      evalTactic (← `(tactic| have := HasOpt.sub $x $s))
    else if let some (_, l, _) := ty.eq? then
      if l.isApp && l.appFn! == .fvar h then
        evalTactic (← `(tactic| have := $s _ _ $x))

/-- The parts of an assertion. -/
private partial def partsOf (e : Expr) : List Expr :=
  if e.isAppOfArity ``Asrt.star 2 then partsOf (e.getArg! 0) ++ partsOf (e.getArg! 1) else [e]

/-- Lends the part `P` of the precondition. -/
private def lendPart (P : Expr) : TacticM (Name × Name × Bool) := withMainContext do
  let t := (← instantiateMVars (← (← getMainGoal).getType)).consumeMData
  let parts := partsOf (t.getArg! 3)
  let p ← Lean.Elab.Term.exprToSyntax P
  let hP ← mkFreshUserName `hP
  match parts.find? (·.isAppOfArity ``Asrt.keep 1) with
  | none =>
    evalTactic (← `(tactic| refine Triple.lend0 (P := $p) (by frame) (fun _ $(mkIdent hP) => ?_)))
    evalTactic (← `(tactic| have := has_of $(mkIdent hP)))
    return (hP, hP, false)
  | some k =>
    let e ← mkFreshUserName `e
    let s1 ← mkFreshUserName `hs
    let s2 ← mkFreshUserName `hs
    evalTactic (← `(tactic| refine Triple.lend (P := $p) (by frame)
      (fun _ _ $(mkIdent hP) $(mkIdent e) $(mkIdent s1) $(mkIdent s2) => ?_)))
    let h := (k.getArg! 0)
    if h.isFVar then liftViews h.fvarId! s1
    evalTactic (← `(tactic| have := Has.sub (has_of $(mkIdent hP)) $(mkIdent s2)))
    return (hP, e, true)

/-- Takes back what was lent, and forgets what was known about the larger memory. -/
private def giveBack (hP e : Name) (more : Bool) : TacticM Unit := withMainContext do
  if more then
    evalTactic (← `(tactic| refine Triple.giveBack $(mkIdent e) $(mkIdent hP) (by frame) ?_))
    withMainContext do
    let some d := (← getLCtx).findFromUserName? e | throwError "giveBack"
    let ty ← instantiateMVars d.type
    let some (_, l, _) := ty.eq? | throwError "giveBack"
    let h' := (l.getArg! 0).fvarId!
    let g ← getMainGoal
    let mut deps := #[]
    for d in ← getLCtx do
      if (← instantiateMVars d.type).containsFVar h' then deps := deps.push d.fvarId
    let g ← g.tryClearMany deps
    let g ← g.tryClear h'
    replaceMainGoal [g]
  else
    evalTactic (← `(tactic| refine Triple.giveBack0 $(mkIdent hP) (by frame) ?_))

/-- A call for which objects have to be lent. -/
elab "slend1" : tactic => withMainContext do
  let g ← getMainGoal
  let t := (← whnfCore (← instantiateMVars (← g.getType))).consumeMData
  unless t.isAppOfArity ``Wickr.Triple 6 do throwError "slend: not a Triple"
  let prog ← whnfCore (t.getArg! 4)
  let g ← g.change (mkAppN t.getAppFn (t.getAppArgs.set! 4 prog))
  replaceMainGoal [g]
  let m ← if prog.isAppOf ``Bind.bind then whnfCore (prog.getArg! 4)
    else if prog.isAppOf ``Wickr.onNull then whnfCore (prog.getArg! 1) else pure prog
  let some n := m.getAppFn.constName? | throwError "slend: no call"
  unless (← getEnv).contains (n.appendAfter "_view") do throwError "slend: no view"
  let mut as : List Expr := []
  for x in m.getAppArgs do
    let x ← whnfR x
    if x.isAppOfArity ``Option.some 2 then as := as ++ [x.getArg! 1]
  let parts := partsOf (t.getArg! 3)
  let mut lent : List (Name × Name × Bool) := []
  for p in parts do
    let k := p.getAppNumArgs
    if k ≥ 2 && p.getAppFn.isConst && !p.isAppOf ``Asrt.cell && as.contains (p.getArg! (k - 2)) then
      lent := (← lendPart p) :: lent
  if lent.isEmpty then throwError "slend: nothing to lend"
  let others := (← getGoals).tail
  setGoals [← getMainGoal]
  Tactic.withoutRecover (evalTactic (← `(tactic| sgo1)))
  let gs ← getGoals
  let mut out := []
  for g in gs do
    setGoals [g]
    for (hP, e, b) in lent do giveBack hP e b
    out := out ++ (← getGoals)
  setGoals (out ++ others)

/-- Programs that look at memory. -/
macro "vgo" : tactic => `(tactic| repeat' (first | sgo1 | slend1 | fail))

/-! ### Reading -/

theorem readBuf_view {h : Heap} {a : Addr} {b : Bytes} (hb : Has isBuf h a b) : Reads (keep h) (readBuf (some a)) b :=
  Reads.view (fun _ hx => readBuf_keep hx) hb

end Wickr
