import Verif.Lemmas.SepPacket
/-
Exchanges and sets of exchanges: writing, reading and searching.
-/
namespace Wickr
open Asrt Spec

theorem keep_fact {P : Asrt} {φ : Prop} {y : Heap} (hφ : φ) (hy : P y) : (P ∗ ⌜φ⌝) y := by
  rw [Asrt.star_comm]
  exact Asrt.pure_star.2 ⟨hφ, hy⟩

theorem loadBytes_view {h : Heap} {a : Addr} {b : Bytes} (ha : h a = some (.bytes b)) :
    Reads (keep h) (loadBytes (some a)) b :=
  Reads.view (fun _ hx => by rw [keep_cell hx]; exact loadBytes_reads a b) (cell_view ha)

/-! ### Looking at an array -/

theorem items_view {V : Type} {R : Addr → V → Asrt} {h : Heap} : ∀ {ps : List Ptr} {xs : List (Option V)},
    (items R ps xs ∗ any) h → ps.length = xs.length ∧ ∀ (i : Nat) (x : Option V), xs[i]? = some x →
      ∃ p, ps[i]? = some p ∧ HasOpt R h p x
  | [], [], _ => ⟨rfl, fun i p hi => by simp at hi⟩
  | [], x :: xs, hh => by obtain ⟨_, _, _, _, h, _⟩ := hh; exact h.1.elim
  | p :: ps, [], hh => by obtain ⟨_, _, _, _, h, _⟩ := hh; exact h.1.elim
  | p :: ps, x :: xs, hh => by
    obtain ⟨h1, h2⟩ := view_star hh
    obtain ⟨hl, ih⟩ := items_view h2
    refine ⟨by simp [hl], fun i y hi => ?_⟩
    cases i with
    | zero =>
      simp only [List.getElem?_cons_zero, Option.some.injEq] at hi
      subst hi
      exact ⟨p, rfl, view_opt h1⟩
    | succ i => exact ih i y (by simpa using hi)

theorem arr_view {V : Type} {R : Addr → V → Asrt} {h : Heap} {a : Addr} {xs : List (Option V)} (ha : Has (isArr R) h a xs) :
    8 * xs.length ≤ maxBuffer ∧ Reads (keep h) (hArrCount (some a)) xs.length ∧
      ∀ (i : Nat) (x : Option V), xs[i]? = some x → ∃ p, Reads (keep h) (hArrSlot (some a) i) p ∧ HasOpt R h p x := by
  unfold Has isArr at ha
  rw [Asrt.ex_star] at ha
  obtain ⟨ps, ha⟩ := ha
  obtain ⟨h1, h2⟩ := view_star ha
  obtain ⟨hl, hi⟩ := items_view h2
  refine ⟨?_, Reads.view (fun _ hx => hArrCount_keep hx) h1, fun i x hx => ?_⟩
  · obtain ⟨_, _, _, _, h, _⟩ := h1
    exact (isSlots_length h).2
  · obtain ⟨p, hp, hh⟩ := hi i x hx
    exact ⟨p, Reads.view (fun _ hs => hArrSlot_keep hs hp) h1, hh⟩

theorem hArrCount_view {V : Type} {R : Addr → V → Asrt} {h : Heap} {a : Addr} {xs : List (Option V)} (ha : Has (isArr R) h a xs) :
    Reads (keep h) (hArrCount (some a)) xs.length := (arr_view ha).2.1

/-! ### The structures that are packed -/

/-- The structure of an exchange. -/
def isExProto (a : Addr) (m : PExchange) : Asrt := ex fun (q : Addr) => (a ↦ .obj .plain [some q]) ∗ (q ↦ .bytes m.data)

/-- An array of them. -/
def isExProtos (a : Addr) (ms : List (Option PExchange)) : Asrt := ex fun (ps : List Ptr) =>
  (a ↦ .obj .plain ps) ∗ items isExProto ps ms

theorem hExProtoFree_spec (c : Rules) (f : Bool) (a : Addr) (m : PExchange) (hp : c.pub m.data) :
    Triple c f (isExProto a m) (hExProtoFree (some a)) (fun _ _ => emp) := by
  unfold hExProtoFree
  sopen isExProto
  sread field_reads a _ _ 0 _ rfl
  sstep free_bytes c f _ _ (Or.inr hp)
  intro _ f1 _
  sintro
  exact Triple.conseq (free_obj c f1 a _ _) (by sentail) (fun _ _ _ _ h => h)

theorem give_some {V : Type} {F : Asrt} {R : Addr → V → Asrt} {x : Option V} {v : V} {a : Addr} {f : Bool} (e : x = some v) :
    Asrt.le (F ∗ R a v) (F ∗ gives R x (some a) f) := by
  subst e
  exact fun y hy => Asrt.star_mono_r (fun z hz => ⟨v, Asrt.pure_star.2 ⟨rfl, hz⟩⟩) hy

theorem hExToProto_view (c : Rules) (f : Bool) (h : Heap) (a : Addr) (v : KeyExchange) (hv : Has isEx h a v)
    (hp : ∀ m, exchangeToProto v = some m → c.pub m.data) :
    Triple c f (keep h) (hExToProto (some a)) (fun r f' => keep h ∗ gives isExProto (exchangeToProto v) r f') := by
  unfold hExToProto exchangeToProto
  unfold exchangeToProto at hp
  obtain ⟨i, n, t⟩ := v
  simp only [Option.map_eq_some_iff, forall_exists_index, and_imp, forall_apply_eq_imp_iff₂] at hp
  sview hv isEx
  vgo
  rename_i e _ _ _ _ _ _ _ _ _ _
  refine Triple.ret fun y hy => give_some (v := ⟨i, n, _⟩) (by rw [e]; rfl) y ?_
  revert hy
  revert y
  sentail

theorem items_split {V : Type} {R : Addr → V → Asrt} {ps : List Ptr} {xs ys : List (Option V)} {h : Heap}
    (hh : items R ps (xs ++ ys) h) : ∃ qs rs, ps = qs ++ rs ∧ qs.length = xs.length := by
  have hl : ps.length = (xs ++ ys).length := (items_keep hh).1
  rw [List.length_append] at hl
  exact ⟨ps.take xs.length, ps.drop xs.length, (List.take_append_drop _ _).symm, by simp; omega⟩

/-- A slot that is not set. -/
theorem items_unset {V : Type} {R : Addr → V → Asrt} {ps : List Ptr} {xs ys : List (Option V)} :
    Asrt.le (items R ps (xs ++ none :: ys)) (ex fun (qs : List Ptr) => ex fun (rs : List Ptr) =>
      ⌜ps = qs ++ none :: rs ∧ qs.length = xs.length⌝ ∗ items R qs xs ∗ items R rs ys) := by
  intro h hh
  obtain ⟨qs, rs, rfl, hl⟩ := items_split hh
  rw [items_append hl] at hh
  cases rs with
  | nil =>
    obtain ⟨_, _, _, _, _, hh⟩ := hh
    exact hh.1.elim
  | cons r rs =>
    cases r with
    | some r =>
      obtain ⟨_, _, _, _, _, hh⟩ := hh
      obtain ⟨_, _, _, _, hh, _⟩ := hh
      exact hh.1.elim
    | none =>
      refine ⟨qs, rs, Asrt.pure_star.2 ⟨⟨rfl, hl⟩, ?_⟩⟩
      have : items R (none :: rs) (none :: ys) = items R rs ys := by simp [items, optRep, Asrt.emp_star]
      rwa [this] at hh

theorem items_join {V : Type} {R : Addr → V → Asrt} {qs rs : List Ptr} {xs ys : List (Option V)} {x : Addr} {v : V}
    (hl : qs.length = xs.length) :
    items R (qs ++ some x :: rs) (xs ++ some v :: ys) = items R qs xs ∗ R x v ∗ items R rs ys := by
  rw [items_append hl]
  rfl

/-- Setting a slot that is not set. -/
theorem exProtos_put (c : Rules) (f : Bool) (a x : Addr) (m : PExchange) (ms ns : List (Option PExchange)) (i : Nat)
    (hi : i = ms.length) :
    Triple c f (isExProtos a (ms ++ none :: ns) ∗ isExProto x m) (setField (some a) i (some x))
      (fun _ _ => isExProtos a (ms ++ some m :: ns)) := by
  sopen isExProtos
  rename_i ps
  refine Triple.conseq (P := (ex fun (qs : List Ptr) => ex fun (rs : List Ptr) =>
      ⌜ps = qs ++ none :: rs ∧ qs.length = ms.length⌝ ∗ items isExProto qs ms ∗ items isExProto rs ns) ∗
      (a ↦ .obj .plain ps) ∗ isExProto x m) (Q := fun _ _ => isExProtos a (ms ++ some m :: ns)) ?_ ?_ (fun _ _ _ _ h => h)
  · sintro
    rename_i qs rs h
    obtain ⟨rfl, hl⟩ := h
    refine Triple.seq' (setField_spec c f a .plain (qs ++ none :: rs) i (some x) (by rw [List.length_append, List.length_cons]; omega)) (by frame) fun _ f1 _ => ?_
    refine Triple.ret fun y hy => ?_
    have e : (qs ++ none :: rs).set i (some x) = qs ++ some x :: rs := by
      rw [hi, ← hl]; simp
    rw [e] at hy
    refine ⟨qs ++ some x :: rs, ?_⟩
    dsimp only
    rw [items_join hl]
    revert hy
    revert y
    sentail
  · intro h hh
    rw [show (((a ↦ Cell.obj .plain ps) ∗ items isExProto ps (ms ++ none :: ns)) ∗ isExProto x m) =
      items isExProto ps (ms ++ none :: ns) ∗ (a ↦ Cell.obj .plain ps) ∗ isExProto x m by ac_rfl] at hh
    exact Asrt.star_mono items_unset hh

theorem hExProtosFreeAll_spec (c : Rules) : ∀ (f : Bool) (ps : List Ptr) (ms : List (Option PExchange)),
    (∀ m, some m ∈ ms → c.pub m.data) → Triple c f (items isExProto ps ms) (hExProtosFreeAll ps) (fun _ _ => emp)
  | f, [], [], _ => Triple.ret fun _ h => h
  | f, [], _ :: _, _ => by unfold items; sabsurd
  | f, _ :: _, [], _ => by unfold items; sabsurd
  | f, p :: ps, m :: ms, hp => by
    unfold hExProtosFreeAll items
    have ih := fun f => hExProtosFreeAll_spec c f ps ms fun m hm => hp m (List.mem_cons_of_mem _ hm)
    cases p with
    | none =>
      cases m with
      | some m => sabsurd
      | none =>
        unfold hExProtoFree
        refine Triple.pureBind ?_
        refine Triple.conseq (ih f) ?_ (fun _ _ _ _ h => h)
        sentail
    | some p =>
      cases m with
      | none => sabsurd
      | some m =>
        refine Triple.seq (hExProtoFree_spec c f p m (hp m (List.mem_cons_self ..))) (F := items isExProto ps ms) rfl
          fun _ f1 _ => ?_
        rw [Asrt.emp_star]
        exact ih f1

theorem hExProtosFree_spec (c : Rules) (f : Bool) (a : Addr) (ms : List (Option PExchange)) (hp : ∀ m, some m ∈ ms → c.pub m.data) :
    Triple c f (isExProtos a ms) (hExProtosFree (some a)) (fun _ _ => emp) := by
  unfold hExProtosFree
  sopen isExProtos
  rename_i ps
  sread loadObj_reads a _ _
  dsimp only
  sstep hExProtosFreeAll_spec c f ps ms hp
  intro _ f1 _
  sintro
  exact Triple.conseq (free_obj c f1 a _ _) (by sentail) (fun _ _ _ _ h => h)

/-- The structures of exchanges. -/
def exsToProto (xs : List (Option KeyExchange)) : Option (List PExchange) := xs.mapM fun (x : Option KeyExchange) => x.bind exchangeToProto

theorem exsToProto_nil : exsToProto [] = some [] := rfl

theorem exsToProto_cons (x : Option KeyExchange) (xs : List (Option KeyExchange)) :
    exsToProto (x :: xs) = (x.bind exchangeToProto).bind fun m => (exsToProto xs).map fun ms => m :: ms := by
  unfold exsToProto
  simp only [List.mapM_cons, Option.pure_def, Option.bind_eq_bind]
  rcases x.bind exchangeToProto with _ | m
  · rfl
  · simp only [Option.bind_some]
    rcases xs.mapM _ with _ | ms <;> rfl

/-- What filling in the array gives. -/
def filled (arr : Addr) (done : List (Option PExchange)) (ms : Option (List PExchange)) (r f : Bool) : Asrt :=
  match r with
  | false => ⌜f = true ∨ ms = none⌝
  | true => ex fun (ns : List PExchange) => ⌜ms = some ns⌝ ∗ isExProtos arr (done ++ ns.map some)

theorem hExProtosFill_view (c : Rules) (h : Heap) (a arr : Addr) (xs : List (Option KeyExchange)) (ha : Has (isArr isEx) h a xs)
    (hp : ∀ b ∈ exsData xs, c.pub b) : ∀ (k : Nat) (f : Bool) (i : Nat) (done : List (Option PExchange)),
    i + k = xs.length → done.length = i → (∀ m, some m ∈ done → c.pub m.data) →
    Triple c f (keep h ∗ isExProtos arr (done ++ List.replicate k none)) (hExProtosFill (some a) (some arr) i k)
      (fun r f' => keep h ∗ filled arr done (exsToProto (xs.drop i)) r f')
  | 0, f, i, done, hi, hd, hq => by
    unfold hExProtosFill
    rw [List.drop_eq_nil_of_le (by omega), exsToProto_nil]
    refine Triple.ret fun y hy => ?_
    dsimp only [filled]
    rw [List.replicate_zero, List.append_nil] at hy
    refine Asrt.star_mono_r (fun z hz => ⟨[], Asrt.pure_star.2 ⟨rfl, ?_⟩⟩) hy
    rwa [List.map_nil, List.append_nil]
  | k + 1, f, i, done, hi, hd, hq => by
    unfold hExProtosFill
    have hx : xs[i]? = some (xs[i]'(by omega)) := List.getElem?_eq_getElem (by omega)
    revert hx
    generalize hxx : xs[i]'(by omega) = x
    intro hx
    obtain ⟨p, hr, hv⟩ := (arr_view ha).2.2 i x hx
    sread hr
    have hdr : xs.drop i = x :: xs.drop (i + 1) := by
      rw [List.drop_eq_getElem_cons (by omega), hxx]
    rw [hdr, exsToProto_cons]
    have hmem : x ∈ xs := List.mem_of_getElem? hx
    have stop : ∀ f1 (z : Option (List PExchange)), f1 = true ∨ z = none →
        Triple c f1 (keep h ∗ isExProtos arr (done ++ List.replicate (k + 1) none))
        (do hExProtosFree (some arr); Pure.pure false) (fun r f' => keep h ∗ filled arr done z r f') := by
      intro f1 z hz
      sstep hExProtosFree_spec c f1 arr _ (fun m hm => ?_)
      · rcases List.mem_append.1 hm with hm | hm
        · exact hq m hm
        · exact absurd (List.eq_of_mem_replicate hm) (by simp)
      · intro _ f2 hf
        sintro
        refine Triple.ret fun y hy => ?_
        dsimp only [filled]
        have : f2 = true ∨ z = none := hz.imp hf id
        exact keep_fact this (by rwa [Asrt.emp_star] at hy)
    cases p with
    | none =>
      cases x with
      | some x => exact hv.elim
      | none =>
        unfold hExToProto
        refine Triple.pureBind ?_
        exact stop f _ (Or.inr rfl)
    | some p =>
      cases x with
      | none => exact hv.elim
      | some x =>
        have hpub : ∀ m, exchangeToProto x = some m → c.pub m.data := fun m hm =>
          hp _ (List.mem_flatMap.2 ⟨some x, hmem, by simp [hm]⟩)
        sstep hExToProto_view c f h p x hv hpub
        intro r f1 hf1
        cases r with
        | none =>
          dsimp only [gives]
          sintro
          refine Triple.conseq (stop f1 _ ?_) ?_ (fun _ _ _ _ h => h)
          · rename_i hh
            rcases hh with hh | hh
            · exact Or.inl hh
            · exact Or.inr (by simp [hh])
          · sentail
        | some r =>
          dsimp only [gives]
          sintro
          rename_i m hm
          rw [List.replicate_succ]
          sstep exProtos_put c f1 arr r m done (List.replicate k none) i hd.symm
          intro _ f2 hf2
          have e : done ++ some m :: List.replicate k none = (done ++ [some m]) ++ List.replicate k none := by simp
          rw [e]
          have ih := hExProtosFill_view c h a arr xs ha hp k f2 (i + 1) (done ++ [some m]) (by omega) (by simp [hd])
            (fun n hn => by
              rcases List.mem_append.1 hn with hn | hn
              · exact hq n hn
              · simp only [List.mem_singleton, Option.some.injEq] at hn
                subst hn
                exact hpub _ hm)
          refine Triple.conseq ih (by sentail) fun r f3 y _ hy => ?_
          simp only [Option.bind_some, hm]
          refine Asrt.star_mono_r (fun z hz => ?_) hy
          cases r with
          | false =>
            obtain ⟨hz, rfl⟩ := hz
            exact ⟨hz.imp id (fun h => by rw [h]; rfl), rfl⟩
          | true =>
            obtain ⟨ns, hz⟩ := hz
            obtain ⟨h1, h2⟩ := Asrt.pure_star.1 hz
            refine ⟨m :: ns, Asrt.pure_star.2 ⟨by rw [h1]; rfl, ?_⟩⟩
            simpa using h2

theorem exProtos_new (c : Rules) (f : Bool) (n : Nat) :
    Triple c f emp (alloc (.obj .plain (List.replicate n none))) (fun r f' => fresh isExProtos (List.replicate n none) r f') := by
  refine Triple.conseq (alloc_spec c f _) (fun _ h => h) fun r f' y _ hy => ?_
  cases r with
  | none => exact hy
  | some a =>
    refine ⟨List.replicate n none, ?_⟩
    dsimp only
    rw [items_null, Asrt.star_emp]
    exact hy

/-- The structure of a set. -/
def isSetProto (a : Addr) (ms : List PExchange) : Asrt := ex fun (arr : Addr) =>
  (a ↦ .obj .plain [some arr]) ∗ isExProtos arr (ms.map some)

theorem exsData_mem {xs : List (Option KeyExchange)} {ms : List PExchange} (h : exsToProto xs = some ms) :
    ∀ m ∈ ms, m.data ∈ exsData xs := by
  induction xs generalizing ms with
  | nil => rw [exsToProto_nil] at h; cases h; simp
  | cons x xs ih =>
    rw [exsToProto_cons] at h
    simp only [Option.bind_eq_some_iff, Option.map_eq_some_iff] at h
    obtain ⟨m, ⟨v, rfl, hm⟩, ns, hns, rfl⟩ := h
    intro n hn
    unfold exsData
    rw [List.flatMap_cons, List.mem_append]
    rcases List.mem_cons.1 hn with rfl | hn
    · exact Or.inl (by simp [hm])
    · exact Or.inr (ih hns n hn)

theorem hSetToProto_view (c : Rules) (f : Bool) (h : Heap) (a : Addr) (xs : List (Option KeyExchange)) (ha : Has (isArr isEx) h a xs)
    (hp : ∀ b ∈ exsData xs, c.pub b) :
    Triple c f (keep h) (hSetToProto (some a))
      (fun r f' => keep h ∗ gives isSetProto (if xs = [] then none else exsToProto xs) r f') := by
  unfold hSetToProto
  sread hArrCount_view ha
  by_cases hx : xs = []
  · subst hx
    simp only [List.length_nil, if_true]
    vgo
  rw [if_neg (by simpa using hx), if_neg hx]
  unfold onNull
  sstep exProtos_new c f xs.length
  intro r f1 _
  cases r with
  | none => dsimp only [fresh]; sintro; vgo
  | some arr =>
    dsimp only [fresh]
    have hq := hExProtosFill_view c h a arr xs ha hp xs.length f1 0 [] (by omega) rfl (by simp)
    rw [List.nil_append, List.drop_zero] at hq
    sstep hq
    intro r f2 _
    cases r with
    | false =>
      dsimp only [filled]
      simp only [Bool.false_eq_true, if_false]
      sintro
      vgo
    | true =>
      dsimp only [filled]
      simp only [if_true]
      sintro
      rename_i ms hms
      have hpm : ∀ m, some m ∈ ms.map some → c.pub m.data := fun m hm => by
        simp only [List.mem_map, Option.some.injEq, exists_eq_right] at hm
        exact hp _ (exsData_mem hms m hm)
      rw [List.nil_append]
      sstep alloc_spec c f2 _
      intro r f3 _
      cases r with
      | none =>
        dsimp only [fresh]
        sintro
        sstep hExProtosFree_spec c f3 arr _ hpm
        intro _ f4 _
        sintro
        vgo
      | some x =>
        dsimp only [fresh]
        sstep store_spec c f3 x _ _
        intro _ f4 _
        refine Triple.ret fun y hy => give_some (v := ms) hms y ?_
        revert hy
        revert y
        sentail

theorem hSetProtoFree_spec (c : Rules) (f : Bool) (a : Addr) (ms : List PExchange) (hp : ∀ m ∈ ms, c.pub m.data) :
    Triple c f (isSetProto a ms) (hSetProtoFree (some a)) (fun _ _ => emp) := by
  unfold hSetProtoFree
  sopen isSetProto
  rename_i arr
  sread field_reads a _ _ 0 _ rfl
  sstep hExProtosFree_spec c f arr (ms.map some) (fun m hm => hp m (by simpa using hm))
  intro _ f1 _
  sintro
  exact Triple.conseq (free_obj c f1 a _ _) (by sentail) (fun _ _ _ _ h => h)

theorem exProtos_view {h : Heap} {a : Addr} {ms : List (Option PExchange)} (ha : Has isExProtos h a ms) :
    ∀ (i : Nat) (m : Option PExchange), ms[i]? = some m → ∃ p, Reads (keep h) (field (some a) i) p ∧ HasOpt isExProto h p m := by
  unfold Has isExProtos at ha
  rw [Asrt.ex_star] at ha
  obtain ⟨ps, ha⟩ := ha
  obtain ⟨h1, h2⟩ := view_star ha
  intro i m hm
  obtain ⟨p, hp, hh⟩ := (items_view h2).2 i m hm
  exact ⟨p, field_view (view_cell h1) hp, hh⟩

theorem exsToProto_get {xs : List (Option KeyExchange)} {ms : List PExchange} (h : exsToProto xs = some ms) :
    ms.length = xs.length ∧ ∀ (i : Nat) (m : PExchange), ms[i]? = some m → ∃ v, xs[i]? = some (some v) ∧ exchangeToProto v = some m := by
  induction xs generalizing ms with
  | nil => rw [exsToProto_nil] at h; cases h; simp
  | cons x xs ih =>
    rw [exsToProto_cons] at h
    simp only [Option.bind_eq_some_iff, Option.map_eq_some_iff] at h
    obtain ⟨m, ⟨v, rfl, hm⟩, ns, hns, rfl⟩ := h
    obtain ⟨h1, h2⟩ := ih hns
    refine ⟨by simp [h1], fun i n hn => ?_⟩
    cases i with
    | zero =>
      simp only [List.getElem?_cons_zero, Option.some.injEq] at hn
      subst hn
      exact ⟨v, rfl, hm⟩
    | succ i => exact h2 i n (by simpa using hn)

theorem hExProtosRead_view {h : Heap} {a arr : Addr} {xs : List (Option KeyExchange)} {ms : List PExchange}
    (ha : Has (isArr isEx) h a xs) (hr : Has isExProtos h arr (ms.map some)) (hm : exsToProto xs = some ms) :
    ∀ (k i : Nat), i + k = xs.length → Reads (keep h) (hExProtosRead (some a) (some arr) i k) (ms.drop i) := by
  obtain ⟨hl, hg⟩ := exsToProto_get hm
  intro k
  induction k with
  | zero =>
    intro i hi c f
    rw [List.drop_eq_nil_of_le (by omega)]
    unfold hExProtosRead
    exact Triple.ret fun y hy => Asrt.pure_star.2 ⟨⟨rfl, rfl⟩, hy⟩
  | succ k ih =>
    intro i hi c f
    unfold hExProtosRead
    have hx : ms[i]? = some (ms[i]'(by omega)) := List.getElem?_eq_getElem (by omega)
    revert hx
    generalize hxx : ms[i]'(by omega) = m
    intro hx
    obtain ⟨v, hv, hvm⟩ := hg i m hx
    obtain ⟨p, hp, hpv⟩ := (arr_view ha).2.2 i _ hv
    obtain ⟨q, hq, hqv⟩ := exProtos_view hr i (some m) (by rw [List.getElem?_map, hx]; rfl)
    cases p with
    | none => exact hpv.elim
    | some p =>
      cases q with
      | none => exact hqv.elim
      | some q =>
        have hpv' : Has isEx h p v := hpv
        have hqv' : Has isExProto h q m := hqv
        sread hp
        obtain ⟨vi, vn, vt⟩ := v
        sview hpv' isEx
        sview hqv' isExProto
        sgo1
        sgo1
        sgo1
        sread hq
        sgo1
        sread loadBytes_view (by assumption)
        sread ih (i + 1) (by omega)
        rw [List.drop_eq_getElem_cons (show i < ms.length by omega), hxx]
        unfold exchangeToProto at hvm
        rw [Option.map_eq_some_iff] at hvm
        obtain ⟨d, -, rfl⟩ := hvm
        exact Triple.ret fun y hy => Asrt.pure_star.2 ⟨⟨rfl, rfl⟩, hy⟩

theorem hSetWrite_view (c : Rules) (f : Bool) (h : Heap) (a p : Addr) (k : EcKey) (xs : List (Option KeyExchange))
    (hp : ∀ b ∈ exsData xs, c.pub b) (ha : Has (isArr isEx) h a xs) (hk : Has isKey h p k) :
    Triple c f (keep h) (hSetWrite (some p) (some a)) (fun r f' => keep h ∗ gives isBuf (exchangeSetSerialize ⟨k, xs⟩) r f') := by
  unfold hSetWrite
  have e : exchangeSetSerialize ⟨k, xs⟩ =
      (if xs = [] then none else exsToProto xs).bind fun ms => protoPack (PExchangeSet.pack ⟨k.pub, ms⟩) := by
    unfold exchangeSetSerialize exchangeSetToProto exsToProto
    dsimp only
    split
    · rfl
    · rcases List.mapM _ xs <;> rfl
  rw [e]
  unfold onNull
  sstep hSetToProto_view c f h a xs ha hp
  intro r f1 _
  cases r with
  | none =>
    dsimp only [gives]
    sintro
    rename_i hh
    refine Triple.ret fun y hy => ?_
    have : f1 = true ∨ ((if xs = [] then none else exsToProto xs).bind fun ms => protoPack (PExchangeSet.pack ⟨k.pub, ms⟩)) = none :=
      hh.imp id fun h => by rw [h]; rfl
    exact keep_fact this hy
  | some x =>
    dsimp only [gives]
    sintro
    rename_i ms hms
    rw [hms]
    have hmx : exsToProto xs = some ms := by
      by_cases hx : xs = []
      · rw [if_pos hx] at hms; cases hms
      · rwa [if_neg hx] at hms
    clear hms e
    simp only [Option.bind_some]
    refine Triple.lend (h := h) (P := isSetProto x ms) (F := emp) (by frame) fun h1 h' hx e s1 s2 => ?_
    rw [Asrt.star_emp]
    have hx' : Has isSetProto h' x ms := Has.sub (has_of hx) s2
    have ha' := Has.sub ha s1
    have hk' := Has.sub hk s1
    obtain ⟨kc, kp, ks⟩ := k
    sview hk' isKey
    sview hx' isSetProto
    sgo1
    sgo1
    sread hArrCount_view ha'
    sgo1
    sread hExProtosRead_view ha' (by assumption) hmx xs.length 0 (by omega)
    rw [List.drop_zero]
    sstep hPack_spec c f1 _
    intro o f2 _
    refine Triple.giveBack e hx (by frame) ?_
    sstep hSetProtoFree_spec c f2 x ms (fun m hm => hp _ (exsData_mem hmx m hm))
    intro _ f3 hf
    refine Triple.ret fun y hy => ?_
    rw [Asrt.star_comm (keep h)]
    rw [Asrt.emp_star] at hy
    refine Asrt.star_mono (fun z hz => ?_) (by rwa [Asrt.star_comm] at hy)
    cases o with
    | none => exact ⟨hz.1.imp hf id, hz.2⟩
    | some o => exact hz

theorem hSetSerialize_view (c : Rules) (f : Bool) (h : Heap) (a : Addr) (v : KeyExchangeSet)
    (hp : ∀ b ∈ exsData v.exchanges, c.pub b) (ha : Has isSet h a v) :
    Triple c f (keep h) (hSetSerialize (some a)) (fun r f' => keep h ∗ gives isBuf (exchangeSetSerialize v) r f') := by
  unfold hSetSerialize
  obtain ⟨k, xs⟩ := v
  sview ha isSet
  sgo1
  sgo1
  exact hSetWrite_view c f h _ _ k xs hp (by assumption) (by assumption)

theorem hSetSeal_view (hE : E.Fits) (c : Rules) (f : Bool) (hc : c.crash) (h : Heap) (a p q : Addr) (k : EcKey) (xs : List (Option KeyExchange))
    (hk : CipherKey) (iv : Bytes) (hp : ∀ b ∈ exsData xs, c.pub b)
    (he : ∀ b, exchangeSetSerialize ⟨k, xs⟩ = some b → ∀ x ∈ encryptPubs E b none hk iv, c.pub x)
    (ha : Has (isArr isEx) h a xs) (hk1 : Has isKey h p k) (hq : Has isCKey h q hk) :
    Triple c f (keep h) (hSetSeal E (some p) (some a) (some q) iv)
      (fun r f' => keep h ∗ gives isCRes (exchangeSetEncrypt E ⟨k, xs⟩ hk iv) r f') := by
  unfold hSetSeal exchangeSetEncrypt
  have hw := hSetWrite_view c f h a p k xs hp ha hk1
  revert he hw
  generalize exchangeSetSerialize ⟨k, xs⟩ = m
  intro he hw
  unfold onNull
  dsimp only
  refine Triple.seq hw (F := emp) (Asrt.star_emp _).symm fun x f1 _ => ?_
  rw [Asrt.star_emp]
  clear ha hk1 hw hp
  cases m with
  | none =>
    cases x with
    | none => dsimp only [gives]; sintro; vgo
    | some x => dsimp only [gives]; sintro; simp_all
  | some m =>
    have he' : ∀ r, E.encrypt m none hk iv = some r → ∀ x ∈ r.publics, c.pub x := fun r hr x hx => he m rfl x (by simp [hr, hx])
    clear he
    cases x with
    | none => dsimp only [gives]; sintro; simp only [Option.bind_some]; vgo
    | some x =>
      dsimp only [gives]
      sintro
      rename_i w hw
      cases hw
      simp only [Option.bind_some]
      vgo

theorem hSetEncrypt_view (hE : E.Fits) (c : Rules) (f : Bool) (hc : c.crash) (h : Heap) (a q : Addr) (v : KeyExchangeSet)
    (hk : CipherKey) (iv : Bytes) (hp : ∀ b ∈ exsData v.exchanges, c.pub b)
    (he : ∀ b, exchangeSetSerialize v = some b → ∀ x ∈ encryptPubs E b none hk iv, c.pub x)
    (ha : Has isSet h a v) (hq : Has isCKey h q hk) :
    Triple c f (keep h) (hSetEncrypt E (some a) (some q) iv)
      (fun r f' => keep h ∗ gives isCRes (exchangeSetEncrypt E v hk iv) r f') := by
  unfold hSetEncrypt
  obtain ⟨k, xs⟩ := v
  sview ha isSet
  sgo1
  sgo1
  exact hSetSeal_view hE c f hc h _ _ q k xs hk iv hp he (by assumption) (by assumption) hq

/-! ### Reading -/

theorem hExFromProto_view (c : Rules) (f : Bool) (hc : c.crash) (h : Heap) (x : Addr) (bs : List Bytes) (j : Nat) (m : PExchange)
    [h1 : Nth bs j m.identifier] [h2 : Nth bs (j + 1) m.data] (hp : ∀ b ∈ m.shown, c.pub b) (hx : Has isProto h x bs) :
    Triple c f (keep h) (hExFromProto (some x) j m.keyId) (fun r f' => keep h ∗ gives isEx (exchangeFromProto m) r f') := by
  unfold hExFromProto exchangeFromProto
  obtain ⟨i, n, d⟩ := m
  dsimp only at *
  simp only [PExchange.shown, List.mem_cons, List.mem_append, or_imp, forall_and, forall_eq] at hp
  obtain ⟨hi, hd, hh, hr⟩ := hp
  sread hPart_view (i := j + 1) (b := d) hx
  sread hPart_view (i := j) (b := i) hx
  by_cases hz : d = [] ∨ i = []
  · rw [if_pos hz, if_pos hz]
    vgo
  · rw [if_neg hz, if_neg hz]
    have hdd : ∀ b, dup d = some b → b = d := fun b hb => (dup_eq_some.1 hb).2
    have hii : ∀ b, dup i = some b → b = i := fun b hb => (dup_eq_some.1 hb).2
    vgo


/-- Putting an item into a slot. -/
theorem hArrPutRaw_spec {dt : Ptr → H Ptr} (c : Rules) (f : Bool) (a : Addr) (n : Nat) (ps : List Ptr) (i : Nat) (x p : Ptr)
    (hi : ps[i]? = some p) :
    Triple c f (isSlots a n ps) (hArrPut dt (some a) i x false) (fun r _ => ⌜r = true⌝ ∗ isSlots a n (ps.set i x)) := by
  unfold hArrPut
  refine Triple.slots (F := emp) (Asrt.star_emp _).symm fun hl hm => ?_
  have hin : i < n := by
    rw [List.getElem?_eq_some_iff] at hi
    obtain ⟨h, -⟩ := hi
    omega
  sread hArrSlot_spec a n ps i p hi
  simp only [Bool.false_and, Bool.false_eq_true, if_false]
  rw [Asrt.ex_keep (isSlots a n ps)]
  refine Triple.ex fun h => Triple.pure fun hx => ?_
  obtain ⟨s, b, e⟩ := isSlots_keep hx (by omega)
  rw [e]
  sgo1
  sgo1
  refine Triple.setField (by frame) (by omega) fun f' _ => ?_
  refine Triple.ret fun h hh => ?_
  refine Asrt.pure_star.2 ⟨rfl, isSlots_of_keep (s := s) (b := b) (by omega) hm (by simpa using hl) h ?_⟩
  rw [Asrt.star_comm] at hh
  rwa [Asrt.star_assoc] at hh

/-- Giving an item to an array, in a slot that is not set. -/
theorem hArrGive_spec {V : Type} {R : Addr → V → Asrt} {cp dt : Ptr → H Ptr} (c : Rules) (f : Bool) (a q : Addr) (v : V)
    (xs ys : List (Option V)) (i : Nat) (hi : i = xs.length) :
    Triple c f (isArr R a (xs ++ none :: ys) ∗ R q v) (hArrSet cp dt (some a) i (some q) false)
      (fun r _ => ⌜r = true⌝ ∗ isArr R a (xs ++ some v :: ys)) := by
  have hlen : (xs ++ none :: ys).length = (xs ++ some v :: ys).length := by simp
  sopen isArr
  rename_i ps
  refine Triple.conseq (P := (ex fun (qs : List Ptr) => ex fun (rs : List Ptr) =>
      ⌜ps = qs ++ none :: rs ∧ qs.length = xs.length⌝ ∗ items R qs xs ∗ items R rs ys) ∗
      isSlots a (xs ++ none :: ys).length ps ∗ R q v) (Q := fun r _ => ⌜r = true⌝ ∗ isArr R a (xs ++ some v :: ys)) ?_ ?_
      (fun _ _ _ _ h => h)
  · sintro
    rename_i qs rs h
    obtain ⟨rfl, hl⟩ := h
    unfold hArrSet
    sread hArrCount_spec a _ _
    rw [if_neg (by simp; omega)]
    dsimp only
    simp only [Bool.false_eq_true, if_false]
    refine Triple.seq' (hArrPutRaw_spec c f a _ (qs ++ none :: rs) i (some q) none (by simp [hi, ← hl])) (by frame) fun r f1 _ => ?_
    sintro
    rename_i hr
    subst hr
    have e : (qs ++ none :: rs).set i (some q) = qs ++ some q :: rs := by
      rw [hi, ← hl]; simp
    rw [e, hlen]
    refine Triple.ret fun y hy => Asrt.pure_star.2 ⟨rfl, qs ++ some q :: rs, ?_⟩
    dsimp only
    rw [items_join hl]
    revert hy
    revert y
    sentail
  · intro h hh
    rw [show ((isSlots a (xs ++ none :: ys).length ps ∗ items R ps (xs ++ none :: ys)) ∗ R q v) =
      items R ps (xs ++ none :: ys) ∗ isSlots a (xs ++ none :: ys).length ps ∗ R q v by ac_rfl] at hh
    exact Asrt.star_mono items_unset hh

/-- A new array has no items. -/
theorem hArrNew_arr {V : Type} (R : Addr → V → Asrt) (c : Rules) (f : Bool) (n : Nat) (hm : 8 * n ≤ maxBuffer) :
    Triple c f emp (hArrNew n) (fun r f' => fresh (isArr R) (List.replicate n none) r f') := by
  refine Triple.conseq (hArrNew_spec c f n hm) (fun _ h => h) fun r f' y _ hy => ?_
  cases r with
  | none => exact hy
  | some a =>
    refine ⟨List.replicate n none, ?_⟩
    dsimp only
    rw [items_null, Asrt.star_emp, List.length_replicate]
    exact hy

/-- What reading the exchanges gives. -/
def taken (exs : Addr) (done : List (Option KeyExchange)) (xs : Option (List KeyExchange)) (r f : Bool) : Asrt :=
  match r with
  | false => ⌜f = true ∨ xs = none⌝
  | true => ex fun (ys : List KeyExchange) => ⌜xs = some ys⌝ ∗ isArr isEx exs (done ++ ys.map some)

theorem exFromProto_publics {m : PExchange} {v : KeyExchange} (h : exchangeFromProto m = some v) :
    ∀ b ∈ v.publics, b ∈ m.shown := by
  unfold exchangeFromProto at h
  split at h
  · cases h
  simp only [Option.bind_eq_some_iff, Option.map_eq_some_iff] at h
  obtain ⟨d, hd, t, ht, i, hi, rfl⟩ := h
  have := (dup_eq_some.1 hd).2
  subst this
  have := (dup_eq_some.1 hi).2
  subst this
  intro b hb
  unfold KeyExchange.publics at hb
  unfold PExchange.shown
  simp only [List.mem_cons] at hb
  rcases hb with rfl | hb
  · simp
  · simp [ht, hb]

theorem hExsFromProto_view (c : Rules) (hc : c.crash) (h : Heap) (x exs : Addr) (bs : List Bytes) (hx : Has isProto h x bs) :
    ∀ (ms : List PExchange) (f : Bool) (i : Nat) (done : List (Option KeyExchange)),
    (∀ m ∈ ms, ∀ b ∈ m.shown, c.pub b) → (∀ b ∈ exsPublics done, c.pub b) → done.length = i →
    (∀ k m, ms[k]? = some m → bs[1 + 2 * (i + k)]? = some m.identifier ∧ bs[1 + 2 * (i + k) + 1]? = some m.data) →
    Triple c f (keep h ∗ isArr isEx exs (done ++ List.replicate ms.length none)) (hExsFromProto (some x) (some exs) i ms)
      (fun r f' => keep h ∗ taken exs done (ms.mapM exchangeFromProto) r f')
  | [], f, i, done, hp, hd, hl, hb => by
    unfold hExsFromProto
    refine Triple.ret fun y hy => ?_
    dsimp only [taken]
    rw [List.length_nil, List.replicate_zero, List.append_nil] at hy
    refine Asrt.star_mono_r (fun z hz => ⟨[], Asrt.pure_star.2 ⟨rfl, ?_⟩⟩) hy
    rwa [List.map_nil, List.append_nil]
  | m :: ms, f, i, done, hp, hd, hl, hb => by
    unfold hExsFromProto
    obtain ⟨hb1, hb2⟩ := hb 0 m rfl
    have hm := hp m (List.mem_cons_self ..)
    have hpd : ∀ k, ∀ b ∈ exsPublics (done ++ List.replicate k none), c.pub b := by
      intro k b hb
      unfold exsPublics at hb
      rw [List.flatMap_append, List.mem_append] at hb
      rcases hb with hb | hb
      · exact hd b hb
      · obtain ⟨y, hy, hb⟩ := List.mem_flatMap.1 hb
        rw [List.eq_of_mem_replicate hy] at hb
        simp at hb
    have := Nth.of hb1
    have := Nth.of hb2
    rw [List.mapM_cons]
    sstep hExFromProto_view c f hc h x bs (1 + 2 * i) m hm hx
    intro r f1 _
    cases r with
    | none =>
      dsimp only [gives]
      sintro
      rename_i hh
      refine Triple.destroy (hExsDestroy_spec (hpd _)) (by frame) fun f2 hf => ?_
      refine Triple.ret fun y hy => ?_
      dsimp only [taken]
      refine keep_fact (hh.imp hf fun h => by rw [h]; rfl) hy
    | some q =>
      dsimp only [gives]
      sintro
      rename_i v hv
      rw [List.length_cons, List.replicate_succ]
      sstep hArrGive_spec (R := isEx) c f1 exs q v done (List.replicate ms.length none) i hl.symm
      intro r f2 _
      sintro
      rename_i hr
      subst hr
      simp only [if_true]
      have e : done ++ some v :: List.replicate ms.length none = (done ++ [some v]) ++ List.replicate ms.length none := by simp
      rw [e]
      have ih := hExsFromProto_view c hc h x exs bs hx ms f2 (i + 1) (done ++ [some v])
        (fun n hn => hp n (List.mem_cons_of_mem _ hn))
        (fun b hb => by
          unfold exsPublics at hb
          rw [List.flatMap_append, List.mem_append] at hb
          rcases hb with hb | hb
          · exact hd b hb
          · exact hm b (exFromProto_publics hv b (by simpa using hb)))
        (by simp [hl])
        (fun k n hn => by
          have := hb (k + 1) n (by simpa using hn)
          rwa [show i + (k + 1) = i + 1 + k by omega] at this)
      refine Triple.conseq ih (by sentail) fun r f3 y _ hy => ?_
      rw [hv]
      refine Asrt.star_mono_r (fun z hz => ?_) hy
      cases r with
      | false =>
        obtain ⟨hz, rfl⟩ := hz
        exact ⟨hz.imp id (fun h => by rw [h]; rfl), rfl⟩
      | true =>
        obtain ⟨ns, hz⟩ := hz
        obtain ⟨h1, h2⟩ := Asrt.pure_star.1 hz
        refine ⟨v :: ns, Asrt.pure_star.2 ⟨by rw [h1]; rfl, ?_⟩⟩
        simpa using h2

theorem hArrNew_refuse (c : Rules) (f : Bool) (n : Nat) (hm : ¬ 8 * n ≤ maxBuffer) :
    Triple c f emp (hArrNew n) (fun r _ => ⌜r = none⌝) := by
  unfold hArrNew hStoreNew
  rw [if_neg (by omega), if_pos (Or.inl (by omega))]
  unfold onNull
  exact Triple.ret fun y hy => ⟨rfl, hy⟩

theorem parts_ex (m : PExchangeSet) (k : Nat) (n : PExchange) (h : m.exchanges[k]? = some n) :
    m.parts[1 + 2 * k]? = some n.identifier ∧ m.parts[1 + 2 * k + 1]? = some n.data := by
  unfold PExchangeSet.parts
  generalize m.exchanges = ms at h
  rw [show 1 + 2 * k + 1 = (2 * k + 1) + 1 by omega, show 1 + 2 * k = 2 * k + 1 by omega]
  simp only [List.getElem?_cons_succ]
  induction ms generalizing k with
  | nil => simp at h
  | cons x ms ih =>
    cases k with
    | zero => simp at h; subst h; simp
    | succ k =>
      have := ih k (by simpa using h)
      simpa [List.flatMap_cons, Nat.mul_add] using this

theorem exsFromProto_publics {ms : List PExchange} {ys : List KeyExchange} (h : ms.mapM exchangeFromProto = some ys) :
    ∀ b ∈ exsPublics (ys.map some), ∃ m ∈ ms, b ∈ m.shown := by
  induction ms generalizing ys with
  | nil => simp only [List.mapM_nil, Option.pure_def, Option.some.injEq] at h; subst h; simp [exsPublics]
  | cons m ms ih =>
    simp only [List.mapM_cons, Option.pure_def, Option.bind_eq_bind, Option.bind_eq_some_iff, Option.some.injEq] at h
    obtain ⟨v, hv, vs, hvs, rfl⟩ := h
    intro b hb
    unfold exsPublics at hb
    rw [List.map_cons, List.flatMap_cons, List.mem_append] at hb
    rcases hb with hb | hb
    · exact ⟨m, List.mem_cons_self .., exFromProto_publics hv b (by simpa using hb)⟩
    · obtain ⟨n, hn, hb⟩ := ih hvs b hb
      exact ⟨n, List.mem_cons_of_mem _ hn, hb⟩

theorem hSetFromProto_view (hE : E.Fits) (c : Rules) (f : Bool) (hc : c.crash) (h : Heap) (x : Addr) (m : PExchangeSet)
    (hp : ∀ b ∈ m.shown E, c.pub b) (hx : Has isProto h x m.parts) :
    Triple c f (keep h) (hSetFromProto E (some x) m) (fun r f' => keep h ∗ gives isSet (exchangeSetFromProto E m) r f') := by
  unfold hSetFromProto exchangeSetFromProto
  unfold PExchangeSet.shown at hp
  simp only [List.mem_append, or_imp, forall_and] at hp
  obtain ⟨⟨hpp, hps⟩, hpi⟩ := hp
  split
  · vgo
  by_cases hf : 8 * m.exchanges.length ≤ maxBuffer
  · rw [if_neg (by simp [arrayFits, hf])]
    unfold onNull
    sstep hArrNew_arr isEx c f m.exchanges.length hf
    intro r f1 _
    cases r with
    | none => dsimp only [fresh]; sintro; vgo
    | some exs =>
      dsimp only [fresh]
      have hq := hExsFromProto_view c hc h x exs m.parts hx m.exchanges f1 0 []
        (fun n hn b hb => hps b (List.mem_flatMap.2 ⟨n, hn, hb⟩)) (by simp [exsPublics]) rfl
        (fun k n hn => by simpa using parts_ex m k n hn)
      rw [List.nil_append] at hq
      sstep hq
      intro r f2 _
      cases r with
      | false =>
        dsimp only [taken]
        simp only [Bool.false_eq_true, if_false]
        sintro
        rename_i hh
        refine Triple.ret fun y hy => keep_fact (hh.imp id fun h => by rw [h]; rfl) hy
      | true =>
        dsimp only [taken]
        simp only [if_true]
        sintro
        rename_i ys hys
        rw [hys]
        have hpub : ∀ b ∈ exsPublics (ys.map some), c.pub b := by
          intro b hb
          obtain ⟨n, hn, hb⟩ := exsFromProto_publics hys b hb
          exact hps b (List.mem_flatMap.2 ⟨n, hn, hb⟩)
        have : Nth m.parts 0 m.senderPub := Nth.zero _ _
        sread hPart_view (i := 0) (b := m.senderPub) hx
        have hpi' : ∀ k, E.ecImport m.senderPub false = some k → c.pub k.pub := fun k hk => hpi _ (by simp [hk])
        rw [List.nil_append]
        simp only [Option.bind_some]
        clear hq hpp hps hpi hys
        vgo
  · rw [if_pos (by simp [arrayFits, hf])]
    unfold onNull
    sstep hArrNew_refuse c f m.exchanges.length hf
    intro r f1 _
    sintro
    rename_i hr
    subst hr
    vgo

theorem hSetFromBuffer_view (hE : E.Fits) (c : Rules) (f : Bool) (hc : c.crash) (h : Heap) (a : Addr) (b : Bytes)
    (hp : ∀ x ∈ setParts E b, c.pub x) (hb : Has isBuf h a b) :
    Triple c f (keep h) (hSetFromBuffer E (some a)) (fun r f' => keep h ∗ gives isSet (exchangeSetFromBuffer E b) r f') := by
  unfold hSetFromBuffer exchangeSetFromBuffer
  unfold setParts at hp
  sread readBuf_view hb
  cases hm : (fieldsDec b).bind PExchangeSet.unpack with
  | none => dsimp only [Option.bind_none]; vgo
  | some m =>
    simp only [hm, Option.toList_some, List.flatMap_cons, List.flatMap_nil, List.append_nil] at hp
    dsimp only [Option.bind_some]
    clear hm
    have hpp : ∀ b ∈ m.parts, c.pub b := fun b hb => hp b (by simp [PExchangeSet.shown, hb])
    vgo

theorem hSetFromCipher_view (hE : E.Fits) (c : Rules) (f : Bool) (hc : c.crash) (h : Heap) (a p : Addr) (r : CipherResult)
    (k : CipherKey) (hp : ∀ b, E.decrypt r none k true = some b → ∀ x ∈ setParts E b, c.pub x)
    (ha : Has isCRes h a r) (hk : Has isCKey h p k) :
    Triple c f (keep h) (hSetFromCipher E (some a) (some p)) (fun x f' => keep h ∗ gives isSet (exchangeSetFromCipher E r (some k)) x f') := by
  unfold hSetFromCipher exchangeSetFromCipher
  simp only [Option.bind_some]
  vgo

/-! ### Searching -/

theorem cresCopy_of {h : Heap} {a : Addr} {r : CipherResult} (ha : Has isCRes h a r) : cipherResultCopy r = some r := by
  obtain ⟨ci, iv, ct, tag⟩ := r
  sview ha isCRes
  have hv : ∀ {q b}, Has isBuf h q b → dup b = some b := fun hh => dup_of (has_valid hh)
  have ho : CipherResult.Ok ⟨ci, iv, ct, tag⟩ := by assumption
  have ho := (CipherResult.ok_iff _).1 ho
  unfold cipherResultCopy
  dsimp only at ho ⊢
  rw [hv (by assumption), Option.bind_some]
  have e : ∀ {q : Ptr} {x : Option Bytes}, HasOpt isBuf h q x → x.bind dup = x := by
    intro q x hq
    cases x with
    | none => rfl
    | some x =>
      cases q with
      | none => exact hq.elim
      | some q => exact hv hq
  rw [e ‹HasOpt isBuf h _ ct›, e ‹HasOpt isBuf h _ tag›]
  exact ho

theorem exCopy_of {h : Heap} {a : Addr} {v : KeyExchange} (ha : Has isEx h a v) : exchangeCopy v = some v := by
  obtain ⟨i, n, t⟩ := v
  sview ha isEx
  unfold exchangeCopy
  dsimp only
  rw [cresCopy_of (by assumption), Option.bind_some, dup_of (has_valid (by assumption))]
  rfl

theorem hExsFind_view (c : Rules) (hc : c.crash) (h : Heap) (a p : Addr) (xs : List (Option KeyExchange)) (s : Bytes)
    (r : Option KeyExchange) (hp : ∀ b ∈ exsPublics xs, c.pub b) (ha : Has (isArr isEx) h a xs) (hs : Has isBuf h p s) :
    ∀ (k : Nat) (f : Bool) (i : Nat), i + k = xs.length → exchangeFind (xs.drop i) s = Res.ofOption r →
    Triple c f (keep h) (hExsFind (some a) (some p) i k) (fun x f' => keep h ∗ givesA isEx exLoss r x f')
  | 0, f, i, hi, hr => by
    unfold hExsFind
    rw [List.drop_eq_nil_of_le (by omega)] at hr
    have : r = none := by cases r <;> simp_all [exchangeFind, Res.ofOption]
    subst this
    vgo
  | k + 1, f, i, hi, hr => by
    unfold hExsFind
    have hx : xs[i]? = some (xs[i]'(by omega)) := List.getElem?_eq_getElem (by omega)
    revert hx
    generalize hxx : xs[i]'(by omega) = x
    intro hx
    obtain ⟨q, hq, hv⟩ := (arr_view ha).2.2 i x hx
    sread hq
    rw [List.drop_eq_getElem_cons (by omega), hxx] at hr
    cases x with
    | none => cases r <;> simp [exchangeFind, Res.ofOption] at hr
    | some x =>
      cases q with
      | none => exact hv.elim
      | some q =>
        have hv' : Has isEx h q x := hv
        have hpx := exsPublics_mem hp x (List.mem_of_getElem? hx)
        have hcp := exCopy_of hv'
        obtain ⟨xi, xn, xt⟩ := x
        sview hv' isEx
        sgo1
        sread hIsEqual_view h (x := some s) (y := some xi) hs (by assumption)
        unfold exchangeFind at hr
        dsimp only at hr
        split
        · rename_i he
          rw [if_pos he, hcp] at hr
          have : r = some ⟨xi, xn, xt⟩ := by cases r <;> simp_all [Res.ofOption]
          subst this
          have := Triple.view (fun y hy => hExCopy_keep c f hc q _ hpx y hy) hv
          refine Triple.conseq this (fun _ h => h) fun x f' y _ hy => ?_
          refine Asrt.star_mono_r (fun z hz => ?_) hy
          cases x with
          | none =>
            obtain ⟨h1, h2⟩ := Asrt.pure_star.1 hz
            subst h1
            exact Asrt.pure_star.2 ⟨Or.inl rfl, h2⟩
          | some x =>
            obtain ⟨v', hz⟩ := hz
            obtain ⟨⟨h1, h2⟩, h3⟩ := Asrt.pure_star.1 hz
            refine ⟨_, v', Asrt.pure_star.2 ⟨⟨rfl, h1, h2⟩, ?_⟩⟩
            rw [← Asrt.star_emp (isEx x v')] at h3
            exact Asrt.star_mono_r (Asrt.emp_le_spill f') h3
        · rename_i he
          rw [if_neg he] at hr
          exact hExsFind_view c hc h a p xs s r hp ha hs k f (i + 1) (by omega) hr

theorem hSetFind_view (c : Rules) (f : Bool) (hc : c.crash) (h : Heap) (a p : Addr) (v : KeyExchangeSet) (s : Bytes)
    (r : Option KeyExchange) (hp : ∀ b ∈ exsPublics v.exchanges, c.pub b) (hr : exchangeSetFind v s = Res.ofOption r)
    (ha : Has isSet h a v) (hs : Has isBuf h p s) :
    Triple c f (keep h) (hSetFind (some a) (some p)) (fun x f' => keep h ∗ givesA isEx exLoss r x f') := by
  unfold hSetFind
  obtain ⟨k, xs⟩ := v
  sview ha isSet
  sgo1
  have hxs := ‹Has (isArr isEx) h _ xs›
  sread hArrCount_view hxs
  exact hExsFind_view c hc h _ p xs s r hp hxs hs xs.length f 0 (by omega) (by rw [List.drop_zero]; exact hr)

end Wickr
