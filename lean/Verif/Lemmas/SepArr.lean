import Verif.Lemmas.SepMsg
import Verif.Model.HeapArr
/-
Arrays on the heap, for any kind of item.
-/
namespace Wickr
open Asrt

theorem hStoreDestroy_spec (c : Rules) (n : Nat) (s : Addr) (ps : List Ptr) :
    Destroys c (isStore n (some s) ps) (hStoreDestroy (some s)) := by
  intro f
  unfold hStoreDestroy
  sopen isStore
  sgo

theorem hStoreNew_spec (c : Rules) (f : Bool) (n : Nat) (hn : n ≠ 0) (hm : 8 * n ≤ maxBuffer) :
    Triple c f emp (hStoreNew n) (fun r f' => fresh (fun s ps => isStore n (some s) ps) (List.replicate n none) r f') := by
  unfold hStoreNew
  have h : ¬ (8 * n > maxBuffer ∨ n = 0) := by omega
  simp only [h, if_false]
  sgo

theorem hArrNew_spec (c : Rules) (f : Bool) (n : Nat) (hm : 8 * n ≤ maxBuffer) :
    Triple c f emp (hArrNew n) (fun r f' => fresh (fun a ps => isSlots a n ps) (List.replicate n none) r f') := by
  unfold hArrNew
  by_cases hn : n = 0
  · subst hn
    simp only [if_true]
    sgo
  · simp only [hn, if_false]
    sgo

theorem Reads.owned {P : Asrt} {m : H α} {v : α} (h : ∀ x, P x → Reads (keep x) m v) : Reads P m v := by
  intro c f
  have := Triple.owned (c := c) (f := f) (P := P) (m := m) (Q := fun r f' => ⌜r = v ∧ f' = f⌝) fun x hx => by
    have := h x hx c f
    simpa only [Asrt.star_comm (keep x)] using this
  simpa only [Asrt.star_comm P] using this

theorem hArrCount_keep {a : Addr} {n : Nat} {ps : List Ptr} {h : Heap} (hx : isSlots a n ps h) :
    Reads (keep h) (hArrCount (some a)) n := by
  intro c f
  unfold hArrCount hBufLen
  skeep hx isSlots
  sgo

theorem hArrCount_spec (a : Addr) (n : Nat) (ps : List Ptr) : Reads (isSlots a n ps) (hArrCount (some a)) n :=
  Reads.owned fun _ hx => hArrCount_keep hx

theorem isSlots_length {a : Addr} {n : Nat} {ps : List Ptr} {h : Heap} (hx : isSlots a n ps h) :
    ps.length = n ∧ 8 * n ≤ maxBuffer := by
  obtain ⟨st, hx⟩ := hx
  obtain ⟨h1, h2, -, -, -, hs⟩ := hx
  cases st with
  | none => obtain ⟨⟨rfl, rfl⟩, -⟩ := hs; exact ⟨rfl, Nat.zero_le _⟩
  | some s =>
    obtain ⟨b, hs⟩ := hs
    obtain ⟨⟨-, h1, h2⟩, -⟩ := Asrt.pure_star.1 hs
    exact ⟨h2, h1⟩

theorem isSlots_keep {a : Addr} {n : Nat} {ps : List Ptr} {h : Heap} (hx : isSlots a n ps h) (hn : n ≠ 0) :
    ∃ s b, keep h = (a ↦ .obj (.len n) [some s]) ∗ (s ↦ .obj (.len (8 * n)) [some b]) ∗ (b ↦ .obj .plain ps) := by
  obtain ⟨st, hx⟩ := hx
  obtain ⟨h1, h2, hc, hs, e⟩ := keep_star hx
  cases st with
  | none => obtain ⟨⟨h, -⟩, -⟩ := hs; exact absurd h hn
  | some s =>
    obtain ⟨b, hs⟩ := hs
    obtain ⟨-, hs⟩ := Asrt.pure_star.1 hs
    obtain ⟨h3, h4, hc3, hc4, e'⟩ := keep_star hs
    exact ⟨s, b, by rw [e, e', keep_cell hc, keep_cell hc3, keep_cell hc4]⟩

theorem isSlots_of_keep {a : Addr} {n : Nat} {ps : List Ptr} {s b : Addr} (hn : n ≠ 0) (hm : 8 * n ≤ maxBuffer)
    (hl : ps.length = n) : Asrt.le ((a ↦ .obj (.len n) [some s]) ∗ (s ↦ .obj (.len (8 * n)) [some b]) ∗ (b ↦ .obj .plain ps))
      (isSlots a n ps) := by
  unfold Asrt.le
  sentail

theorem hArrSlot_keep {a : Addr} {n : Nat} {ps : List Ptr} {i : Nat} {x : Ptr} {h : Heap} (hx : isSlots a n ps h)
    (hi : ps[i]? = some x) : Reads (keep h) (hArrSlot (some a) i) x := by
  intro c f
  have hl := (isSlots_length hx).1
  have hin : i < n := by
    rw [List.getElem?_eq_some_iff] at hi
    obtain ⟨h, -⟩ := hi
    omega
  unfold hArrSlot
  sread hArrCount_keep hx
  rw [if_neg (by omega)]
  obtain ⟨s, b, e⟩ := isSlots_keep hx (by omega)
  rw [e]
  sgo1
  sgo1
  refine Triple.seq' (field_reads b _ _ i x hi c f) (by frame) ?_
  intro r f' _
  sintro
  rename_i h
  obtain ⟨rfl, rfl⟩ := h
  sgo

theorem hArrSlot_spec (a : Addr) (n : Nat) (ps : List Ptr) (i : Nat) (x : Ptr) (hi : ps[i]? = some x) :
    Reads (isSlots a n ps) (hArrSlot (some a) i) x :=
  Reads.owned fun _ hx => hArrSlot_keep hx hi

/-- Facts about an array in the precondition. -/
theorem Triple.slots {c : Rules} {f : Bool} {a : Addr} {n : Nat} {ps : List Ptr} {A F : Asrt} {m : H α} {R : α → Bool → Asrt}
    (hA : A = isSlots a n ps ∗ F) (h : ps.length = n → 8 * n ≤ maxBuffer → Triple c f A m R) : Triple c f A m R := by
  intro Al s G hf hp
  have hp' := hp
  rw [hA, Asrt.star_assoc] at hp'
  obtain ⟨h1, h2, -, -, hs, -⟩ := hp'
  obtain ⟨h3, h4⟩ := isSlots_length hs
  exact h h3 h4 Al s G hf hp

/-- Writing a pointer into an array; what was there before is released if the array makes its own copies. -/
theorem hArrPut_spec {V : Type} {R : Addr → V → Asrt} {dt : Ptr → H Ptr} (c : Rules) (f : Bool) (a : Addr) (n : Nat)
    (ps : List Ptr) (i : Nat) (x p : Ptr) (v : Option V) (hi : ps[i]? = some p)
    (hd : ∀ q w, p = some q → v = some w → Destroys c (R q w) (dt (some q))) :
    Triple c f (isSlots a n ps ∗ optRep R p v) (hArrPut dt (some a) i x true)
      (fun r _ => ⌜r = true⌝ ∗ isSlots a n (ps.set i x)) := by
  unfold hArrPut
  refine Triple.slots (by frame) fun hl hm => ?_
  have hin : i < n := by
    rw [List.getElem?_eq_some_iff] at hi
    obtain ⟨h, -⟩ := hi
    omega
  sread hArrSlot_spec a n ps i p hi
  have put : ∀ f, Triple c f (isSlots a n ps) (do
      let st ← field (some a) 0
      let b ← field st 0
      setField b i x
      Pure.pure true) (fun r _ => ⌜r = true⌝ ∗ isSlots a n (ps.set i x)) := by
    intro f
    rw [Asrt.ex_keep (isSlots a n ps)]
    refine Triple.ex fun h => Triple.pure fun hx => ?_
    obtain ⟨s, b, e⟩ := isSlots_keep hx (by omega)
    rw [e]
    sgo1
    sgo1
    refine Triple.setField (by frame) (by omega) fun f' _ => ?_
    refine Triple.ret fun h hh => ?_
    refine Asrt.pure_star.2 ⟨rfl, isSlots_of_keep (s := s) (b := b) (by omega) hm (by simpa using hl) h ?_⟩
    rw [Asrt.star_comm] at hh
    rwa [Asrt.star_assoc] at hh
  cases p with
  | none =>
    cases v with
    | none =>
      simp only [Option.isSome_none, Bool.and_false, Bool.false_eq_true, if_false]
      refine Triple.conseq (put f) ?_ (fun _ _ _ _ h => h)
      sentail
    | some v => sabsurd
  | some q =>
    cases v with
    | none => sabsurd
    | some v =>
      simp only [Option.isSome_some, Bool.and_self, if_true]
      refine Triple.destroy (hd q v rfl rfl) (by frame) fun f' _ => ?_
      exact put f'

/-- Releasing the items from index `i` on. -/
theorem hArrDestroyItems_spec {V : Type} {R : Addr → V → Asrt} {dt : Ptr → H Ptr} (c : Rules) (a : Addr) (n : Nat)
    (ps : List Ptr) (k : Nat) : ∀ (f : Bool) (i : Nat) (ps' : List Ptr) (xs' : List (Option V)),
    ps.drop i = ps' → ps'.length = k → (∀ v q, some v ∈ xs' → Destroys c (R q v) (dt (some q))) →
    Triple c f (isSlots a n ps ∗ items R ps' xs') (hArrDestroyItems dt (some a) i k) (fun _ _ => isSlots a n ps) := by
  induction k with
  | zero =>
    intro f i ps' xs' hp hl hd
    have : ps' = [] := List.eq_nil_of_length_eq_zero hl
    subst this
    unfold hArrDestroyItems
    cases xs' with
    | nil => unfold items; exact Triple.ret (by sentail)
    | cons x xs => exact Triple.pureAt (φ := False) (F := isSlots a n ps) (Asrt.star_comm _ _) fun h => h.elim
  | succ k ih =>
    intro f i ps' xs' hp hl hd
    cases ps' with
    | nil => cases hl
    | cons p ps' =>
      have hi : ps[i]? = some p := by
        have : (ps.drop i)[0]? = some p := by rw [hp]; rfl
        simpa using this
      have hp' : ps.drop (i + 1) = ps' := by
        have : (ps.drop i).drop 1 = ps' := by rw [hp]; rfl
        simpa [List.drop_drop, Nat.add_comm] using this
      cases xs' with
      | nil => exact Triple.pureAt (φ := False) (F := isSlots a n ps) (Asrt.star_comm _ _) fun h => h.elim
      | cons x xs =>
        have hd' : ∀ v q, some v ∈ xs → Destroys c (R q v) (dt (some q)) :=
          fun v q h => hd v q (List.mem_cons_of_mem _ h)
        unfold hArrDestroyItems items
        sread hArrSlot_spec a n ps i p hi
        cases p with
        | none =>
          cases x with
          | none =>
            refine Triple.conseq (ih f (i + 1) ps' xs hp' (by simpa using hl) hd') ?_ (fun _ _ _ _ h => h)
            sentail
          | some v => sabsurd
        | some q =>
          cases x with
          | none => sabsurd
          | some v =>
            refine Triple.destroy (hd v q (by simp)) (by frame) fun f' _ => ?_
            exact ih f' (i + 1) ps' xs hp' (by simpa using hl) hd'

/-- Releasing an array without its items. -/
theorem hArrDestroy_shallow (dt : Ptr → H Ptr) (c : Rules) (a : Addr) (n : Nat) (ps : List Ptr) :
    Destroys c (isSlots a n ps) (hArrDestroy dt (some a) false) := by
  intro f
  unfold hArrDestroy
  sread hArrCount_spec a n ps
  simp only [Bool.false_eq_true, if_false]
  sopen isSlots
  rename_i st
  cases st with
  | none =>
    unfold isStore
    sintro
    sgo
  | some s => sgo

/-- Releasing an array with its items. -/
theorem hArrDestroy_deep {V : Type} {R : Addr → V → Asrt} {dt : Ptr → H Ptr} {c : Rules} {a : Addr} {xs : List (Option V)}
    (hd : ∀ v q, some v ∈ xs → Destroys c (R q v) (dt (some q))) :
    Destroys c (isArr R a xs) (hArrDestroy dt (some a) true) := by
  intro f
  unfold hArrDestroy
  unfold isArr
  refine Triple.ex fun ps => ?_
  refine Triple.slots (by frame) fun hl hm => ?_
  sread hArrCount_spec a xs.length ps
  simp only [if_true]
  refine Triple.seq (hArrDestroyItems_spec c a xs.length ps xs.length f 0 ps xs rfl hl hd) (by frame) fun _ f' _ => ?_
  sopen isSlots
  rename_i st
  cases st with
  | none =>
    unfold isStore
    sintro
    sgo
  | some s => sgo

/-! ### Copying -/

/-- One item of several. -/
theorem items_keep {V : Type} {R : Addr → V → Asrt} : ∀ {ps : List Ptr} {xs : List (Option V)} {h : Heap},
    items R ps xs h → ps.length = xs.length ∧ ∀ (i : Nat) (p : Ptr), ps[i]? = some p → ∃ x h1 F, xs[i]? = some x ∧
      keep h = keep h1 ∗ F ∧ optRep R p x h1
  | [], [], h, _ => ⟨rfl, fun i p hi => by simp at hi⟩
  | [], x :: xs, h, hh => hh.1.elim
  | p :: ps, [], h, hh => hh.1.elim
  | p :: ps, x :: xs, h, hh => by
    obtain ⟨h1, h2, hx, hr, e⟩ := keep_star hh
    obtain ⟨hl, ih⟩ := items_keep hr
    refine ⟨by simp [hl], fun i q hi => ?_⟩
    cases i with
    | zero =>
      simp only [List.getElem?_cons_zero, Option.some.injEq] at hi
      subst hi
      exact ⟨x, h1, keep h2, rfl, e, hx⟩
    | succ i =>
      obtain ⟨y, h3, F, hy, e', ho⟩ := ih i q (by simpa using hi)
      exact ⟨y, h3, keep h1 ∗ F, by simpa using hy, by rw [e, e', Asrt.left_comm], ho⟩

theorem items_append {V : Type} {R : Addr → V → Asrt} {ps qs : List Ptr} {xs ys : List (Option V)}
    (h : ps.length = xs.length) : items R (ps ++ qs) (xs ++ ys) = items R ps xs ∗ items R qs ys := by
  induction ps generalizing xs with
  | nil =>
    have : xs = [] := List.eq_nil_of_length_eq_zero h.symm
    subst this
    simp [items, Asrt.emp_star]
  | cons p ps ih =>
    cases xs with
    | nil => cases h
    | cons x xs => simp [items, ih (xs := xs) (by simpa using h), Asrt.star_assoc]

theorem items_null {V : Type} {R : Addr → V → Asrt} (k : Nat) :
    items R (List.replicate k none) (List.replicate k none) = emp := by
  induction k with
  | zero => rfl
  | succ k ih => simp [List.replicate_succ, items, ih, optRep, Asrt.emp_star]

/-- The result of a copy that leaves `G` behind when it fails. -/
def leaving {V : Type} (G : Asrt) (R : Addr → V → Asrt) (L : V → V → Prop) (v : V) (r : Ptr) (f : Bool) : Asrt :=
  match r with
  | none => ⌜f = true⌝ ∗ G
  | some a => Asrt.ex fun v' => ⌜L v v' ∧ (f = false → v' = v)⌝ ∗ R a v'

theorem leaving_any {V : Type} : leaving (V := V) Asrt.any = leaky := by
  funext R L v r f
  cases r <;> rfl

theorem leaving_emp {V : Type} : leaving (V := V) emp = freshL := by
  funext R L v r f
  cases r <;> simp [leaving, freshL, Asrt.star_emp]

theorem fresh_leaving {V : Type} {R : Addr → V → Asrt} {v : V} {r : Ptr} {f : Bool} :
    fresh R v r f = leaving emp R Eq v r f := by
  funext h
  cases r with
  | none => simp [fresh, leaving, Asrt.star_emp]
  | some a =>
    apply propext
    constructor
    · intro hh
      exact ⟨v, Asrt.pure_star.2 ⟨⟨rfl, fun _ => rfl⟩, hh⟩⟩
    · rintro ⟨v', hh⟩
      obtain ⟨⟨rfl, -⟩, hh⟩ := Asrt.pure_star.1 hh
      exact hh

theorem arrLoss_length {V : Type} {L : V → V → Prop} : ∀ {xs ys : List (Option V)}, arrLoss L xs ys → xs.length = ys.length
  | [], [], _ => rfl
  | [], _ :: _, h => h.elim
  | _ :: _, [], h => h.elim
  | _ :: _, _ :: _, h => by simp [arrLoss_length h.2]

theorem arrLoss_append {V : Type} {L : V → V → Prop} : ∀ {xs ys xs' ys' : List (Option V)}, arrLoss L xs ys →
    arrLoss L xs' ys' → arrLoss L (xs ++ xs') (ys ++ ys')
  | [], [], _, _, _, h => h
  | [], _ :: _, _, _, h, _ => h.elim
  | _ :: _, [], _, _, h, _ => h.elim
  | _ :: _, _ :: _, _, _, h, h' => ⟨h.1, arrLoss_append h.2 h'⟩

theorem arrLoss_mem {V : Type} {L : V → V → Prop} : ∀ {xs ys : List (Option V)}, arrLoss L xs ys →
    ∀ w, some w ∈ ys → ∃ v, some v ∈ xs ∧ L v w
  | [], [], _, w, hw => by simp at hw
  | [], _ :: _, h, _, _ => h.elim
  | _ :: _, [], h, _, _ => h.elim
  | x :: xs, y :: ys, h, w, hw => by
    rcases List.mem_cons.1 hw with hw | hw
    · subst hw
      cases x with
      | none => exact h.1.elim
      | some v => exact ⟨v, by simp, h.1⟩
    · obtain ⟨v, hv, hl⟩ := arrLoss_mem h.2 w hw
      exact ⟨v, by simp [hv], hl⟩

/-- Setting an item of an array that makes its own copies, where there was none. -/
theorem hArrSet_spec {V : Type} {R : Addr → V → Asrt} {L : V → V → Prop} {G : Asrt} {cp dt : Ptr → H Ptr} (c : Rules)
    (f : Bool) (a : Addr) (n : Nat) (ps : List Ptr) (i : Nat) (p : Ptr) (v : Option V) (hi : ps[i]? = some none)
    (h : Heap) (hx : optRep R p v h)
    (hcp : ∀ q w, p = some q → v = some w → Triple c f (keep h) (cp (some q)) (fun r f' => keep h ∗ leaving G R L w r f')) :
    Triple c f (isSlots a n ps ∗ keep h) (hArrSet cp dt (some a) i p true)
      (fun r f' => match r with
        | false => ⌜f' = true⌝ ∗ G ∗ isSlots a n ps ∗ keep h
        | true => Asrt.ex fun (q : Ptr) => Asrt.ex fun (w : Option V) =>
            ⌜arrLoss L [v] [w] ∧ (f' = false → w = v)⌝ ∗ isSlots a n (ps.set i q) ∗ optRep R q w ∗ keep h) := by
  unfold hArrSet
  refine Triple.slots (by frame) fun hl hm => ?_
  have hin : i < n := by
    rw [List.getElem?_eq_some_iff] at hi
    obtain ⟨h, -⟩ := hi
    omega
  sread hArrCount_spec a n ps
  rw [if_neg (by omega)]
  have put : ∀ f x, Triple c f (isSlots a n ps) (hArrPut dt (some a) i x true)
      (fun r _ => ⌜r = true⌝ ∗ isSlots a n (ps.set i x)) := by
    intro f x
    refine Triple.conseq (hArrPut_spec (R := R) c f a n ps i x none none hi (by simp)) ?_ (fun _ _ _ _ h => h)
    sentail
  cases p with
  | none =>
    cases v with
    | some v => exact hx.1.elim
    | none =>
      dsimp only
      refine Triple.seq' (put f none) (by frame) fun r f' _ => ?_
      sintro
      rename_i hr
      subst hr
      refine Triple.ret fun y hy => ⟨none, none, Asrt.pure_star.2 ⟨⟨⟨trivial, trivial⟩, fun _ => rfl⟩, ?_⟩⟩
      revert hy
      revert y
      sentail
  | some q =>
    cases v with
    | none => exact hx.1.elim
    | some v =>
      dsimp only
      simp only [if_true]
      unfold onNull
      refine Triple.seq (hcp q v rfl rfl) (by frame) fun r f' _ => ?_
      cases r with
      | none =>
        dsimp only [leaving]
        sintro
        refine Triple.ret fun y hy => ?_
        dsimp only
        revert hy
        revert y
        sentail
      | some q' =>
        dsimp only [leaving]
        sintro
        rename_i w hw
        refine Triple.seq' (put f' (some q')) (by frame) fun r f2 h2 => ?_
        sintro
        rename_i hr
        subst hr
        refine Triple.ret fun y hy => ⟨some q', some w, Asrt.pure_star.2 ⟨⟨⟨hw.1, trivial⟩, fun h => ?_⟩, ?_⟩⟩
        · rw [hw.2 (by cases f' <;> simp_all)]
        · revert hy
          revert y
          sentail

/-- Copying the items from index `i` on. -/
theorem hArrCopyItems_spec {V : Type} {R : Addr → V → Asrt} {L : V → V → Prop} {G : Asrt} {cp dt : Ptr → H Ptr} (c : Rules)
    (a b : Addr) (ps : List Ptr) (xs : List (Option V)) (hs hi : Heap) (hS : isSlots a xs.length ps hs)
    (hI : items R ps xs hi)
    (hcp : ∀ f q v h, some v ∈ xs → R q v h → Triple c f (keep h) (cp (some q)) (fun r f' => keep h ∗ leaving G R L v r f'))
    (hdt : ∀ q v w, some v ∈ xs → L v w → Destroys c (R q w) (dt (some q))) (k : Nat) :
    ∀ (f : Bool) (i : Nat) (qs : List Ptr) (ys : List (Option V)), i + k = xs.length → qs.length = i →
      arrLoss L (xs.take i) ys → (f = false → ys = xs.take i) →
    Triple c f (keep hs ∗ keep hi ∗ isSlots b xs.length (qs ++ List.replicate k none) ∗ items R qs ys)
      (hArrCopyItems cp dt (some a) (some b) true i k)
      (fun r f' => keep hs ∗ keep hi ∗ leaving G (isArr R) (arrLoss L) xs r f') := by
  have hps := (isSlots_length hS).1
  obtain ⟨hlen, hit⟩ := items_keep hI
  induction k with
  | zero =>
    intro f i qs ys hk hq hl hf
    unfold hArrCopyItems
    have hti : xs.take i = xs := List.take_of_length_le (by omega)
    rw [hti] at hl hf
    have hy := arrLoss_length hl
    refine Triple.ret fun y hh => ?_
    have : Asrt.le (isSlots b xs.length (qs ++ List.replicate 0 none) ∗ items R qs ys)
        (leaving G (isArr R) (arrLoss L) xs (some b) f) := by
      intro z hz
      refine ⟨ys, Asrt.pure_star.2 ⟨⟨hl, hf⟩, qs, ?_⟩⟩
      simpa [hy] using hz
    exact Asrt.star_mono_r (fun _ h => Asrt.star_mono_r (fun z hz => this z hz) h) hh
  | succ k ih =>
    intro f i qs ys hk hq hl hf
    unfold hArrCopyItems
    have hin : i < ps.length := by omega
    have hp : ps[i]? = some ps[i] := List.getElem?_eq_getElem hin
    sread hArrSlot_keep hS hp
    obtain ⟨x, h1, F, hx, e, ho⟩ := hit i _ hp
    have hxm : x ∈ xs := List.mem_of_getElem? hx
    have htk : xs.take (i + 1) = xs.take i ++ [x] := by rw [List.take_add_one, hx]; rfl
    have hqi : (qs ++ List.replicate (k + 1) (none : Ptr))[i]? = some none := by
      rw [List.getElem?_append_right (by omega), hq]
      simp
    have hcp' : ∀ q w, ps[i] = some q → x = some w → Triple c f (keep h1) (cp (some q))
        (fun r f' => keep h1 ∗ leaving G R L w r f') := by
      intro q w hq hw
      rw [hq, hw] at ho
      exact hcp f q w h1 (hw ▸ hxm) ho
    refine Triple.seq (hArrSet_spec (G := G) (L := L) (cp := cp) (dt := dt) c f b xs.length _ i ps[i] x hqi h1 ho hcp')
      (F := keep hs ∗ F ∗ items R qs ys) ?_ fun r f' hff => ?_
    · rw [e]; frame
    cases r with
    | false =>
      dsimp only
      simp only [Bool.false_eq_true, if_false]
      sintro
      rename_i hf'
      subst hf'
      have hd : Destroys c (isArr R b (ys ++ List.replicate (k + 1) none)) (hArrDestroy dt (some b) true) := by
        refine hArrDestroy_deep fun w q hw => ?_
        rw [List.mem_append] at hw
        rcases hw with hw | hw
        · obtain ⟨v, hv, hvw⟩ := arrLoss_mem hl w hw
          exact hdt q v w (List.mem_of_mem_take hv) hvw
        · exact absurd (List.eq_of_mem_replicate hw) (by simp)
      have hy := arrLoss_length hl
      rw [List.length_take, Nat.min_eq_left (by omega)] at hy
      refine Triple.conseq (P := keep hs ∗ keep hi ∗ G ∗ isArr R b (ys ++ List.replicate (k + 1) none)) (Q := fun r f' =>
        keep hs ∗ keep hi ∗ leaving G (isArr R) (arrLoss L) xs r f') ?_ ?_ (fun _ _ _ _ h => h)
      · refine Triple.destroy hd (by frame) fun f2 hf2 => ?_
        refine Triple.ret ?_
        have := hf2 rfl
        subst this
        unfold leaving
        sentail
      · intro y hh
        have hh : (keep hs ∗ keep hi ∗ G ∗ isSlots b xs.length (qs ++ List.replicate (k + 1) none) ∗ items R qs ys) y := by
          revert hh
          rw [e]
          revert y
          sentail
        refine Asrt.star_mono_r (fun _ h => Asrt.star_mono_r (fun _ h => Asrt.star_mono_r (fun z hz => ?_) h) h) hh
        refine ⟨qs ++ List.replicate (k + 1) none, ?_⟩
        dsimp only
        rw [items_append (by omega), items_null, Asrt.star_emp]
        rw [List.length_append, List.length_replicate]
        have : ys.length + (k + 1) = xs.length := by omega
        rw [this]
        exact hz
    | true =>
      dsimp only
      simp only [if_true]
      refine Triple.exAt (by frame) fun q => ?_
      refine Triple.exAt (by frame) fun w => ?_
      refine Triple.pureAt (by frame) fun hw => ?_
      have hset : (qs ++ List.replicate (k + 1) (none : Ptr)).set i q = (qs ++ [q]) ++ List.replicate k none := by
        rw [List.set_append_right _ _ (by omega), hq]
        simp [List.replicate_succ]
      rw [hset]
      have hy := arrLoss_length hl
      rw [List.length_take, Nat.min_eq_left (by omega)] at hy
      refine Triple.conseq (ih f' (i + 1) (qs ++ [q]) (ys ++ [w]) (by omega) (by simp [hq]) ?_ ?_) ?_ (fun _ _ _ _ h => h)
      · rw [htk]; exact arrLoss_append hl hw.1
      · intro h
        have : f = false := by cases f; exact rfl; exact absurd (hff rfl) (by simp [h])
        rw [htk, hw.2 h, hf this]
      · rw [items_append (by omega)]
        unfold items items
        rw [e]
        sentail

/-- `wickr_array_copy`, deep. -/
theorem hArrCopy_keep {V : Type} {R : Addr → V → Asrt} {L : V → V → Prop} {G : Asrt} {cp dt : Ptr → H Ptr} (c : Rules) (f : Bool)
    (hG : Asrt.le emp G) (a : Addr) (xs : List (Option V))
    (hcp : ∀ f q v h, some v ∈ xs → R q v h → Triple c f (keep h) (cp (some q)) (fun r f' => keep h ∗ leaving G R L v r f'))
    (hdt : ∀ q v w, some v ∈ xs → L v w → Destroys c (R q w) (dt (some q))) (h : Heap) (hx : isArr R a xs h) :
    Triple c f (keep h) (hArrCopy cp dt (some a) true) (fun r f' => keep h ∗ leaving G (isArr R) (arrLoss L) xs r f') := by
  unfold hArrCopy
  obtain ⟨ps, hx⟩ := hx
  obtain ⟨hs, hi, hS, hI, e⟩ := keep_star hx
  rw [e]
  sread hArrCount_keep hS
  refine Triple.seq (hArrNew_spec c f xs.length (isSlots_length hS).2) (F := keep hs ∗ keep hi) (by frame) fun r f' _ => ?_
  cases r with
  | none =>
    sintro
    rename_i hf
    subst hf
    have fin : Triple c true (keep hs ∗ keep hi) (Pure.pure none : H Ptr)
        (fun r f' => (keep hs ∗ keep hi) ∗ leaving G (isArr R) (arrLoss L) xs r f') := by
      refine Triple.ret fun y hy => ?_
      rw [Asrt.star_comm]
      unfold leaving
      rw [Asrt.star_assoc]
      refine Asrt.pure_star.2 ⟨rfl, ?_⟩
      rw [← Asrt.emp_star (keep hs ∗ keep hi)] at hy
      exact Asrt.star_mono hG hy
    cases hn : xs.length with
    | zero => exact fin
    | succ k =>
      unfold hArrCopyItems
      have hps := (isSlots_length hS).1
      have hp : ps[0]? = some (ps[0]'(by omega)) := List.getElem?_eq_getElem (by omega)
      sread hArrSlot_keep hS hp
      exact fin
  | some b =>
    dsimp only [fresh]
    refine Triple.conseq (hArrCopyItems_spec (G := G) (L := L) c a b ps xs hs hi hS hI hcp hdt xs.length f' 0 [] []
      (by omega) rfl (by simp [arrLoss]) (by simp)) ?_ (fun _ _ _ _ h => by rw [Asrt.star_assoc]; exact h)
    simp only [List.nil_append]
    unfold items
    sentail

/-! ### Arrays of nodes, sets of exchanges, parse results -/

theorem nodeLoss_publics {v v' : Node} (h : nodeLoss v v') : ∀ b ∈ v'.publics, b ∈ v.publics := by
  obtain ⟨h1, h2, h3, -, h4⟩ := h
  intro b hb
  simp only [Node.publics, List.mem_append, List.mem_cons, h1, h3, h4] at hb ⊢
  rcases hb with ((hb | hb) | hb) | hb
  · exact Or.inl (Or.inl (Or.inl hb))
  · exact Or.inl (Or.inl (Or.inr (chainLoss_publics h2 b hb)))
  · exact Or.inl (Or.inr hb)
  · exact Or.inr hb

theorem hNodesCopy_keep (c : Rules) (f : Bool) (hc : c.crash) (a : Addr) (xs : List (Option Node))
    (hp : ∀ b ∈ nodesPublics xs, c.pub b) (h : Heap) (hx : isArr isNode a xs h) :
    Triple c f (keep h) (hNodesCopy (some a)) (fun r f' => keep h ∗ freshL (isArr isNode) (arrLoss nodeLoss) xs r f') := by
  unfold hNodesCopy
  rw [← leaving_emp]
  have hp' : ∀ v, some v ∈ xs → ∀ b ∈ v.publics, c.pub b := fun v hv b hb =>
    hp b (List.mem_flatMap.2 ⟨some v, hv, hb⟩)
  refine hArrCopy_keep c f (Asrt.le_refl _) a xs ?_ ?_ h hx
  · intro f q v h hv hh
    rw [leaving_emp]
    exact hNodeCopy_keep c f hc q v (hp' v hv) h hh
  · intro q v w hv hl
    exact hNodeDestroy_spec (publics_of_loss nodeLoss_publics hl (hp' v hv))

theorem exsPublics_mem {xs : List (Option KeyExchange)} {P : Bytes → Prop} (hp : ∀ b ∈ exsPublics xs, P b) :
    ∀ v, some v ∈ xs → ∀ b ∈ v.publics, P b :=
  fun v hv b hb => hp b (List.mem_flatMap.2 ⟨some v, hv, hb⟩)

theorem exsLoss_publics {xs ys : List (Option KeyExchange)} (h : arrLoss exLoss xs ys) :
    ∀ b ∈ exsPublics ys, b ∈ exsPublics xs := by
  intro b hb
  obtain ⟨y, hy, hb⟩ := List.mem_flatMap.1 hb
  cases y with
  | none => simp at hb
  | some w =>
    obtain ⟨v, hv, hl⟩ := arrLoss_mem h w hy
    exact List.mem_flatMap.2 ⟨some v, hv, exLoss_publics hl b hb⟩

theorem hExsDestroy_spec {c : Rules} {a : Addr} {xs : List (Option KeyExchange)} (hp : ∀ b ∈ exsPublics xs, c.pub b) :
    Destroys c (isArr isEx a xs) (hExsDestroy (some a)) :=
  hArrDestroy_deep fun v _ hv => hExDestroy_spec (exsPublics_mem hp v hv)

theorem hExsCopy_keep (c : Rules) (f : Bool) (hc : c.crash) (a : Addr) (xs : List (Option KeyExchange))
    (hp : ∀ b ∈ exsPublics xs, c.pub b) (h : Heap) (hx : isArr isEx a xs h) :
    Triple c f (keep h) (hExsCopy (some a)) (fun r f' => keep h ∗ leaky (isArr isEx) (arrLoss exLoss) xs r f') := by
  unfold hExsCopy
  rw [← leaving_any]
  refine hArrCopy_keep c f (Asrt.le_any _) a xs ?_ ?_ h hx
  · intro f q v h hv hh
    rw [leaving_any]
    exact hExCopy_keep c f hc q v (exsPublics_mem hp v hv) h hh
  · intro q v w hv hl
    exact hExDestroy_spec (publics_of_loss exLoss_publics hl (exsPublics_mem hp v hv))

theorem hExsCopy_spec (c : Rules) (f : Bool) (hc : c.crash) (a : Addr) (xs : List (Option KeyExchange))
    (hp : ∀ b ∈ exsPublics xs, c.pub b) :
    Triple c f (isArr isEx a xs) (hExsCopy (some a))
      (fun r f' => isArr isEx a xs ∗ leaky (isArr isEx) (arrLoss exLoss) xs r f') :=
  Triple.owned fun h hx => hExsCopy_keep c f hc a xs hp h hx

theorem setLoss_publics {v v' : KeyExchangeSet} (h : setLoss v v') : ∀ b ∈ v'.publics, b ∈ v.publics := by
  obtain ⟨h1, h2⟩ := h
  intro b hb
  simp only [KeyExchangeSet.publics, List.mem_cons, h1] at hb ⊢
  exact hb.imp id (exsLoss_publics h2 b)

macro_rules | `(tactic| sside) => `(tactic| (refine ⟨by simp_all [setLoss], by grind⟩))
macro_rules | `(tactic| sarg) => `(tactic| exact publics_of_loss exsLoss_publics (by assumption) (by assumption))

theorem hSetCreate_spec (c : Rules) (f : Bool) (p q : Addr) (k : EcKey) (xs : List (Option KeyExchange)) :
    Triple c f (isKey p k ∗ isArr isEx q xs) (hSetCreate (some p) (some q))
      (fun r f' => orKeep (isKey p k ∗ isArr isEx q xs) isSet ⟨k, xs⟩ r f') := by
  unfold hSetCreate
  sgo

theorem hSetDestroy_spec {c : Rules} {a : Addr} {v : KeyExchangeSet} (hp : ∀ b ∈ v.publics, c.pub b) :
    Destroys c (isSet a v) (hSetDestroy (some a)) := by
  intro f
  unfold hSetDestroy
  obtain ⟨k, xs⟩ := v
  simp only [KeyExchangeSet.publics, List.mem_cons, or_imp, forall_and, forall_eq] at hp
  obtain ⟨h1, h2⟩ := hp
  sopen isSet
  sgo

theorem hSetCopy_keep (c : Rules) (f : Bool) (hc : c.crash) (a : Addr) (v : KeyExchangeSet) (hp : ∀ b ∈ v.publics, c.pub b)
    (h : Heap) (hx : isSet a v h) :
    Triple c f (keep h) (hSetCopy (some a)) (fun r f' => keep h ∗ leaky isSet setLoss v r f') := by
  unfold hSetCopy
  obtain ⟨k, xs⟩ := v
  simp only [KeyExchangeSet.publics, List.mem_cons, or_imp, forall_and, forall_eq] at hp
  obtain ⟨h1, h2⟩ := hp
  skeep hx isSet
  sgo

theorem hSetCopy_spec (c : Rules) (f : Bool) (hc : c.crash) (a : Addr) (v : KeyExchangeSet) (hp : ∀ b ∈ v.publics, c.pub b) :
    Triple c f (isSet a v) (hSetCopy (some a)) (fun r f' => isSet a v ∗ leaky isSet setLoss v r f') :=
  Triple.owned fun h hx => hSetCopy_keep c f hc a v hp h hx

theorem optLoss_publics {V : Type} {L : V → V → Prop} {pubs : V → List Bytes} (hL : ∀ {v w : V}, L v w → ∀ b ∈ pubs w, b ∈ pubs v)
    {x y : Option V} (h : optLoss L x y) : ∀ b ∈ (y.map pubs).getD [], b ∈ (x.map pubs).getD [] := by
  rcases h with rfl | ⟨v, w, rfl, rfl, h⟩
  · simp
  · exact hL h

theorem parseLoss_publics {v v' : ParseResult} (h : parseLoss v v') : ∀ b ∈ v'.publics, b ∈ v.publics := by
  obtain ⟨-, -, h1, h2, h3⟩ := h
  intro b hb
  simp only [ParseResult.publics, List.mem_append] at hb ⊢
  rcases hb with (hb | hb) | hb
  · exact Or.inl (Or.inl (optLoss_publics (fun h => setLoss_publics h) h1 b hb))
  · exact Or.inl (Or.inr (optLoss_publics (fun h => cresLoss_publics h) h2 b hb))
  · exact Or.inr (optLoss_publics (fun h => exLoss_publics h) h3 b hb)

theorem hParseCreate_spec (c : Rules) (f : Bool) (p q r : Ptr) (s : SigStatus) (e : DecodeErr) (v : Option KeyExchangeSet)
    (w : Option CipherResult) (x : Option KeyExchange) :
    Triple c f (optRep isSet p v ∗ optRep isCRes q w ∗ optRep isEx r x) (hParseCreate p r q s e)
      (fun y f' => orKeep (optRep isSet p v ∗ optRep isCRes q w ∗ optRep isEx r x) isParse ⟨e, s, v, x, w⟩ y f') := by
  unfold hParseCreate
  sgo

theorem hParseDestroy_spec {c : Rules} {a : Addr} {v : ParseResult} (hp : ∀ b ∈ v.publics, c.pub b) :
    Destroys c (isParse a v) (hParseDestroy (some a)) := by
  intro f
  unfold hParseDestroy
  obtain ⟨e, s, v, x, w⟩ := v
  simp only [ParseResult.publics, List.mem_append, or_imp, forall_and] at hp
  obtain ⟨⟨h1, h2⟩, h3⟩ := hp
  sopen isParse
  sopt <;> simp at h1 h2 h3 <;> sgo

macro_rules | `(tactic| sside) => `(tactic| (refine ⟨⟨rfl, rfl, ?_, ?_, ?_⟩, by grind⟩ <;> first | exact Or.inl rfl | exact Or.inr ⟨_, _, rfl, rfl, And.left (by assumption)⟩ | exact Or.inr ⟨_, _, rfl, rfl, by assumption⟩))
macro_rules | `(tactic| sarg) => `(tactic| exact publics_of_loss exLoss_publics (And.left (by assumption)) (by assumption))
macro_rules | `(tactic| sarg) => `(tactic| exact publics_of_loss cresLoss_publics (And.left (by assumption)) (by assumption))
macro_rules | `(tactic| sarg) => `(tactic| exact publics_of_loss setLoss_publics (And.left (by assumption)) (by assumption))
macro_rules | `(tactic| sarg) => `(tactic| exact publics_of_loss setLoss_publics (by assumption) (by assumption))

theorem hParseCopy_keep (c : Rules) (f : Bool) (hc : c.crash) (a : Addr) (v : ParseResult) (hp : ∀ b ∈ v.publics, c.pub b)
    (h : Heap) (hx : isParse a v h) :
    Triple c f (keep h) (hParseCopy (some a)) (fun r f' => keep h ∗ wasteful isParse parseLoss v r f') := by
  unfold hParseCopy
  obtain ⟨e, s, v, x, w⟩ := v
  simp only [ParseResult.publics, List.mem_append, or_imp, forall_and] at hp
  obtain ⟨⟨h1, h2⟩, h3⟩ := hp
  skeep hx isParse
  skopt <;> simp at h1 h2 h3 <;> sgo <;> (rename_i f' _; cases f' <;> first | (sgo; done) | (exfalso; grind))

end Wickr
