import Verif.Model.Array
import Verif.Spec.Array
import Verif.Lemmas.Buffer
set_option linter.unusedSimpArgs false
namespace Wickr.Arr

variable {V : Type}

def sget (s : Spec.State V) (a : Nat) : Option (List (Option V)) := (s[a]?).join

def view (w : World V) (p : Nat) : Option V := if p = 0 then none else w.heap p

structure Inv (w : World V) : Prop where
  pos : 1 ≤ w.next
  live : ∀ a slots, w.get a = some slots → ∀ p ∈ slots, p ≠ 0 → p < w.next ∧ (w.heap p).isSome
  inj : ∀ a b (sa sb : List Nat) (i j p : Nat), w.get a = some sa → w.get b = some sb → sa[i]? = some p → sb[j]? = some p → p ≠ 0 → a = b ∧ i = j
  size : ∀ a slots, w.get a = some slots → slots.length ≤ Spec.maxCount

def Rel (w : World V) (s : Spec.State V) : Prop :=
  s.length = w.arrays.length ∧ ∀ a, sget s a = (w.get a).map (fun sl => sl.map (view w))

theorem get_lt {w : World V} {a sl} (h : w.get a = some sl) : a < w.arrays.length := by
  unfold World.get at h
  by_cases h' : a < w.arrays.length
  · exact h'
  · rw [List.getElem?_eq_none (by omega)] at h; cases h

theorem get_set {w : World V} {a b : Nat} {x : Option (List Nat)} (ha : a < w.arrays.length)
    (h' : Nat → Option V) (n : Nat) :
    World.get (V := V) ⟨h', n, w.arrays.set a x⟩ b = if b = a then x else w.get b := by
  unfold World.get
  simp only [List.getElem?_set]
  by_cases hb : b = a
  · subst hb; simp [ha]
  · simp [hb, Ne.symm hb]

theorem sget_set {s : Spec.State V} {a b : Nat} {x : Option (List (Option V))} (ha : a < s.length) :
    sget (s.set a x) b = if b = a then x else sget s b := by
  unfold sget
  simp only [List.getElem?_set]
  by_cases hb : b = a
  · subst hb; simp [ha]
  · simp [hb, Ne.symm hb]

theorem get_append {w : World V} {b : Nat} {x : Option (List Nat)} (h' : Nat → Option V) (n : Nat) :
    World.get (V := V) ⟨h', n, w.arrays ++ [x]⟩ b = if b = w.arrays.length then x else w.get b := by
  unfold World.get
  simp only [List.getElem?_append]
  by_cases hb : b = w.arrays.length
  · subst hb; simp
  · by_cases h : b < w.arrays.length
    · simp [h, hb]
    · have h2 : ([x] : List (Option (List Nat)))[b - w.arrays.length]? = none := by
        apply List.getElem?_eq_none; simp; omega
      simp [h, hb, h2]

theorem sget_append {s : Spec.State V} {b : Nat} {x : Option (List (Option V))} :
    sget (s ++ [x]) b = if b = s.length then x else sget s b := by
  unfold sget
  simp only [List.getElem?_append]
  by_cases hb : b = s.length
  · subst hb; simp
  · by_cases h : b < s.length
    · simp [h, hb]
    · have h2 : ([x] : List (Option (List (Option V))))[b - s.length]? = none := by
        apply List.getElem?_eq_none; simp; omega
      simp [h, hb, h2]

theorem init_inv : Inv (World.init : World V) where
  pos := by simp [World.init]
  live := by intro a sl h; simp [World.get, World.init] at h
  inj := by intro a b sa sb i j p h; simp [World.get, World.init] at h
  size := by intro a sl h; simp [World.get, World.init] at h

theorem init_rel : Rel (World.init : World V) [] := by
  constructor
  · rfl
  · intro a; simp [sget, World.get, World.init]

/-- A new array of NULL pointers. -/
theorem new_spec {w : World V} {s : Spec.State V} (hi : Inv w) (hr : Rel w s) (n : Nat) (hn : n ≤ Spec.maxCount) :
    Inv (⟨w.heap, w.next, w.arrays ++ [some (List.replicate n 0)]⟩ : World V) ∧
    Rel (⟨w.heap, w.next, w.arrays ++ [some (List.replicate n 0)]⟩ : World V) (s ++ [some (List.replicate n none)]) := by
  refine ⟨⟨hi.pos, ?_, ?_, ?_⟩, ?_, ?_⟩
  · intro a sl h p hp hp0
    rw [get_append] at h
    by_cases ha : a = w.arrays.length
    · rw [if_pos ha] at h; cases h
      exact absurd (List.eq_of_mem_replicate hp) hp0
    · rw [if_neg ha] at h; exact hi.live a sl h p hp hp0
  · intro a b sa sb i j p ha hb hia hjb hp0
    rw [get_append] at ha hb
    by_cases ha' : a = w.arrays.length
    · rw [if_pos ha'] at ha; cases ha
      exact absurd (List.eq_of_mem_replicate (List.mem_of_getElem? hia)) hp0
    · rw [if_neg ha'] at ha
      by_cases hb' : b = w.arrays.length
      · rw [if_pos hb'] at hb; cases hb
        exact absurd (List.eq_of_mem_replicate (List.mem_of_getElem? hjb)) hp0
      · rw [if_neg hb'] at hb; exact hi.inj a b sa sb i j p ha hb hia hjb hp0
  · intro a sl h
    rw [get_append] at h
    by_cases ha : a = w.arrays.length
    · rw [if_pos ha] at h; cases h; simpa using hn
    · rw [if_neg ha] at h; exact hi.size a sl h
  · simp [hr.1]
  · intro a
    rw [sget_append, get_append, hr.1]
    by_cases ha : a = w.arrays.length
    · simp [ha, view]
    · simp only [ha, if_false]; exact hr.2 a

theorem canAlloc_8 (n : Nat) (hn : n < 2 ^ 32) :
    (n ≠ 0 ∧ ¬ canAlloc (UInt64.ofNat (8 * n)) = true) ↔ ¬ n ≤ Spec.maxCount := by
  have h := canAlloc_iff (UInt64.ofNat (8 * n))
  have e : (UInt64.ofNat (8 * n)).toNat = 8 * n := by simp; omega
  rw [e, maxBuffer_val] at h
  rw [h]
  unfold Spec.maxCount
  rw [maxBuffer_val]
  omega

theorem store_valid {n i : Nat} (hi : i < n) (hn : n ≤ Spec.maxCount) :
    validateRange (UInt64.ofNat (8 * n)) (UInt64.ofNat (8 * i)) 8 = true := by
  rw [validateRange_iff, maxBuffer_val]
  unfold Spec.maxCount at hn
  rw [maxBuffer_val] at hn
  have e1 : (UInt64.ofNat (8 * n)).toNat = 8 * n := by simp; omega
  have e2 : (UInt64.ofNat (8 * i)).toNat = 8 * i := by simp; omega
  have e3 : (8 : UInt64).toNat = 8 := rfl
  rw [e1, e2, e3]; omega

/-- Replacing the pointer of slot `(a, i)` by `p`, where `p` is NULL or a fresh object holding the
new value, and the heap is otherwise unchanged except possibly for the old object of that slot. -/
theorem replace_spec {w : World V} {s : Spec.State V} (hi : Inv w) (hr : Rel w s)
    {a i : Nat} {slots : List Nat} (hg : w.get a = some slots) (hlt : i < slots.length)
    (h' : Nat → Option V) (n' p : Nat) (v : Option V)
    (hn : w.next ≤ n')
    (hp : p = 0 ∧ v = none ∨ p = w.next ∧ p < n' ∧ h' p = v ∧ v.isSome)
    (hh : ∀ q, q < w.next → q ≠ 0 → slots[i]? ≠ some q → h' q = w.heap q) :
    ∀ l, sget s a = some l →
    Inv (⟨h', n', w.arrays.set a (some (slots.set i p))⟩ : World V) ∧
    Rel (⟨h', n', w.arrays.set a (some (slots.set i p))⟩ : World V) (s.set a (some (l.set i v))) := by
  intro l hl
  have hal := get_lt hg
  have hpos := hi.pos
  have hpv : (if p = 0 then none else h' p) = v := by
    rcases hp with ⟨rfl, rfl⟩ | ⟨h1, h2, h3, h4⟩
    · simp
    · rw [if_neg (by omega), h3]
  -- any old live pointer at another position keeps its content
  have keep : ∀ b sb j q, w.get b = some sb → sb[j]? = some q → q ≠ 0 → ¬ (b = a ∧ j = i) →
      h' q = w.heap q := by
    intro b sb j q hb hj hq0 hne
    have hlv := hi.live b sb hb q (List.mem_of_getElem? hj) hq0
    apply hh q hlv.1 hq0
    intro hsame
    have := hi.inj b a sb slots j i q hb hg hj hsame hq0
    exact hne this
  have hmemset : ∀ (q j : Nat), (slots.set i p)[j]? = some q → (j = i ∧ q = p) ∨ (j ≠ i ∧ slots[j]? = some q) := by
    intro q j hj
    rw [List.getElem?_set] at hj
    by_cases hji : i = j
    · rw [if_pos hji] at hj; subst hji
      rw [if_pos hlt] at hj; cases hj; exact Or.inl ⟨rfl, rfl⟩
    · rw [if_neg hji] at hj; exact Or.inr ⟨Ne.symm hji, hj⟩
  -- every pointer of the new world: either the new one at (a,i) or an old one elsewhere
  have cases_new : ∀ b sb j q, World.get (V := V) ⟨h', n', w.arrays.set a (some (slots.set i p))⟩ b = some sb →
      sb[j]? = some q →
      (b = a ∧ j = i ∧ q = p) ∨ (¬ (b = a ∧ j = i) ∧ ∃ ob, w.get b = some ob ∧ ob[j]? = some q) := by
    intro b sb j q hb hj
    rw [get_set hal] at hb
    by_cases hba : b = a
    · rw [if_pos hba] at hb; cases hb
      rcases hmemset q j hj with ⟨h1, h2⟩ | ⟨h1, h2⟩
      · exact Or.inl ⟨hba, h1, h2⟩
      · exact Or.inr ⟨fun h => h1 h.2, slots, by rw [hba]; exact hg, h2⟩
    · rw [if_neg hba] at hb
      exact Or.inr ⟨fun h => hba h.1, sb, hb, hj⟩
  refine ⟨⟨by simp; omega, ?_, ?_, ?_⟩, ?_, ?_⟩
  · intro b sb hb q hq hq0
    obtain ⟨j, hj⟩ := List.mem_iff_getElem?.1 hq
    rcases cases_new b sb j q hb hj with ⟨_, _, rfl⟩ | ⟨hne, ob, hob, hoj⟩
    · rcases hp with ⟨rfl, _⟩ | ⟨h1, h2, h3, h4⟩
      · exact absurd rfl hq0
      · exact ⟨h2, by simp only [h3, h4]⟩
    · have := hi.live b ob hob q (List.mem_of_getElem? hoj) hq0
      exact ⟨by simp only; omega, by simp only [keep b ob j q hob hoj hq0 hne]; exact this.2⟩
  · intro b c sb sc j k q hb hc hj hk hq0
    rcases cases_new b sb j q hb hj with ⟨rfl, rfl, rfl⟩ | ⟨hne, ob, hob, hoj⟩
    · rcases cases_new c sc k q hc hk with ⟨rfl, rfl, _⟩ | ⟨hne', oc, hoc, hok⟩
      · exact ⟨rfl, rfl⟩
      · have := (hi.live c oc hoc q (List.mem_of_getElem? hok) hq0).1
        rcases hp with ⟨rfl, _⟩ | ⟨h1, _⟩
        · exact absurd rfl hq0
        · omega
    · rcases cases_new c sc k q hc hk with ⟨rfl, rfl, rfl⟩ | ⟨hne', oc, hoc, hok⟩
      · have := (hi.live b ob hob q (List.mem_of_getElem? hoj) hq0).1
        rcases hp with ⟨rfl, _⟩ | ⟨h1, _⟩
        · exact absurd rfl hq0
        · omega
      · exact hi.inj b c ob oc j k q hob hoc hoj hok hq0
  · intro b sb hb
    rw [get_set hal] at hb
    by_cases hba : b = a
    · rw [if_pos hba] at hb; cases hb
      rw [List.length_set]; exact hi.size a slots hg
    · rw [if_neg hba] at hb; exact hi.size b sb hb
  · simp [hr.1]
  · intro b
    rw [sget_set (by rw [hr.1]; exact hal), get_set hal]
    by_cases hba : b = a
    · subst hba
      simp only [if_true, Option.map_some, Option.some.injEq]
      have h0 := hr.2 b
      rw [hl, hg] at h0
      simp only [Option.map_some, Option.some.injEq] at h0
      subst h0
      apply List.ext_getElem?
      intro j
      rw [List.getElem?_set, List.getElem?_map, List.getElem?_map, List.getElem?_set, List.length_map]
      by_cases hji : i = j
      · simp only [hji, if_true]
        rw [if_pos (hji ▸ hlt)]
        simp only [Option.map_some, view, if_pos (hji ▸ hlt)]
        rw [hpv]
      · simp only [hji, if_false]
        cases hsj : slots[j]? with
        | none => rfl
        | some q =>
          simp only [Option.map_some, view, Option.some.injEq]
          by_cases hq0 : q = 0
          · simp [hq0]
          · simp only [hq0, if_false]
            rw [keep b slots j q hg hsj hq0 (fun h => hji h.2.symm)]
    · simp only [hba, if_false]
      rw [hr.2 b]
      cases hb : w.get b with
      | none => rfl
      | some sb =>
        simp only [Option.map_some, Option.some.injEq]
        apply List.map_congr_left
        intro q hq
        simp only [view]
        obtain ⟨j, hj⟩ := List.mem_iff_getElem?.1 hq
        by_cases hq0 : q = 0
        · simp [hq0]
        · simp only [hq0, if_false]
          rw [keep b sb j q hb hj hq0 (fun h => hba h.1)]

theorem set_spec (cp : V → Option V) (hcp : ∀ v v', cp v = some v' → v' = v)
    {w : World V} {s : Spec.State V} (hi : Inv w) (hr : Rel w s) (a i : Nat) (item : Option V) (c : Bool) :
    match sget s a with
    | none => w.set cp a i item c = .ok (w, false)
    | some l =>
      if i < l.length ∧ (c = true → item.all (fun v => (cp v).isSome)) then
        ∃ w', w.set cp a i item c = .ok (w', true) ∧ Inv w' ∧ Rel w' (s.set a (some (l.set i item)))
      else w.set cp a i item c = .ok (w, false) := by
  have hra := hr.2 a
  cases hg : w.get a with
  | none =>
    rw [hg] at hra; simp only [Option.map_none] at hra
    simp [hra, World.set, hg]
  | some slots =>
    rw [hg] at hra; simp only [Option.map_some] at hra
    rw [hra]
    simp only [List.length_map]
    have hset : w.set cp a i item c = .ok (w, false) ∨ True := Or.inr trivial
    clear hset
    by_cases hlt : i < slots.length
    · have hv := store_valid hlt (hi.size a slots hg)
      have hpos := hi.pos
      have hptr : ∀ (h' : Nat → Option V) (n' : Nat), World.ptrAt ⟨h', n', w.arrays⟩ a i = slots[i] := by
        intro h' n'
        have : World.get (V := V) ⟨h', n', w.arrays⟩ a = some slots := hg
        simp [World.ptrAt, this, hlt]
        omega
      have hstore : ∀ (h' : Nat → Option V) (n' p : Nat), World.store (V := V) ⟨h', n', w.arrays⟩ a i p
          = (⟨h', n', w.arrays.set a (some (slots.set i p))⟩, true) := by
        intro h' n' p
        have : World.get (V := V) ⟨h', n', w.arrays⟩ a = some slots := hg
        simp only [World.store, this, hv, if_true]
      have hsi : slots[i]? = some slots[i] := List.getElem?_eq_getElem hlt
      have hold : slots[i] ≠ 0 → slots[i] < w.next ∧ (w.heap slots[i]).isSome := fun h =>
        hi.live a slots hg _ (List.getElem_mem hlt) h
      -- the old item is destroyed when copying
      have finish : ∀ (h1 : Nat → Option V) (n' p : Nat) (hle : w.next ≤ n')
          (hp : p = 0 ∧ item = none ∨ p = w.next ∧ p < n' ∧ h1 p = item ∧ item.isSome)
          (hh : ∀ q, q < w.next → h1 q = w.heap q),
          ∃ w', (if World.ptrAt ⟨h1, n', w.arrays⟩ a i ≠ 0 ∧ c = true then
                (World.free ⟨h1, n', w.arrays⟩ (World.ptrAt ⟨h1, n', w.arrays⟩ a i)).bind
                  fun w2 => .ok (w2.store a i p)
              else .ok (World.store ⟨h1, n', w.arrays⟩ a i p)) = Res.ok (w', true) ∧ Inv w' ∧
              Rel w' (s.set a (some ((slots.map (view w)).set i item))) := by
        intro h1 n' p hle hp hh
        rw [hptr]
        by_cases hc : slots[i] ≠ 0 ∧ c = true
        · rw [if_pos hc]
          have ho := hold hc.1
          obtain ⟨ov, hov⟩ := Option.isSome_iff_exists.1 ho.2
          have hfree : World.free ⟨h1, n', w.arrays⟩ slots[i] =
              .ok ⟨fun q => if q = slots[i] then none else h1 q, n', w.arrays⟩ := by
            have : h1 slots[i] = some ov := by rw [hh _ ho.1]; exact hov
            simp [World.free, this]
          rw [hfree]
          simp only [Res.bind, hstore]
          refine ⟨_, rfl, ?_⟩
          apply replace_spec hi hr hg hlt _ _ _ item hle ?_ ?_ _ hra
          · rcases hp with hp | ⟨h1', h2, h3, h4⟩
            · exact Or.inl hp
            · refine Or.inr ⟨h1', h2, ?_, h4⟩
              rw [if_neg (by omega)]; exact h3
          · intro q hq hq0 hne
            rw [hsi] at hne
            rw [if_neg (by intro h; exact hne (by rw [h]))]
            exact hh q hq
        · rw [if_neg hc, hstore]
          refine ⟨_, rfl, ?_⟩
          exact replace_spec hi hr hg hlt _ _ _ item hle hp (fun q hq _ _ => hh q hq) _ hra
      have hnle : ¬ slots.length ≤ i := by omega
      cases item with
      | none =>
        simp only [Option.all_none, hlt, implies_true, and_self, if_true]
        simp only [World.set, hg, if_neg hnle]
        exact finish w.heap w.next 0 (Nat.le_refl _) (Or.inl ⟨rfl, rfl⟩) (fun _ _ => rfl)
      | some v =>
        cases c with
        | false =>
          simp only [hlt, Bool.false_eq_true, false_implies, and_self, if_true]
          simp only [World.set, hg, if_neg hnle, World.alloc]
          have := finish (fun p => if p = w.next then some v else w.heap p) (w.next + 1) w.next
            (by omega) (Or.inr ⟨rfl, by omega, by simp, rfl⟩) (fun q hq => by simp [Nat.ne_of_lt hq])
          simpa using this
        | true =>
          simp only [hlt, true_and, Option.all_some, forall_const]
          cases hc : cp v with
          | none => simp [World.set, hg, hnle, hc]
          | some v' =>
            have hvv := hcp v v' hc
            subst hvv
            simp only [Option.isSome_some, if_true]
            simp only [World.set, hg, if_neg hnle, World.alloc, hc, if_true]
            have := finish (fun p => if p = w.next then some v' else w.heap p) (w.next + 1) w.next
              (by omega) (Or.inr ⟨rfl, by omega, by simp, rfl⟩) (fun q hq => by simp [Nat.ne_of_lt hq])
            simpa using this
    · rw [if_neg (fun h => hlt h.1)]
      simp only [World.set, hg]
      rw [if_pos (by omega)]

end Wickr.Arr
namespace Wickr.Arr
variable {V : Type}

theorem freeAll_spec : ∀ (slots : List Nat) (w : World V),
    (∀ p ∈ slots, p ≠ 0 → (w.heap p).isSome) →
    (∀ i j p : Nat, slots[i]? = some p → slots[j]? = some p → p ≠ 0 → i = j) →
    ∃ h', World.freeAll slots w = .ok ⟨h', w.next, w.arrays⟩ ∧ ∀ q, (q = 0 ∨ q ∉ slots) → h' q = w.heap q := by
  intro slots
  induction slots with
  | nil => intro w _ _; exact ⟨w.heap, rfl, fun _ _ => rfl⟩
  | cons p ps ih =>
    intro w hlive hinj
    have hinj' : ∀ i j p : Nat, ps[i]? = some p → ps[j]? = some p → p ≠ 0 → i = j := by
      intro i j q hi hj hq
      have := hinj (i+1) (j+1) q (by simpa using hi) (by simpa using hj) hq
      omega
    by_cases hp : p = 0
    · obtain ⟨h', h1, h2⟩ := ih w (fun q hq => hlive q (List.mem_cons_of_mem _ hq)) hinj'
      refine ⟨h', by simp [World.freeAll, hp, h1], ?_⟩
      intro q hq
      apply h2 q
      rcases hq with h | h
      · exact Or.inl h
      · exact Or.inr (fun hm => h (List.mem_cons_of_mem _ hm))
    · obtain ⟨v, hv⟩ := Option.isSome_iff_exists.1 (hlive p List.mem_cons_self hp)
      have hnot : p ∉ ps := by
        intro hm
        obtain ⟨j, hj⟩ := List.mem_iff_getElem?.1 hm
        have := hinj 0 (j+1) p (by simp) (by simpa using hj) hp
        omega
      obtain ⟨h', h1, h2⟩ := ih (⟨fun q => if q = p then none else w.heap q, w.next, w.arrays⟩)
        (by
          intro q hq hq0
          have : q ≠ p := fun h => hnot (h ▸ hq)
          simp only [this, if_false]
          exact hlive q (List.mem_cons_of_mem _ hq) hq0) hinj'
      refine ⟨h', ?_, ?_⟩
      · simp only [World.freeAll, if_neg hp, World.free, hv, Res.bind]
        exact h1
      · intro q hq
        have hqp : q ≠ p := by
          rcases hq with h | h
          · omega
          · intro h'; exact h (h' ▸ List.mem_cons_self)
        rw [h2 q]
        · simp [hqp]
        · rcases hq with h | h
          · exact Or.inl h
          · exact Or.inr (fun hm => h (List.mem_cons_of_mem _ hm))

theorem destroy_spec {w : World V} {s : Spec.State V} (hi : Inv w) (hr : Rel w s) (a : Nat) :
    ∃ w', w.destroy a true = .ok w' ∧ Inv w' ∧ Rel w' (s.set a none) := by
  cases hg : w.get a with
  | none =>
    refine ⟨w, by simp [World.destroy, hg], hi, by simp [hr.1], ?_⟩
    intro b
    by_cases ha : a < s.length
    · rw [sget_set ha]
      by_cases hb : b = a
      · simp [hb, hg]
      · simp [hb, hr.2 b]
    · rw [List.set_eq_of_length_le (by omega)]; exact hr.2 b
  | some slots =>
    have hal := get_lt hg
    obtain ⟨h', h1, h2⟩ := freeAll_spec slots w (fun p hp h0 => (hi.live a slots hg p hp h0).2)
      (fun i j p h1 h2 h0 => (hi.inj a a slots slots i j p hg hg h1 h2 h0).2)
    have keep : ∀ b sb q, b ≠ a → w.get b = some sb → q ∈ sb → q ≠ 0 → h' q = w.heap q := by
      intro b sb q hba hb hq hq0
      apply h2 q
      right
      intro hm
      obtain ⟨j, hj⟩ := List.mem_iff_getElem?.1 hq
      obtain ⟨k, hk⟩ := List.mem_iff_getElem?.1 hm
      exact hba (hi.inj b a sb slots j k q hb hg hj hk hq0).1
    refine ⟨⟨h', w.next, w.arrays.set a none⟩, by simp [World.destroy, hg, h1, Res.bind], ⟨hi.pos, ?_, ?_, ?_⟩, by simp [hr.1], ?_⟩
    · intro b sb hb q hq hq0
      rw [get_set hal] at hb
      by_cases hba : b = a
      · rw [if_pos hba] at hb; cases hb
      · rw [if_neg hba] at hb
        have := hi.live b sb hb q hq hq0
        exact ⟨this.1, by simp only [keep b sb q hba hb hq hq0]; exact this.2⟩
    · intro b c sb sc i j p hb hc
      rw [get_set hal] at hb hc
      by_cases hba : b = a
      · rw [if_pos hba] at hb; cases hb
      · by_cases hca : c = a
        · rw [if_pos hca] at hc; cases hc
        · rw [if_neg hba] at hb; rw [if_neg hca] at hc
          exact hi.inj b c sb sc i j p hb hc
    · intro b sb hb
      rw [get_set hal] at hb
      by_cases hba : b = a
      · rw [if_pos hba] at hb; cases hb
      · rw [if_neg hba] at hb; exact hi.size b sb hb
    · intro b
      rw [sget_set (by rw [hr.1]; exact hal), get_set hal]
      by_cases hba : b = a
      · simp [hba]
      · simp only [hba, if_false, hr.2 b]
        cases hb : w.get b with
        | none => rfl
        | some sb =>
          simp only [Option.map_some, Option.some.injEq]
          apply List.map_congr_left
          intro q hq
          simp only [view]
          by_cases hq0 : q = 0
          · simp [hq0]
          · simp only [hq0, if_false]; rw [keep b sb q hba hb hq hq0]

theorem deref_spec {w : World V} (hi : Inv w) {a : Nat} {slots : List Nat} (hg : w.get a = some slots)
    {p : Nat} (hp : p ∈ slots) : w.deref p = .ok (view w p) := by
  unfold World.deref view
  by_cases h0 : p = 0
  · simp [h0]
  · obtain ⟨v, hv⟩ := Option.isSome_iff_exists.1 (hi.live a slots hg p hp h0).2
    simp [h0, hv]

/-- The deep copy loop: `done` items of the source have been copied. -/
theorem copyLoop_spec (cp : V → Option V) (hcp : ∀ v v', cp v = some v' → v' = v) (src dst : Nat) (hsd : src ≠ dst)
    (slots : List Nat) (l : List (Option V)) :
    ∀ (todo : List Nat) (done : List Nat) (w : World V) (s : Spec.State V), Inv w → Rel w s →
    slots = done ++ todo → w.get src = some slots → sget s src = some l →
    sget s dst = some (l.take done.length ++ List.replicate todo.length none) →
    (if (l.drop done.length).all (fun v => v.all (fun v => (cp v).isSome)) then
      ∃ w', World.copyLoop cp dst todo done.length w = .ok (w', some dst) ∧ Inv w' ∧ Rel w' (s.set dst (some l))
    else ∃ w', World.copyLoop cp dst todo done.length w = .ok (w', none) ∧ Inv w' ∧ Rel w' (s.set dst none)) := by
  intro todo
  induction todo with
  | nil =>
    intro done w s hi hr hsl hg hl hd
    have hlen : l.length = done.length := by
      have := hr.2 src; rw [hl, hg] at this
      simp at this hsl; rw [this, hsl]; simp
    rw [List.drop_eq_nil_of_le (by omega)]
    simp only [List.all_nil, if_true]
    refine ⟨w, rfl, hi, ?_⟩
    have : s.set dst (some l) = s := by
      have hlt : dst < s.length := by
        unfold sget at hd
        by_cases h : dst < s.length
        · exact h
        · rw [List.getElem?_eq_none (by omega)] at hd; cases hd
      apply List.ext_getElem?
      intro j
      rw [List.getElem?_set]
      by_cases hj : dst = j
      · subst hj
        simp only [if_true, hlt]
        unfold sget at hd
        rw [List.getElem?_eq_getElem hlt] at hd ⊢
        simp only [Option.join_some] at hd
        rw [hd, List.take_of_length_le (by omega)]; simp
      · simp [hj]
    rw [this]; exact hr
  | cons p ps ih =>
    intro done w s hi hr hsl hg hl hd
    have hpm : p ∈ slots := by rw [hsl]; simp
    have hlmap : l = slots.map (view w) := by
      have := hr.2 src; rw [hl, hg] at this; simpa using this
    have hldrop : l.drop done.length = view w p :: ps.map (view w) := by
      rw [hlmap, hsl]; simp
    have hlget : l[done.length]? = some (view w p) := by
      rw [hlmap, hsl]; simp
    simp only [World.copyLoop, deref_spec hi hg hpm, Res.bind]
    have hset := set_spec cp hcp hi hr dst done.length (view w p) true
    rw [hd] at hset
    have hlen : l.length = done.length + (ps.length + 1) := by rw [hlmap, hsl]; simp
    have hlt : done.length < (l.take done.length ++ List.replicate (p :: ps).length (none : Option V)).length := by
      simp; omega
    simp only [hlt, true_and, forall_const] at hset
    rw [hldrop]
    simp only [List.all_cons]
    by_cases hok : (view w p).all (fun v => (cp v).isSome) = true
    · rw [if_pos hok] at hset
      obtain ⟨w', he, hi', hr'⟩ := hset
      simp only [he, hok, Bool.true_and]
      have hdl : dst < s.length := by
        by_cases h : dst < s.length
        · exact h
        · unfold sget at hd; rw [List.getElem?_eq_none (by omega)] at hd; cases hd
      have hnew : (l.take done.length ++ List.replicate (p :: ps).length (none : Option V)).set done.length (view w p)
          = l.take (done ++ [p]).length ++ List.replicate ps.length none := by
        have e : (done ++ [p]).length = done.length + 1 := by simp
        rw [e, List.take_add_one, hlget]
        have e2 : (l.take done.length).length = done.length := by simp; omega
        rw [List.set_append_right _ _ (by omega), e2]
        simp [List.replicate_succ]
      rw [hnew] at hr'
      have hsrc' : sget (s.set dst (some (l.take (done ++ [p]).length ++ List.replicate ps.length none))) src = some l := by
        rw [sget_set hdl, if_neg hsd]; exact hl
      obtain ⟨sl', hg', hmap'⟩ : ∃ sl', w'.get src = some sl' ∧ l = sl'.map (view w') := by
        have := hr'.2 src
        rw [hsrc'] at this
        cases hgs : w'.get src with
        | none => rw [hgs] at this; cases this
        | some sl' => rw [hgs] at this; exact ⟨sl', rfl, by simpa using this⟩
      -- the set does not touch the source's pointers
      have hsl' : sl' = slots := by
        have hgd : w.get dst ≠ none := by
          intro h
          have := hr.2 dst; rw [hd, h] at this; cases this
        obtain ⟨sd, hgd'⟩ := Option.ne_none_iff_exists'.1 hgd
        have := (show w'.get src = w.get src from by
          have hdlen : done.length < sd.length := by
            have := hr.2 dst; rw [hd, hgd'] at this
            simp only [Option.map_some, Option.some.injEq] at this
            have := congrArg List.length this
            rw [List.length_map] at this; omega
          have hnle : ¬ sd.length ≤ done.length := by omega
          have stget : ∀ (w1 : World V) q, w1.arrays = w.arrays → (w1.store dst done.length q).1.get src = w.get src := by
            intro w1 q harr
            have hg1 : w1.get dst = some sd := by unfold World.get; rw [harr]; exact hgd'
            unfold World.store
            rw [hg1]
            simp only
            split
            · rw [get_set (by rw [harr]; exact get_lt hgd'), if_neg hsd]
              unfold World.get; rw [harr]
            · unfold World.get; rw [harr]
          have frget : ∀ (w1 w2 : World V) q, w1.free q = .ok w2 → w2.arrays = w1.arrays := by
            intro w1 w2 q h
            unfold World.free at h
            cases hq : w1.heap q with
            | none => rw [hq] at h; cases h
            | some _ => rw [hq] at h; cases h; rfl
          have fin : ∀ (w1 : World V) q, w1.arrays = w.arrays →
              (if w1.ptrAt dst done.length ≠ 0 ∧ True then
                (w1.free (w1.ptrAt dst done.length)).bind fun w2 => .ok (w2.store dst done.length q)
               else .ok (w1.store dst done.length q)) = Res.ok (w', true) → w'.get src = w.get src := by
            intro w1 q harr h
            split at h
            · cases hf : w1.free (w1.ptrAt dst done.length) with
              | ok w2 =>
                rw [hf] at h; simp only [Res.bind, Res.ok.injEq] at h
                have := stget w2 q (by rw [frget w1 w2 _ hf, harr])
                rw [h] at this; exact this
              | null => rw [hf] at h; cases h
              | ub => rw [hf] at h; cases h
            · simp only [Res.ok.injEq] at h
              have := stget w1 q harr
              rw [h] at this; exact this
          unfold World.set at he
          rw [hgd'] at he
          simp only [if_neg hnle] at he
          cases hv : view w p with
          | none => rw [hv] at he; exact fin w 0 rfl (by simpa using he)
          | some v =>
            rw [hv] at he hok
            obtain ⟨v', hv'⟩ := Option.isSome_iff_exists.1 (by simpa using hok : (cp v).isSome)
            simp only [hv', if_true] at he
            exact fin (w.alloc v').1 (w.alloc v').2 rfl (by simpa using he))
        rw [hg', hg] at this; simpa using this
      have ih' := ih (done ++ [p]) w' _ hi' hr' (by rw [hsl]; simp) (by rw [hg', hsl']) hsrc'
        (by rw [sget_set hdl, if_pos rfl])
      have hdrop' : l.drop (done ++ [p]).length = ps.map (view w) := by
        rw [List.length_append, List.length_singleton, ← List.drop_drop, hldrop]; rfl
      rw [hdrop'] at ih'
      simp only [List.set_set] at ih'
      have e : (done ++ [p]).length = done.length + 1 := by simp
      rw [e] at ih'
      exact ih'
    · rw [if_neg hok] at hset
      simp only [hset]
      have : (view w p).all (fun v => (cp v).isSome) = false := by simpa using hok
      rw [this]
      simp only [Bool.false_and, Bool.false_eq_true, if_false]
      obtain ⟨w', he, hi', hr'⟩ := destroy_spec hi hr dst
      exact ⟨w', by simp [he, Res.bind], hi', hr'⟩

theorem step_spec (cp : V → Option V) (hcp : ∀ v v', cp v = some v' → v' = v)
    {w : World V} {s : Spec.State V} (hi : Inv w) (hr : Rel w s) (op : Op V) :
    ∃ w', step cp w op = .ok (w', (Spec.step (fun v => (cp v).isSome) s op).2) ∧ Inv w' ∧
      Rel w' (Spec.step (fun v => (cp v).isSome) s op).1 := by
  cases op with
  | new c =>
    simp only [step, World.new, Spec.step]
    by_cases hc : c.toNat ≤ Spec.maxCount
    · have := mt (canAlloc_8 c.toNat c.toNat_lt).1 (by simpa using hc)
      rw [if_neg this, if_pos hc, hr.1]
      have := new_spec hi hr c.toNat hc
      exact ⟨_, rfl, this.1, this.2⟩
    · rw [if_pos ((canAlloc_8 c.toNat c.toNat_lt).2 hc), if_neg hc]
      exact ⟨w, rfl, hi, hr⟩
  | count a =>
    refine ⟨w, ?_, hi, hr⟩
    have := hr.2 a; unfold sget at this
    simp only [step, Spec.step, this, World.count]
    cases w.get a <;> simp
  | set a i v c =>
    have := set_spec cp hcp hi hr a i.toNat v c
    simp only [step, Spec.step]
    change match sget s a with | none => _ | some l => _ at this
    unfold sget at this
    cases hs : (s[a]?).join with
    | none =>
      rw [hs] at this
      exact ⟨w, by simp [this, Res.bind], hi, hr⟩
    | some l =>
      rw [hs] at this
      simp only at this ⊢
      by_cases hc : i.toNat < l.length ∧ (c = true → v.all (fun v => (cp v).isSome) = true)
      · rw [if_pos hc] at this ⊢
        obtain ⟨w', h1, h2, h3⟩ := this
        exact ⟨w', by simp [h1, Res.bind], h2, h3⟩
      · rw [if_neg hc] at this ⊢
        exact ⟨w, by simp [this, Res.bind], hi, hr⟩
  | fetch a i c =>
    refine ⟨w, ?_, hi, hr⟩
    have := hr.2 a; unfold sget at this
    simp only [step, Spec.step, this, World.fetch, World.ptrAt]
    cases hg : w.get a with
    | none => simp [World.deref, Res.bind]
    | some slots =>
      simp only [Option.map_some, List.getElem?_map]
      by_cases hle : slots.length ≤ i.toNat
      · rw [if_pos hle, List.getElem?_eq_none hle]
        simp [World.deref, Res.bind]
      · rw [if_neg hle]
        have hlt : i.toNat < slots.length := by omega
        rw [List.getD_eq_getElem?_getD, List.getElem?_eq_getElem hlt, Option.getD_some,
          deref_spec hi hg (List.getElem_mem hlt)]
        simp only [Res.bind, Option.map_some, Option.join_some]
        cases hv : view w slots[i.toNat] with
        | none => simp
        | some v =>
          cases c with
          | false => simp [Option.filter]
          | true =>
            cases hcv : cp v with
            | none => simp [Option.filter, hcv]
            | some v' => simp [Option.filter, hcv, hcp v v' hcv]
  | copy a =>
    have hra := hr.2 a
    have hra' := hra; unfold sget at hra'
    simp only [step, Spec.step, World.copy, hra']
    cases hg : w.get a with
    | none => exact ⟨w, by simp [Res.bind], hi, hr⟩
    | some slots =>
      have hsz := hi.size a slots hg
      have hsmall : slots.length < 2 ^ 32 := by
        unfold Spec.maxCount at hsz; rw [maxBuffer_val] at hsz; omega
      have hcnt : (UInt32.ofNat slots.length).toNat = slots.length := by
        simp; omega
      have hcan := mt (canAlloc_8 slots.length hsmall).1 (by simpa using hsz)
      simp only [World.new, hcnt]
      rw [if_neg hcan]
      simp only [Option.map_some]
      obtain ⟨hi1, hr1⟩ := new_spec hi hr slots.length hsz
      have hne : a ≠ w.arrays.length := Nat.ne_of_lt (get_lt hg)
      rw [hg] at hra
      have hl1 : sget (s ++ [some (List.replicate slots.length none)]) a = some (slots.map (view w)) := by
        rw [sget_append, hr.1, if_neg hne]; simpa using hra
      have := copyLoop_spec cp hcp a w.arrays.length hne slots (slots.map (view w)) slots []
        ⟨w.heap, w.next, w.arrays ++ [some (List.replicate slots.length 0)]⟩ _ hi1 hr1 rfl
        (by rw [get_append, if_neg hne]; exact hg) hl1
        (by rw [sget_append, hr.1, if_pos rfl]; simp)
      simp only [List.length_nil, List.drop_zero] at this
      have hset : ∀ x : Option (List (Option V)), (s ++ [some (List.replicate slots.length none)]).set w.arrays.length x = s ++ [x] := by
        intro x
        rw [List.set_append_right _ _ (by rw [hr.1]; exact Nat.le_refl _), hr.1]; simp
      rw [hset, hset] at this
      by_cases hall : ((slots.map (view w)).all fun v => v.all fun v => (cp v).isSome) = true
      · rw [if_pos hall] at this ⊢
        obtain ⟨w', h1, h2, h3⟩ := this
        exact ⟨w', by simp [h1, Res.bind, hr.1], h2, h3⟩
      · rw [if_neg hall] at this ⊢
        obtain ⟨w', h1, h2, h3⟩ := this
        exact ⟨w', by simp [h1, Res.bind], h2, h3⟩
  | destroy a =>
    obtain ⟨w', h1, h2, h3⟩ := destroy_spec hi hr a
    exact ⟨w', by simp [step, h1, Res.bind, Spec.step], h2, h3⟩

theorem run_spec (cp : V → Option V) (hcp : ∀ v v', cp v = some v' → v' = v) (ops : List (Op V)) :
    ∀ {w : World V} {s : Spec.State V}, Inv w → Rel w s →
    ∃ w', run cp w ops = .ok (w', Spec.run (fun v => (cp v).isSome) s ops) ∧ Inv w' := by
  induction ops with
  | nil => intro w s hi hr; exact ⟨w, rfl, hi⟩
  | cons op ops ih =>
    intro w s hi hr
    obtain ⟨w1, h1, hi1, hr1⟩ := step_spec cp hcp hi hr op
    obtain ⟨w2, h2, hi2⟩ := ih hi1 hr1
    exact ⟨w2, by simp [run, h1, h2, Res.bind, Spec.run], hi2⟩

end Wickr.Arr
