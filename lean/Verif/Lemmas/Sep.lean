import Verif.Spec.Sep
import Lean
/-
Rules for `Triple`, and tactics for applying them.
-/
namespace Wickr
open Asrt

theorem Asrt.star_comm (P Q : Asrt) : P ∗ Q = Q ∗ P := by
  have : ∀ P Q : Asrt, ∀ h, (P ∗ Q) h → (Q ∗ P) h := by
    rintro P Q h ⟨h1, h2, hd, rfl, hp, hq⟩
    refine ⟨h2, h1, fun a => (hd a).symm, ?_, hq, hp⟩
    funext a
    rcases hd a with h | h
    · rw [h]; cases h2 a <;> rfl
    · rw [h]; cases h1 a <;> rfl
  funext h
  exact propext ⟨this P Q h, this Q P h⟩

theorem Asrt.star_assoc (P Q R : Asrt) : (P ∗ Q) ∗ R = P ∗ Q ∗ R := by
  funext h
  apply propext
  constructor
  · rintro ⟨h12, h3, hd, rfl, ⟨h1, h2, hd', rfl, hp, hq⟩, hr⟩
    have e1 : ∀ a, h1 a = none ∨ h3 a = none := fun a => by
      rcases hd a with h | h
      · exact Or.inl (Option.or_eq_none_iff.1 h).1
      · exact Or.inr h
    have e2 : ∀ a, h2 a = none ∨ h3 a = none := fun a => by
      rcases hd a with h | h
      · exact Or.inl (Option.or_eq_none_iff.1 h).2
      · exact Or.inr h
    refine ⟨h1, fun a => (h2 a).or (h3 a), ?_, ?_, hp, h2, h3, e2, rfl, hq, hr⟩
    · intro a
      rcases hd' a with h | h
      · exact Or.inl h
      · rcases e1 a with h' | h'
        · exact Or.inl h'
        · exact Or.inr (Option.or_eq_none_iff.2 ⟨h, h'⟩)
    · funext a; exact Option.or_assoc
  · rintro ⟨h1, h23, hd, rfl, hp, h2, h3, hd', rfl, hq, hr⟩
    have e1 : ∀ a, h1 a = none ∨ h2 a = none := fun a => by
      rcases hd a with h | h
      · exact Or.inl h
      · exact Or.inr (Option.or_eq_none_iff.1 h).1
    have e2 : ∀ a, h1 a = none ∨ h3 a = none := fun a => by
      rcases hd a with h | h
      · exact Or.inl h
      · exact Or.inr (Option.or_eq_none_iff.1 h).2
    refine ⟨fun a => (h1 a).or (h2 a), h3, ?_, ?_, ⟨h1, h2, e1, rfl, hp, hq⟩, hr⟩
    · intro a
      rcases hd' a with h | h
      · rcases e2 a with h' | h'
        · exact Or.inl (Option.or_eq_none_iff.2 ⟨h', h⟩)
        · exact Or.inr h'
      · exact Or.inr h
    · funext a; exact Option.or_assoc.symm

instance : Std.Commutative Asrt.star := ⟨Asrt.star_comm⟩
instance : Std.Associative Asrt.star := ⟨Asrt.star_assoc⟩

theorem Asrt.emp_star (P : Asrt) : emp ∗ P = P := by
  funext h
  apply propext
  constructor
  · rintro ⟨h1, h2, -, rfl, rfl, hp⟩
    exact (show (fun a => (none : Option Cell).or (h2 a)) = h2 from funext fun a => Option.none_or) ▸ hp
  · intro hp
    exact ⟨fun _ => none, h, fun a => Or.inl rfl, funext fun a => Option.none_or.symm, rfl, hp⟩

theorem Asrt.star_emp (P : Asrt) : P ∗ emp = P := by rw [star_comm, emp_star]

theorem Asrt.pure_true {φ : Prop} (h : φ) : (⌜φ⌝ : Asrt) = emp := by
  funext x
  exact propext ⟨fun hx => hx.2, fun hx => ⟨h, hx⟩⟩

theorem Asrt.ex_star {α : Sort _} (P : α → Asrt) (Q : Asrt) : Asrt.ex P ∗ Q = Asrt.ex fun x => P x ∗ Q := by
  funext h
  apply propext
  constructor
  · rintro ⟨h1, h2, hd, e, ⟨x, hp⟩, hq⟩
    exact ⟨x, h1, h2, hd, e, hp, hq⟩
  · rintro ⟨x, h1, h2, hd, e, hp, hq⟩
    exact ⟨h1, h2, hd, e, ⟨x, hp⟩, hq⟩

theorem Asrt.pure_star {φ : Prop} {P : Asrt} {h : Heap} : (⌜φ⌝ ∗ P) h ↔ φ ∧ P h := by
  constructor
  · rintro ⟨h1, h2, hd, e, ⟨hφ, hp⟩, hq⟩
    have : ((⌜φ⌝ : Asrt) ∗ P) h := ⟨h1, h2, hd, e, ⟨hφ, hp⟩, hq⟩
    rw [Asrt.pure_true hφ, emp_star] at this
    exact ⟨hφ, this⟩
  · rintro ⟨hφ, hp⟩
    rw [Asrt.pure_true hφ, emp_star]
    exact hp

theorem Asrt.star_mono {P P' F : Asrt} (hp : ∀ h, P h → P' h) {h : Heap} (hh : (P ∗ F) h) : (P' ∗ F) h := by
  obtain ⟨h1, h2, hd, e, a, b⟩ := hh
  exact ⟨h1, h2, hd, e, hp _ a, b⟩

theorem Asrt.star_mono_r {P F F' : Asrt} (hp : ∀ h, F h → F' h) {h : Heap} (hh : (P ∗ F) h) : (P ∗ F') h := by
  obtain ⟨h1, h2, hd, e, a, b⟩ := hh
  exact ⟨h1, h2, hd, e, a, hp _ b⟩

theorem keep_star {P Q : Asrt} {h : Heap} (hh : (P ∗ Q) h) : ∃ h1 h2, P h1 ∧ Q h2 ∧ keep h = keep h1 ∗ keep h2 := by
  obtain ⟨h1, h2, hd, e, hp, hq⟩ := hh
  refine ⟨h1, h2, hp, hq, ?_⟩
  funext x
  apply propext
  constructor
  · intro hx
    exact ⟨h1, h2, hd, hx.trans e, rfl, rfl⟩
  · rintro ⟨h1', h2', hd', e', rfl, rfl⟩
    exact e'.trans e.symm

theorem keep_cell {a : Addr} {x : Cell} {h : Heap} (hh : (a ↦ x) h) : keep h = a ↦ x := by
  cases hh; rfl

theorem keep_pure {φ : Prop} {h : Heap} (hh : (⌜φ⌝ : Asrt) h) : φ ∧ keep h = emp := by
  obtain ⟨h1, rfl⟩ := hh
  exact ⟨h1, rfl⟩

theorem keep_emp {h : Heap} (hh : emp h) : keep h = emp := by
  cases hh; rfl

theorem Asrt.ex_keep (P : Asrt) : P = Asrt.ex fun h => ⌜P h⌝ ∗ keep h := by
  funext x
  apply propext
  constructor
  · intro hp
    exact ⟨x, Asrt.pure_star.2 ⟨hp, rfl⟩⟩
  · rintro ⟨h, hh⟩
    obtain ⟨hp, rfl⟩ := Asrt.pure_star.1 hh
    exact hp

/-! ### Rules -/

theorem Triple.ret {c : Rules} {f : Bool} {P : Asrt} {a : α} {Q : α → Bool → Asrt} (h : ∀ x, P x → Q a f x) :
    Triple c f P (Pure.pure a : H α) Q := by
  intro A s F hf hp
  exact ⟨by rw [hf]; exact Asrt.star_mono h hp, fun h => hf.trans h, fun b hb => Or.inl hb⟩

theorem Rules.May.mono {c : Rules} {f f' : Bool} {b : Bytes} (hf : f = true → f' = true) (h : c.May f b) : c.May f' b :=
  h.imp_right (Or.imp_right fun h => ⟨hf h.1, h.2⟩)

theorem Triple.bind {c : Rules} {f : Bool} {P : Asrt} {m : H α} {Q : α → Bool → Asrt} {k : α → H β}
    {R : β → Bool → Asrt} (hm : Triple c f P m Q)
    (hk : ∀ a f', (f = true → f' = true) → Triple c f' (Q a f') (k a) R) :
    Triple c f P (m >>= k) R := by
  intro A s F hf hp
  have h1 := hm A s F hf hp
  show Good c f s F R (H.bind m k A s)
  unfold H.bind
  cases hr : m A s with
  | ub => rw [hr] at h1; exact h1
  | crash s' => rw [hr] at h1; exact h1
  | ret a s' =>
    rw [hr] at h1
    obtain ⟨hq, hle, hl⟩ := h1
    have h2 := hk a s'.oom hle A s' F rfl hq
    dsimp only
    cases hr2 : k a A s' with
    | ub => rw [hr2] at h2; exact h2
    | crash s'' =>
      rw [hr2] at h2
      refine ⟨h2.1, h2.2.1, fun b hb => ?_⟩
      rcases h2.2.2 b hb with h | h
      · exact (hl b h).imp_right (Rules.May.mono fun _ => h2.2.1)
      · exact Or.inr h
    | ret b s'' =>
      rw [hr2] at h2
      refine ⟨h2.1, fun h => h2.2.1 (hle h), fun b hb => ?_⟩
      rcases h2.2.2 b hb with h | h
      · exact (hl b h).imp_right (Rules.May.mono h2.2.1)
      · exact Or.inr h

/-- The rules in a run in which an allocation has failed, if they are lax. -/
def Rules.loose (c : Rules) : Rules := { pub := fun _ => True, crash := c.crash, lax := c.lax }

@[simp, grind =] theorem Rules.loose_pub (c : Rules) (b : Bytes) : c.loose.pub b = True := rfl
@[simp, grind =] theorem Rules.loose_crash (c : Rules) : c.loose.crash = c.crash := rfl

theorem Triple.loosen {c : Rules} {f : Bool} {P : Asrt} {m : H α} {Q : α → Bool → Asrt} (hl : c.lax) (hf : f = true)
    (h : Triple c.loose f P m Q) : Triple c f P m Q := by
  intro A s F he hp
  have h1 := h A s F he hp
  cases hr : m A s with
  | ub => rw [hr] at h1; exact h1
  | crash s' =>
    rw [hr] at h1
    exact ⟨h1.1, h1.2.1, fun b hb => (h1.2.2 b hb).imp_right fun _ => Or.inr (Or.inr ⟨h1.2.1, hl⟩)⟩
  | ret a s' =>
    rw [hr] at h1
    exact ⟨h1.1, h1.2.1, fun b hb => (h1.2.2 b hb).imp_right fun _ => Or.inr (Or.inr ⟨h1.2.1 hf, hl⟩)⟩

theorem Triple.frame {c : Rules} {f : Bool} {P : Asrt} {m : H α} {Q : α → Bool → Asrt} (F : Asrt)
    (hm : Triple c f P m Q) : Triple c f (P ∗ F) m (fun a f => Q a f ∗ F) := by
  intro A s F' hf hp
  rw [Asrt.star_assoc] at hp
  have h := hm A s (F ∗ F') hf hp
  cases hr : m A s with
  | ub => rw [hr] at h; exact h
  | crash s' => rw [hr] at h; exact h
  | ret a s' =>
    rw [hr] at h
    refine ⟨?_, h.2⟩
    rw [Asrt.star_assoc]
    exact h.1

theorem Triple.conseq {c : Rules} {f : Bool} {P P' : Asrt} {m : H α} {Q Q' : α → Bool → Asrt}
    (hm : Triple c f P m Q) (hp : ∀ h, P' h → P h) (hq : ∀ a f' h, (f = true → f' = true) → Q a f' h → Q' a f' h) :
    Triple c f P' m Q' := by
  intro A s F hf hp'
  have h := hm A s F hf (Asrt.star_mono hp hp')
  cases hr : m A s with
  | ub => rw [hr] at h; exact h
  | crash s' => rw [hr] at h; exact h
  | ret a s' =>
    rw [hr] at h
    exact ⟨Asrt.star_mono (fun x => hq a s'.oom x h.2.1) h.1, h.2⟩

/-- A step of a program with the rest of memory set aside. -/
theorem Triple.seq {c : Rules} {f : Bool} {P A F : Asrt} {m : H α} {Q : α → Bool → Asrt} {k : α → H β}
    {R : β → Bool → Asrt} (hm : Triple c f P m Q) (hA : A = P ∗ F)
    (hk : ∀ a f', (f = true → f' = true) → Triple c f' (Q a f' ∗ F) (k a) R) :
    Triple c f A (m >>= k) R := by
  rw [hA]
  exact (hm.frame F).bind hk

/-- The last step. -/
theorem Triple.seq' {c : Rules} {f : Bool} {P A F : Asrt} {m : H α} {Q : α → Bool → Asrt}
    {R : α → Bool → Asrt} (hm : Triple c f P m Q) (hA : A = P ∗ F)
    (hk : ∀ a f', (f = true → f' = true) → Triple c f' (Q a f' ∗ F) (Pure.pure a : H α) R) :
    Triple c f A m R := by
  have := hm.seq (k := fun a => (Pure.pure a : H α)) hA hk
  intro A s F hf hp
  have h := this A s F hf hp
  change Good c f s F R (H.bind m _ A s) at h
  unfold H.bind at h
  cases hr : m A s with
  | ub => rw [hr] at h; exact h
  | crash s' => rw [hr] at h; exact h
  | ret a s' => rw [hr] at h; exact h

theorem Triple.ex {c : Rules} {f : Bool} {α' : Sort _} {P : α' → Asrt} {m : H α} {R : α → Bool → Asrt}
    (h : ∀ x, Triple c f (P x) m R) : Triple c f (Asrt.ex P) m R := by
  intro A s F hf hp
  rw [Asrt.ex_star] at hp
  obtain ⟨x, hp⟩ := hp
  exact h x A s F hf hp

theorem Triple.pure {c : Rules} {f : Bool} {φ : Prop} {P : Asrt} {m : H α} {R : α → Bool → Asrt}
    (h : φ → Triple c f P m R) : Triple c f (⌜φ⌝ ∗ P) m R := by
  intro A s F hf hp
  rw [Asrt.star_assoc, Asrt.pure_star] at hp
  exact h hp.1 A s F hf hp.2

theorem Triple.pure' {c : Rules} {f : Bool} {φ : Prop} {m : H α} {R : α → Bool → Asrt}
    (h : φ → Triple c f emp m R) : Triple c f ⌜φ⌝ m R := by
  rw [← Asrt.star_emp ⌜φ⌝]
  exact Triple.pure h

/-- A program that leaves a piece of memory as it is leaves every property of it as it is. -/
theorem Triple.owned {c : Rules} {f : Bool} {P : Asrt} {m : H α} {Q : α → Bool → Asrt}
    (h : ∀ x, P x → Triple c f (keep x) m (fun a f' => keep x ∗ Q a f')) :
    Triple c f P m (fun a f' => P ∗ Q a f') := by
  intro A s F hf hp
  rw [Asrt.ex_keep P, Asrt.ex_star] at hp
  obtain ⟨x, hp⟩ := hp
  rw [Asrt.star_assoc] at hp
  obtain ⟨hx, hp⟩ := Asrt.pure_star.1 hp
  refine (Triple.conseq (h x hx) (fun _ h => h) ?_) A s F hf hp
  intro a f' y _ hy
  exact Asrt.star_mono (fun z hz => by cases hz; exact hx) hy

/-! ### Operations -/

theorem cell_star {a : Addr} {x : Cell} {F : Asrt} {h : Heap} :
    ((a ↦ x) ∗ F) h ↔ h a = some x ∧ F (h.del a) := by
  constructor
  · rintro ⟨h1, h2, hd, rfl, rfl, hF⟩
    have ha : h2 a = none := by
      rcases hd a with h | h
      · simp at h
      · exact h
    refine ⟨by simp, ?_⟩
    have : Heap.del (fun y => (if y = a then some x else none : Option Cell).or (h2 y)) a = h2 := by
      funext y
      unfold Heap.del
      by_cases hy : y = a
      · subst hy; simp [ha]
      · simp [hy]
    rw [this]; exact hF
  · rintro ⟨h1, hF⟩
    refine ⟨_, h.del a, ?_, ?_, rfl, hF⟩
    · intro y
      unfold Heap.del
      by_cases hy : y = a <;> simp [hy]
    · funext y
      unfold Heap.del
      by_cases hy : y = a
      · subst hy; simp [h1]
      · simp [hy]

theorem del_set (h : Heap) (a : Addr) (x : Cell) : (h.set a x).del a = h.del a := by
  funext y; unfold Heap.set Heap.del; by_cases hy : y = a <;> simp [hy]

theorem del_of_none {h : Heap} {a : Addr} (ha : h a = none) : h.del a = h := by
  funext y; unfold Heap.del; by_cases hy : y = a
  · subst hy; simp [ha]
  · simp [hy]

theorem alloc_spec (c : Rules) (f : Bool) (x : Cell) :
    Triple c f emp (alloc x) (fun r f' => fresh Asrt.cell x r f') := by
  intro A s F hf hp
  rw [Asrt.emp_star] at hp
  unfold alloc
  cases hr : A.pick s.heap s.count with
  | none =>
    refine ⟨?_, fun _ => rfl, fun b hb => Or.inl hb⟩
    exact Asrt.pure_star.2 ⟨rfl, hp⟩
  | some a =>
    refine ⟨?_, fun h => hf.trans h, fun b hb => Or.inl hb⟩
    refine cell_star.2 ⟨by simp [Heap.set], ?_⟩
    show F ((s.heap.set a x).del a)
    rw [del_set, del_of_none (A.fresh _ _ _ hr)]
    exact hp

theorem free_spec (c : Rules) (f : Bool) (a : Addr) (x : Cell)
    (hx : ∀ b, x = .bytes b → Wiped b ∨ c.pub b) :
    Triple c f (a ↦ x) (free (some a)) (fun _ _ => emp) := by
  intro A s F hf hp
  obtain ⟨h1, h2⟩ := cell_star.1 hp
  unfold free
  dsimp only
  rw [h1]
  cases x with
  | raw n =>
    exact ⟨by rw [Asrt.emp_star]; exact h2, fun h => hf.trans h, fun b hb => Or.inl hb⟩
  | obj y ps =>
    exact ⟨by rw [Asrt.emp_star]; exact h2, fun h => hf.trans h, fun b hb => Or.inl hb⟩
  | bytes d =>
    refine ⟨by rw [Asrt.emp_star]; exact h2, fun h => hf.trans h, fun b hb => ?_⟩
    simp only [List.mem_cons] at hb
    rcases hb with rfl | hb
    · exact Or.inr ((hx b rfl).imp_right Or.inl)
    · exact Or.inl hb

theorem free_null (c : Rules) (f : Bool) : Triple c f emp (free none) (fun _ _ => emp) := by
  intro A s F hf hp
  exact ⟨hp, fun h => hf.trans h, fun b hb => Or.inl hb⟩

/-- A program that only reads `P`, giving `v`. -/
def Reads (P : Asrt) (m : H α) (v : α) : Prop :=
  ∀ c f, Triple c f P m (fun r f' => ⌜r = v ∧ f' = f⌝ ∗ P)

theorem Triple.read {c : Rules} {f : Bool} {P A F : Asrt} {m : H α} {v : α} {k : α → H β} {R : β → Bool → Asrt}
    (hm : Reads P m v) (hA : A = P ∗ F) (hk : Triple c f A (k v) R) : Triple c f A (m >>= k) R := by
  refine Triple.seq (hm c f) hA fun a f' _ => ?_
  rw [Asrt.star_assoc]
  refine Triple.pure fun h => ?_
  obtain ⟨rfl, rfl⟩ := h
  rw [← hA]; exact hk

theorem Triple.tail {c : Rules} {f : Bool} {A : Asrt} {m : H α} {R : α → Bool → Asrt}
    (hk : Triple c f A (m >>= fun x => Pure.pure x) R) : Triple c f A m R := by
  have e : (m >>= fun x => Pure.pure x) = m := by
    funext A s
    show H.bind m _ A s = _
    unfold H.bind
    cases m A s <;> rfl
  rwa [e] at hk

theorem Reads.bind {P P' F : Asrt} {m : H α} {v : α} {k : α → H β} {w : β}
    (hm : Reads P m v) (hA : P' = P ∗ F) (hk : Reads P' (k v) w) : Reads P' (m >>= k) w :=
  fun c f => Triple.read hm hA (hk c f)

theorem Reads.ret {P : Asrt} (v : α) : Reads P (Pure.pure v : H α) v :=
  fun _ _ => Triple.ret fun _ hh => Asrt.pure_star.2 ⟨⟨rfl, rfl⟩, hh⟩

theorem loadObj_reads (a : Addr) (x : Scal) (ps : List Ptr) : Reads (a ↦ .obj x ps) (loadObj (some a)) (x, ps) := by
  intro c f A s F hf hp
  obtain ⟨h1, h2⟩ := cell_star.1 hp
  unfold loadObj
  dsimp only
  rw [h1]
  refine ⟨?_, fun h => hf.trans h, fun b hb => Or.inl hb⟩
  rw [Asrt.star_assoc]
  exact Asrt.pure_star.2 ⟨⟨rfl, hf⟩, hp⟩

theorem loadBytes_reads (a : Addr) (d : Bytes) : Reads (a ↦ .bytes d) (loadBytes (some a)) d := by
  intro c f A s F hf hp
  obtain ⟨h1, h2⟩ := cell_star.1 hp
  unfold loadBytes
  dsimp only
  rw [h1]
  refine ⟨?_, fun h => hf.trans h, fun b hb => Or.inl hb⟩
  rw [Asrt.star_assoc]
  exact Asrt.pure_star.2 ⟨⟨rfl, hf⟩, hp⟩

theorem store_spec (c : Rules) (f : Bool) (a : Addr) (x y : Cell) :
    Triple c f (a ↦ x) (store (some a) y) (fun _ _ => a ↦ y) := by
  intro A s F hf hp
  obtain ⟨h1, h2⟩ := cell_star.1 hp
  unfold store
  dsimp only
  rw [h1]
  refine ⟨?_, fun h => hf.trans h, fun b hb => Or.inl hb⟩
  refine cell_star.2 ⟨by simp [Heap.set], ?_⟩
  show F ((s.heap.set a y).del a)
  rw [del_set]; exact h2

/-- Writing to NULL, which the rules may allow after an allocation has failed. -/
theorem store_null (c : Rules) (hc : c.crash) (P : Asrt) (y : Cell) (Q : Unit → Bool → Asrt) :
    Triple c true P (store none y) Q := by
  intro A s F hf hp
  exact ⟨hc, hf, fun b hb => Or.inl hb⟩

theorem zero_spec (c : Rules) (f : Bool) (a : Addr) (d : Bytes) :
    Triple c f (a ↦ .bytes d) (zero (some a) d.length) (fun _ _ => a ↦ .bytes (List.replicate d.length 0)) := by
  intro A s F hf hp
  obtain ⟨h1, h2⟩ := cell_star.1 hp
  unfold zero
  dsimp only
  rw [h1]
  simp only [Nat.le_refl, if_true, List.drop_length, List.append_nil]
  refine ⟨?_, fun h => hf.trans h, fun b hb => Or.inl hb⟩
  refine cell_star.2 ⟨by simp [Heap.set], ?_⟩
  show F ((s.heap.set a _).del a)
  rw [del_set]; exact h2

theorem fill_spec (c : Rules) (f : Bool) (a : Addr) (b : Bytes) :
    Triple c f (a ↦ .raw b.length) (fill (some a) b) (fun _ _ => a ↦ .bytes b) := by
  intro A s F hf hp
  obtain ⟨h1, h2⟩ := cell_star.1 hp
  unfold fill
  dsimp only
  rw [h1]
  simp only [if_true]
  refine ⟨?_, fun h => hf.trans h, fun b hb => Or.inl hb⟩
  refine cell_star.2 ⟨by simp [Heap.set], ?_⟩
  show F ((s.heap.set a _).del a)
  rw [del_set]; exact h2

theorem free_obj (c : Rules) (f : Bool) (a : Addr) (x : Scal) (ps : List Ptr) :
    Triple c f (a ↦ .obj x ps) (free (some a)) (fun _ _ => emp) :=
  free_spec c f a _ (fun _ h => by cases h)

theorem free_bytes (c : Rules) (f : Bool) (a : Addr) (b : Bytes) (hb : Wiped b ∨ c.pub b) :
    Triple c f (a ↦ .bytes b) (free (some a)) (fun _ _ => emp) :=
  free_spec c f a _ (fun _ h => by cases h; exact hb)

theorem field_reads (a : Addr) (x : Scal) (ps : List Ptr) (i : Nat) (q : Ptr) (hi : ps[i]? = some q) :
    Reads (a ↦ .obj x ps) (field (some a) i) q := by
  unfold field
  refine (loadObj_reads a x ps).bind (F := emp) (Asrt.star_emp _).symm ?_
  dsimp only
  rw [hi]
  exact Reads.ret q

theorem setField_spec (c : Rules) (f : Bool) (a : Addr) (x : Scal) (ps : List Ptr) (i : Nat) (q : Ptr)
    (hi : i < ps.length) :
    Triple c f (a ↦ .obj x ps) (setField (some a) i q) (fun _ _ => a ↦ .obj x (ps.set i q)) := by
  unfold setField
  refine Triple.read (loadObj_reads a x ps) (F := emp) (Asrt.star_emp _).symm ?_
  dsimp only
  rw [if_pos hi]
  exact store_spec c f a _ _

/-- A function that releases `P` and leaves its pointer NULL. -/
def Destroys (c : Rules) (P : Asrt) (m : H Ptr) : Prop := ∀ f, Triple c f P m (fun r _ => ⌜r = none⌝)

theorem Triple.destroy {c : Rules} {f : Bool} {P A F : Asrt} {m : H Ptr} {k : Ptr → H β} {R : β → Bool → Asrt}
    (hm : Destroys c P m) (hA : A = P ∗ F) (hk : ∀ f', (f = true → f' = true) → Triple c f' F (k none) R) :
    Triple c f A (m >>= k) R := by
  refine Triple.seq (hm f) hA fun a f' h => ?_
  refine Triple.pure fun h' => ?_
  subst h'
  exact hk f' h

theorem destroyField_spec {c : Rules} {a : Addr} {x : Scal} {ps : List Ptr} {i : Nat} {q : Ptr}
    {P : Asrt} {d : Ptr → H Ptr} (f : Bool) (hd : Destroys c P (d q)) (hi : ps[i]? = some q) :
    Triple c f (P ∗ a ↦ .obj x ps) (destroyField d (some a) i) (fun _ _ => a ↦ .obj x (ps.set i none)) := by
  unfold destroyField
  refine Triple.read (F := P) (field_reads a x ps i q hi) (Asrt.star_comm _ _) ?_
  refine Triple.destroy (F := a ↦ .obj x ps) hd rfl fun f2 _ => ?_
  refine setField_spec c f2 a x ps i none ?_
  exact (List.getElem?_eq_some_iff.1 hi).1

theorem Destroys.opt {c : Rules} {R : Addr → α → Asrt} {d : Ptr → H Ptr} {p : Ptr} {v : Option α}
    (h0 : d none = Pure.pure none) (h1 : ∀ a x, v = some x → Destroys c (R a x) (d (some a))) :
    Destroys c (optRep R p v) (d p) := by
  intro f
  cases p <;> cases v
  · rw [h0]; exact Triple.ret fun _ hh => ⟨rfl, hh⟩
  · exact Triple.pure' fun h => h.elim
  · exact Triple.pure' fun h => h.elim
  · exact h1 _ _ rfl f

theorem scal_reads (a : Addr) (x : Scal) (ps : List Ptr) : Reads (a ↦ .obj x ps) (scal (some a)) x := by
  unfold scal
  refine (loadObj_reads a x ps).bind (F := emp) (Asrt.star_emp _).symm ?_
  exact Reads.ret x

theorem setScal_spec (c : Rules) (f : Bool) (a : Addr) (x y : Scal) (ps : List Ptr) :
    Triple c f (a ↦ .obj x ps) (setScal (some a) y) (fun _ _ => a ↦ .obj y ps) := by
  unfold setScal
  refine Triple.read (loadObj_reads a x ps) (F := emp) (Asrt.star_emp _).symm ?_
  exact store_spec c f a _ _

theorem Triple.pureAt {c : Rules} {f : Bool} {φ : Prop} {A F : Asrt} {m : H α} {R : α → Bool → Asrt}
    (hA : A = ⌜φ⌝ ∗ F) (h : φ → Triple c f F m R) : Triple c f A m R := by
  rw [hA]; exact Triple.pure h

theorem Triple.exAt {c : Rules} {f : Bool} {α' : Sort _} {P : α' → Asrt} {A F : Asrt} {m : H α}
    {R : α → Bool → Asrt} (hA : A = Asrt.ex P ∗ F) (h : ∀ x, Triple c f (P x ∗ F) m R) : Triple c f A m R := by
  rw [hA, Asrt.ex_star]; exact Triple.ex h

/-- What is only read stays. -/
theorem Triple.borrow {c : Rules} {f : Bool} {α' : Sort _} {P : α' → Asrt} {m : H α} {Q : α → Bool → Asrt}
    (h : ∀ x, Triple c f (P x) m (fun r f' => P x ∗ Q r f')) :
    Triple c f (Asrt.ex P) m (fun r f' => Asrt.ex P ∗ Q r f') := by
  refine Triple.ex fun x => Triple.conseq (h x) (fun _ h => h) fun r f' y _ hy => ?_
  exact Asrt.star_mono (fun _ h => ⟨x, h⟩) hy

theorem Triple.field {c : Rules} {f : Bool} {A F : Asrt} {a : Addr} {x : Scal} {ps : List Ptr} {i : Nat} {q : Ptr}
    {k : Ptr → H β} {R : β → Bool → Asrt} (hA : A = (a ↦ .obj x ps) ∗ F) (hi : ps[i]? = some q)
    (hk : Triple c f A (k q) R) : Triple c f A (field (some a) i >>= k) R :=
  Triple.read (field_reads a x ps i q hi) hA hk

theorem Triple.scal {c : Rules} {f : Bool} {A F : Asrt} {a : Addr} {x : Scal} {ps : List Ptr}
    {k : Scal → H β} {R : β → Bool → Asrt} (hA : A = (a ↦ .obj x ps) ∗ F)
    (hk : Triple c f A (k x) R) : Triple c f A (scal (some a) >>= k) R :=
  Triple.read (scal_reads a x ps) hA hk

theorem Triple.destroyField {c : Rules} {f : Bool} {A F F1 P : Asrt} {a : Addr} {x : Scal} {ps : List Ptr} {i : Nat}
    {q : Ptr} {d : Ptr → H Ptr} {k : Unit → H β} {R : β → Bool → Asrt}
    (_ : A = (a ↦ .obj x ps) ∗ F1) (hi : ps[i]? = some q) (hd : Destroys c P (d q))
    (hA : A = (P ∗ a ↦ .obj x ps) ∗ F)
    (hk : ∀ f', (f = true → f' = true) → Triple c f' ((a ↦ .obj x (ps.set i none)) ∗ F) (k ()) R) :
    Triple c f A (Wickr.destroyField d (some a) i >>= k) R := by
  refine Triple.seq (destroyField_spec f hd hi) hA fun _ f' h => hk f' h

/-- Dereferencing NULL after an allocation failed. -/
theorem Triple.storeNull {c : Rules} {f : Bool} {A : Asrt} {y : Cell} {k : Unit → H β} {R : β → Bool → Asrt}
    (hc : c.crash) (hf : f = true) : Triple c f A (store none y >>= k) R := by
  subst hf
  intro B s F hf hp
  exact ⟨hc, hf, fun b hb => Or.inl hb⟩

/-- The same for the plain fields of a structure. -/
theorem Triple.setScalNull {c : Rules} {f : Bool} {A : Asrt} {y : Scal} {k : Unit → H β} {R : β → Bool → Asrt}
    (hc : c.crash) (hf : f = true) : Triple c f A (Wickr.setScal none y >>= k) R := by
  subst hf
  intro B s F hf hp
  exact ⟨hc, hf, fun b hb => Or.inl hb⟩

/-- The same for reading a field. -/
theorem Triple.fieldNull {c : Rules} {f : Bool} {A : Asrt} {i : Nat} {k : Ptr → H β} {R : β → Bool → Asrt}
    (hc : c.crash) (hf : f = true) : Triple c f A (Wickr.field none i >>= k) R := by
  subst hf
  intro B s F hf hp
  exact ⟨hc, hf, fun b hb => Or.inl hb⟩

/-- The same for releasing a field. -/
theorem Triple.destroyFieldNil {c : Rules} {f : Bool} {A : Asrt} {i : Nat} {d : Ptr → H Ptr} {k : Unit → H β}
    {R : β → Bool → Asrt} (hc : c.crash) (hf : f = true) : Triple c f A (Wickr.destroyField d none i >>= k) R := by
  subst hf
  intro B s F hf hp
  exact ⟨hc, hf, fun b hb => Or.inl hb⟩

theorem Triple.pureBind {c : Rules} {f : Bool} {A : Asrt} {x : α} {k : α → H β} {R : β → Bool → Asrt}
    (h : Triple c f A (k x) R) : Triple c f A (Pure.pure x >>= k) R := h

theorem Triple.assoc {c : Rules} {f : Bool} {A : Asrt} {m : H α} {k : α → H γ} {k' : γ → H β} {R : β → Bool → Asrt}
    (h : Triple c f A (m >>= fun x => k x >>= k') R) : Triple c f A ((m >>= k) >>= k') R := by
  have e : ((m >>= k) >>= k') = (m >>= fun x => k x >>= k') := by
    funext A s
    show H.bind (H.bind m k) k' A s = H.bind m (fun x => H.bind (k x) k') A s
    unfold H.bind
    cases m A s <;> rfl
  rw [e]; exact h

theorem Triple.ite {c : Rules} {f : Bool} {A : Asrt} {φ : Prop} [Decidable φ] {m n : H β} {R : β → Bool → Asrt}
    (h1 : φ → Triple c f A m R) (h2 : ¬ φ → Triple c f A n R) : Triple c f A (if φ then m else n) R := by
  split <;> simp_all

theorem Triple.setField {c : Rules} {f : Bool} {A F : Asrt} {a : Addr} {x : Scal} {ps : List Ptr} {i : Nat}
    {q : Ptr} {k : Unit → H β} {R : β → Bool → Asrt}
    (hA : A = (a ↦ .obj x ps) ∗ F) (hi : i < ps.length)
    (hk : ∀ f', (f = true → f' = true) → Triple c f' ((a ↦ .obj x (ps.set i q)) ∗ F) (k ()) R) :
    Triple c f A (setField (some a) i q >>= k) R := by
  refine Triple.seq (setField_spec c f a x ps i q hi) hA fun _ f' h => hk f' h

/-- `p = m; if (!p) { bad } k` when `m` makes a new object. -/
theorem Triple.onNull {c : Rules} {f : Bool} {A P P' F : Asrt} {m : H Ptr} {V : Type _} {S : Addr → V → Asrt} {v : V}
    {bad : H β} {k : Ptr → H β} {R : β → Bool → Asrt}
    (hm : Triple c f P m (fun r f' => P' ∗ fresh S v r f')) (hA : A = P ∗ F)
    (hbad : ∀ f', (f = true → f' = true) → f' = true → Triple c f' (P' ∗ F) bad R)
    (hk : ∀ q f', (f = true → f' = true) → Triple c f' (P' ∗ S q v ∗ F) (k (some q)) R) :
    Triple c f A (Wickr.onNull m bad k) R := by
  unfold Wickr.onNull
  refine Triple.seq hm hA fun r f' h => ?_
  rw [Asrt.star_assoc]
  cases r with
  | none => exact Triple.pureAt (by rw [Asrt.star_comm P', Asrt.star_assoc, Asrt.star_comm F]; rfl) fun h' => hbad f' h h'
  | some q => exact hk q f' h

/-- The same for a program that needs nothing. -/
theorem Triple.onNull' {c : Rules} {f : Bool} {A : Asrt} {m : H Ptr} {V : Type _} {S : Addr → V → Asrt} {v : V}
    {bad : H β} {k : Ptr → H β} {R : β → Bool → Asrt}
    (hm : Triple c f emp m (fun r f' => fresh S v r f'))
    (hbad : ∀ f', (f = true → f' = true) → f' = true → Triple c f' A bad R)
    (hk : ∀ q f', (f = true → f' = true) → Triple c f' (S q v ∗ A) (k (some q)) R) :
    Triple c f A (Wickr.onNull m bad k) R := by
  refine Triple.onNull (P' := emp) (F := A) (S := S) (v := v) (Triple.conseq hm (fun _ h => h) ?_) (Asrt.emp_star _).symm ?_ ?_
  · intro a f' h _ hh; rw [Asrt.emp_star]; exact hh
  · intro f' h h'; rw [Asrt.emp_star]; exact hbad f' h h'
  · intro q f' h; rw [Asrt.emp_star]; exact hk q f' h

/-- `p = m; if (!p) { bad } k` when the object may differ. -/
theorem Triple.onNullL {c : Rules} {f : Bool} {A P P' F : Asrt} {m : H Ptr} {V : Type _} {S : Addr → V → Asrt}
    {L : V → V → Prop} {v : V} {bad : H β} {k : Ptr → H β} {R : β → Bool → Asrt}
    (hm : Triple c f P m (fun r f' => P' ∗ freshL S L v r f')) (hA : A = P ∗ F)
    (hbad : ∀ f', (f = true → f' = true) → f' = true → Triple c f' (P' ∗ F) bad R)
    (hk : ∀ q f' v', (f = true → f' = true) → L v v' → (f' = false → v' = v) →
      Triple c f' (P' ∗ S q v' ∗ F) (k (some q)) R) :
    Triple c f A (Wickr.onNull m bad k) R := by
  unfold Wickr.onNull
  refine Triple.seq hm hA fun r f' h => ?_
  rw [Asrt.star_assoc]
  cases r with
  | none => exact Triple.pureAt (by rw [Asrt.star_comm P', Asrt.star_assoc, Asrt.star_comm F]; rfl) fun h' => hbad f' h h'
  | some q =>
    refine Triple.exAt (F := P' ∗ F) (by rw [Asrt.star_comm P', Asrt.star_assoc, Asrt.star_comm F]; rfl) fun v' => ?_
    refine Triple.pureAt (Asrt.star_assoc _ _ _) fun h' => ?_
    rw [Asrt.star_comm, Asrt.star_assoc, Asrt.star_comm F]
    exact hk q f' v' h h'.1 h'.2

/-- The same for a program that uses what it needs. -/
theorem Triple.onNullF {c : Rules} {f : Bool} {A P F : Asrt} {m : H Ptr} {V : Type _} {S : Addr → V → Asrt} {v : V}
    {bad : H β} {k : Ptr → H β} {R : β → Bool → Asrt}
    (hm : Triple c f P m (fun r f' => fresh S v r f')) (hA : A = P ∗ F)
    (hbad : ∀ f', (f = true → f' = true) → f' = true → Triple c f' F bad R)
    (hk : ∀ q f', (f = true → f' = true) → Triple c f' (S q v ∗ F) (k (some q)) R) :
    Triple c f A (Wickr.onNull m bad k) R := by
  unfold Wickr.onNull
  refine Triple.seq hm hA fun r f' h => ?_
  cases r with
  | none => exact Triple.pure fun h' => hbad f' h h'
  | some q => exact hk q f' h

theorem Triple.onNullM {c : Rules} {f : Bool} {A P F : Asrt} {m : H Ptr} {V : Type _} {S : Addr → V → Asrt} {v : V}
    {bad : H β} {k : Ptr → H β} {R : β → Bool → Asrt}
    (hm : Triple c f P m (fun r _ => Wickr.made S v r)) (hA : A = P ∗ F)
    (hk : ∀ q f', (f = true → f' = true) → Triple c f' (S q v ∗ F) (k (some q)) R) :
    Triple c f A (Wickr.onNull m bad k) R := by
  unfold Wickr.onNull
  refine Triple.seq hm hA fun r f' h => ?_
  cases r with
  | none => exact Triple.pure fun h' => h'.elim
  | some q => exact hk q f' h

/-- `p = m; if (!p) { bad } k` when the object may differ and there may be leaks. -/
theorem Triple.onNullA {c : Rules} {f : Bool} {A P P' F : Asrt} {m : H Ptr} {V : Type _} {S : Addr → V → Asrt}
    {L : V → V → Prop} {v : V} {bad : H β} {k : Ptr → H β} {R : β → Bool → Asrt}
    (hm : Triple c f P m (fun r f' => P' ∗ leaky S L v r f')) (hA : A = P ∗ F)
    (hbad : ∀ f', (f = true → f' = true) → f' = true → Triple c f' (Asrt.any ∗ P' ∗ F) bad R)
    (hk : ∀ q f' v', (f = true → f' = true) → L v v' → (f' = false → v' = v) →
      Triple c f' (P' ∗ S q v' ∗ F) (k (some q)) R) :
    Triple c f A (Wickr.onNull m bad k) R := by
  unfold Wickr.onNull
  refine Triple.seq hm hA fun r f' h => ?_
  rw [Asrt.star_assoc]
  cases r with
  | none =>
    refine Triple.pureAt (F := Asrt.any ∗ P' ∗ F) ?_ fun h' => hbad f' h h'
    rw [show (⌜f' = true⌝ ∗ Asrt.any ∗ P' ∗ F) = P' ∗ (⌜f' = true⌝ ∗ Asrt.any) ∗ F by ac_rfl]; rfl
  | some q =>
    refine Triple.exAt (F := P' ∗ F) (by rw [Asrt.star_comm P', Asrt.star_assoc, Asrt.star_comm F]; rfl) fun v' => ?_
    refine Triple.pureAt (Asrt.star_assoc _ _ _) fun h' => ?_
    rw [Asrt.star_comm, Asrt.star_assoc, Asrt.star_comm F]
    exact hk q f' v' h h'.1 h'.2

/-- `p = m; if (!p) { bad } k` when `m` computes `x`. -/
theorem Triple.onNullG {c : Rules} {f : Bool} {A P P' F : Asrt} {m : H Ptr} {V : Type _} {S : Addr → V → Asrt} {x : Option V}
    {bad : H β} {k : Ptr → H β} {R : β → Bool → Asrt}
    (hm : Triple c f P m (fun r f' => P' ∗ gives S x r f')) (hA : A = P ∗ F)
    (hbad : ∀ f', (f = true → f' = true) → (f' = true ∨ x = none) → Triple c f' (P' ∗ F) bad R)
    (hk : ∀ q f' v, (f = true → f' = true) → x = some v → Triple c f' (P' ∗ S q v ∗ F) (k (some q)) R) :
    Triple c f A (Wickr.onNull m bad k) R := by
  unfold Wickr.onNull
  refine Triple.seq hm hA fun r f' h => ?_
  rw [Asrt.star_assoc]
  cases r with
  | none => exact Triple.pureAt (by rw [Asrt.star_comm P', Asrt.star_assoc, Asrt.star_comm F]; rfl) fun h' => hbad f' h h'
  | some q =>
    refine Triple.exAt (F := P' ∗ F) (by rw [Asrt.star_comm P', Asrt.star_assoc, Asrt.star_comm F]; rfl) fun v' => ?_
    refine Triple.pureAt (Asrt.star_assoc _ _ _) fun h' => ?_
    rw [Asrt.star_comm, Asrt.star_assoc, Asrt.star_comm F]
    exact hk q f' v' h h'

/-- The same when there may be leaks. -/
theorem Triple.onNullN {c : Rules} {f : Bool} {A P P' F : Asrt} {m : H Ptr} {V : Type _} {S : Addr → V → Asrt} {x : Option V}
    {bad : H β} {k : Ptr → H β} {R : β → Bool → Asrt}
    (hm : Triple c f P m (fun r f' => P' ∗ givesN S x r f')) (hA : A = P ∗ F)
    (hbad : ∀ f', (f = true → f' = true) → f' = true → Triple c f' (Asrt.any ∗ P' ∗ F) bad R)
    (hnone : ∀ f', (f = true → f' = true) → x = none → Triple c f' (P' ∗ F) bad R)
    (hk : ∀ q f' v, (f = true → f' = true) → x = some v → Triple c f' (P' ∗ S q v ∗ F) (k (some q)) R) :
    Triple c f A (Wickr.onNull m bad k) R := by
  unfold Wickr.onNull
  refine Triple.seq hm hA fun r f' h => ?_
  rw [Asrt.star_assoc]
  cases r with
  | none =>
    refine Triple.pureAt (φ := f' = true ∨ x = none) (F := spill f' ∗ P' ∗ F) ?_ fun h' => ?_
    · rw [show (⌜f' = true ∨ x = none⌝ ∗ spill f' ∗ P' ∗ F) = P' ∗ (⌜f' = true ∨ x = none⌝ ∗ spill f') ∗ F by ac_rfl]; rfl
    · cases f' with
      | true => exact hbad true h rfl
      | false =>
        rw [show (spill false ∗ P' ∗ F) = P' ∗ F from Asrt.emp_star _]
        exact hnone false h (h'.resolve_left (by simp))
  | some q =>
    refine Triple.exAt (F := P' ∗ F) (by rw [Asrt.star_comm P', Asrt.star_assoc, Asrt.star_comm F]; rfl) fun v' => ?_
    refine Triple.pureAt (Asrt.star_assoc _ _ _) fun h' => ?_
    rw [Asrt.star_comm, Asrt.star_assoc, Asrt.star_comm F]
    exact hk q f' v' h h'

/-- The same when the object may differ. -/
theorem Triple.onNullGL {c : Rules} {f : Bool} {A P P' F : Asrt} {m : H Ptr} {V : Type _} {S : Addr → V → Asrt}
    {L : V → V → Prop} {x : Option V} {bad : H β} {k : Ptr → H β} {R : β → Bool → Asrt}
    (hm : Triple c f P m (fun r f' => P' ∗ givesL S L x r f')) (hA : A = P ∗ F)
    (hbad : ∀ f', (f = true → f' = true) → (f' = true ∨ x = none) → Triple c f' (P' ∗ F) bad R)
    (hk : ∀ q f' v v', (f = true → f' = true) → x = some v → L v v' → (f' = false → v' = v) →
      Triple c f' (P' ∗ S q v' ∗ F) (k (some q)) R) :
    Triple c f A (Wickr.onNull m bad k) R := by
  unfold Wickr.onNull
  refine Triple.seq hm hA fun r f' h => ?_
  rw [Asrt.star_assoc]
  cases r with
  | none => exact Triple.pureAt (by rw [Asrt.star_comm P', Asrt.star_assoc, Asrt.star_comm F]; rfl) fun h' => hbad f' h h'
  | some q =>
    refine Triple.exAt (F := P' ∗ F) (by rw [Asrt.star_comm P', Asrt.star_assoc, Asrt.star_comm F]; rfl) fun v => ?_
    refine Triple.exAt (F := P' ∗ F) rfl fun v' => ?_
    refine Triple.pureAt (Asrt.star_assoc _ _ _) fun h' => ?_
    rw [Asrt.star_comm, Asrt.star_assoc, Asrt.star_comm F]
    exact hk q f' v v' h h'.1 h'.2.1 h'.2.2

theorem Triple.onNullK {c : Rules} {f : Bool} {A P P' F : Asrt} {m : H Ptr} {V : Type _} {S : Addr → V → Asrt} {v : V}
    {bad : H β} {k : Ptr → H β} {R : β → Bool → Asrt}
    (hm : Triple c f P m (fun r f' => orKeep P' S v r f')) (hA : A = P ∗ F)
    (hbad : ∀ f', (f = true → f' = true) → f' = true → Triple c f' (P' ∗ F) bad R)
    (hk : ∀ q f', (f = true → f' = true) → Triple c f' (S q v ∗ F) (k (some q)) R) :
    Triple c f A (Wickr.onNull m bad k) R := by
  unfold Wickr.onNull
  refine Triple.seq hm hA fun r f' h => ?_
  cases r with
  | none => exact Triple.pureAt (Asrt.star_assoc _ _ _) fun h' => hbad f' h h'
  | some q => exact hk q f' h

/-- The same for a function that may refuse its parts. -/
theorem Triple.onNullO {c : Rules} {f : Bool} {A P P' Q F : Asrt} {m : H Ptr} {V : Type _} {S : Addr → V → Asrt} {x : Option V}
    {bad : H β} {k : Ptr → H β} {R : β → Bool → Asrt}
    (hm : Triple c f P m (fun r f' => P' ∗ orGives Q S x r f')) (hA : A = P ∗ F)
    (hbad : ∀ f', (f = true → f' = true) → (f' = true ∨ x = none) → Triple c f' (P' ∗ Q ∗ F) bad R)
    (hk : ∀ q f' v, (f = true → f' = true) → x = some v → Triple c f' (P' ∗ S q v ∗ F) (k (some q)) R) :
    Triple c f A (Wickr.onNull m bad k) R := by
  unfold Wickr.onNull
  refine Triple.seq hm hA fun r f' h => ?_
  rw [Asrt.star_assoc]
  cases r with
  | none =>
    refine Triple.pureAt (φ := f' = true ∨ x = none) (F := P' ∗ Q ∗ F) ?_ fun h' => hbad f' h h'
    rw [show (⌜f' = true ∨ x = none⌝ ∗ P' ∗ Q ∗ F) = P' ∗ (⌜f' = true ∨ x = none⌝ ∗ Q) ∗ F by ac_rfl]; rfl
  | some q =>
    refine Triple.exAt (F := P' ∗ F) (by rw [Asrt.star_comm P', Asrt.star_assoc, Asrt.star_comm F]; rfl) fun v' => ?_
    refine Triple.pureAt (Asrt.star_assoc _ _ _) fun h' => ?_
    rw [Asrt.star_comm, Asrt.star_assoc, Asrt.star_comm F]
    exact hk q f' v' h h'

/-- The same when there may be leaks. -/
theorem Triple.onNullS {c : Rules} {f : Bool} {A P P' Q F : Asrt} {m : H Ptr} {V : Type _} {S : Addr → V → Asrt} {x : Option V}
    {bad : H β} {k : Ptr → H β} {R : β → Bool → Asrt}
    (hm : Triple c f P m (fun r f' => P' ∗ orSpills Q S x r f')) (hA : A = P ∗ F)
    (hbad : ∀ f', (f = true → f' = true) → f' = true → Triple c f' (Asrt.any ∗ P' ∗ Q ∗ F) bad R)
    (hnone : ∀ f', (f = true → f' = true) → x = none → Triple c f' (P' ∗ Q ∗ F) bad R)
    (hk : ∀ q f' v, (f = true → f' = true) → x = some v → Triple c f' (P' ∗ S q v ∗ F) (k (some q)) R) :
    Triple c f A (Wickr.onNull m bad k) R := by
  unfold Wickr.onNull
  refine Triple.seq hm hA fun r f' h => ?_
  rw [Asrt.star_assoc]
  cases r with
  | none =>
    refine Triple.pureAt (φ := f' = true ∨ x = none) (F := spill f' ∗ P' ∗ Q ∗ F) ?_ fun h' => ?_
    · rw [show (⌜f' = true ∨ x = none⌝ ∗ spill f' ∗ P' ∗ Q ∗ F) =
        P' ∗ (⌜f' = true ∨ x = none⌝ ∗ Q ∗ spill f') ∗ F by ac_rfl]; rfl
    · cases f' with
      | true => exact hbad true h rfl
      | false =>
        rw [show (spill false ∗ P' ∗ Q ∗ F) = P' ∗ Q ∗ F from Asrt.emp_star _]
        exact hnone false h (h'.resolve_left (by simp))
  | some q =>
    refine Triple.exAt (F := P' ∗ F) (by rw [Asrt.star_comm P', Asrt.star_assoc, Asrt.star_comm F]; rfl) fun v' => ?_
    refine Triple.pureAt (Asrt.star_assoc _ _ _) fun h' => ?_
    rw [Asrt.star_comm, Asrt.star_assoc, Asrt.star_comm F]
    exact hk q f' v' h h'

/-- An allocation that is tested. -/
theorem make_spec (c : Rules) (f : Bool) (x y : Cell) :
    Triple c f emp (Wickr.onNull (alloc x) (Pure.pure none) fun p => do store p y; Pure.pure p)
      (fun r f' => fresh Asrt.cell y r f') := by
  refine Triple.onNull' (alloc_spec c f x) (fun f' _ h => Triple.ret fun _ hh => ⟨h, hh⟩) fun q f' _ => ?_
  rw [Asrt.star_emp]
  exact (store_spec c f' q x y).bind fun _ _ _ => Triple.ret fun _ hh => hh

/-- An allocation that is not tested. -/
theorem makeUnchecked_spec (c : Rules) (hc : c.crash) (f : Bool) (x y : Cell) :
    Triple c f emp (do let p ← alloc x; store p y; Pure.pure p) (fun r _ => made Asrt.cell y r) := by
  refine (alloc_spec c f x).bind fun r f' _ => ?_
  cases r with
  | none =>
    refine Triple.pure' fun h => ?_
    subst h
    exact (store_null c hc emp _ (fun _ _ => ⌜False⌝)).bind fun _ _ _ => Triple.pure' fun h => h.elim
  | some q =>
    exact (store_spec c f' q x y).bind fun _ _ _ => Triple.ret fun _ hh => hh

theorem Triple.made {c : Rules} {f : Bool} {P A F : Asrt} {m : H Ptr} {V : Type _} {S : Addr → V → Asrt} {v : V}
    {k : Ptr → H β} {R : β → Bool → Asrt} (hm : Triple c f P m (fun r _ => Wickr.made S v r)) (hA : A = P ∗ F)
    (hk : ∀ q f', (f = true → f' = true) → Triple c f' (S q v ∗ F) (k (some q)) R) :
    Triple c f A (m >>= k) R := by
  refine Triple.seq hm hA fun r f' h => ?_
  cases r with
  | none => exact Triple.pure fun h => h.elim
  | some q => exact hk q f' h

theorem Triple.made' {c : Rules} {f : Bool} {P A F : Asrt} {m : H Ptr} {V : Type _} {S : Addr → V → Asrt} {v : V}
    {R : Ptr → Bool → Asrt} (hm : Triple c f P m (fun r _ => Wickr.made S v r)) (hA : A = P ∗ F)
    (hk : ∀ q f', (f = true → f' = true) → Triple c f' (S q v ∗ F) (Pure.pure (some q) : H Ptr) R) :
    Triple c f A m R := by
  refine Triple.seq' hm hA fun r f' h => ?_
  cases r with
  | none => exact Triple.pure fun h => h.elim
  | some q => exact hk q f' h

theorem Triple.destroyFieldNull {c : Rules} {f : Bool} {A F : Asrt} {a : Addr} {x : Scal} {ps : List Ptr} {i : Nat}
    {d : Ptr → H Ptr} {k : Unit → H β} {R : β → Bool → Asrt}
    (hA : A = (a ↦ .obj x ps) ∗ F) (hi : ps[i]? = some none) (hd : d none = Pure.pure none)
    (hk : ∀ f', (f = true → f' = true) → Triple c f' ((a ↦ .obj x (ps.set i none)) ∗ F) (k ()) R) :
    Triple c f A (Wickr.destroyField d (some a) i >>= k) R := by
  refine Triple.destroyField (P := emp) hA hi ?_ (by rw [hA, Asrt.emp_star]) hk
  intro f; rw [hd]; exact Triple.ret fun _ hh => ⟨rfl, hh⟩

theorem Triple.destroyNull {c : Rules} {f : Bool} {A : Asrt} {d : Ptr → H Ptr} {k : Ptr → H β} {R : β → Bool → Asrt}
    (hd : d none = Pure.pure none) (hk : Triple c f A (k none) R) :
    Triple c f A (d none >>= k) R := by
  rw [hd]; exact hk

theorem Triple.eqNull {c : Rules} {f : Bool} {A : Asrt} {m : H Ptr} {R : Ptr → Bool → Asrt}
    (hd : m = Pure.pure none) (hk : Triple c f A (Pure.pure none : H Ptr) R) : Triple c f A m R := by
  rw [hd]; exact hk

theorem Destroys.null {c : Rules} {m : H Ptr} (h : m = Pure.pure none) : Destroys c emp m := by
  intro f; rw [h]; exact Triple.ret fun _ hh => ⟨rfl, hh⟩

theorem Asrt.left_comm (P Q R : Asrt) : P ∗ Q ∗ R = Q ∗ P ∗ R := by
  rw [← Asrt.star_assoc, Asrt.star_comm P Q, Asrt.star_assoc]

/-- Entailment. -/
def Asrt.le (P Q : Asrt) : Prop := ∀ h, P h → Q h

theorem Asrt.le_refl (P : Asrt) : Asrt.le P P := fun _ h => h
theorem Asrt.le_trans {P Q R : Asrt} (h1 : Asrt.le P Q) (h2 : Asrt.le Q R) : Asrt.le P R := fun h hp => h2 h (h1 h hp)
theorem Asrt.le_of_eq {P Q : Asrt} (h : P = Q) : Asrt.le P Q := h ▸ Asrt.le_refl P
theorem Asrt.le_star {P Q P' Q' : Asrt} (h1 : Asrt.le P P') (h2 : Asrt.le Q Q') : Asrt.le (P ∗ Q) (P' ∗ Q') :=
  fun _ hh => Asrt.star_mono h1 (Asrt.star_mono_r h2 hh)
theorem Asrt.le_ex {α : Sort _} (P : α → Asrt) (x : α) {Q : Asrt} (h : Asrt.le Q (P x)) : Asrt.le Q (Asrt.ex P) :=
  fun y hy => ⟨x, h y hy⟩
theorem Asrt.le_pure {φ : Prop} (h : φ) : Asrt.le emp ⌜φ⌝ := Asrt.le_of_eq (Asrt.pure_true h).symm
theorem Asrt.le_any (P : Asrt) : Asrt.le P Asrt.any := fun _ _ => trivial
theorem Asrt.le_spill {P : Asrt} {f : Bool} (h : f = true) : Asrt.le P (spill f) := by subst h; exact fun _ _ => trivial
theorem Asrt.spill_le {P : Asrt} {f g : Bool} (h : f = true → g = true) (hp : Asrt.le P (spill g)) : Asrt.le (spill f ∗ P) (spill g) := by
  cases g
  · cases f
    · unfold spill; rw [Asrt.emp_star]; exact hp
    · simp at h
  · exact fun _ _ => trivial
theorem Asrt.emp_le_spill (f : Bool) : Asrt.le emp (spill f) := by cases f <;> exact fun _ h => by first | exact h | trivial
theorem Asrt.star_emp' (P : Asrt) : P = P ∗ emp := (Asrt.star_emp P).symm

/-! ### Tactics -/

open Lean Meta Elab Tactic

/-- `optRep R (some a) ?v` is `R a ?w`, `optRep R none ?v` is `emp`; likewise `fresh` and `made`. -/
private def normAtom (e : Expr) : MetaM Expr := do
  let e := e.headBeta
  if e.isAppOfArity ``Wickr.optRep 4 then
    let p ← whnfR (e.getArg! 2)
    if p.isAppOfArity ``Option.some 2 then
      let v ← whnfR (← instantiateMVars (e.getArg! 3))
      if v.isAppOfArity ``Option.some 2 then
        return (mkApp2 (e.getArg! 1) (p.getArg! 1) (v.getArg! 1)).headBeta
      if v.isAppOfArity ``Option.none 1 then return mkApp (mkConst ``Asrt.pure) (mkConst ``False)
      if v.isMVar then
        let w ← mkFreshExprMVar (e.getArg! 0)
        if ← isDefEq v (← mkAppM ``Option.some #[w]) then
          return (mkApp2 (e.getArg! 1) (p.getArg! 1) w).headBeta
      return e
    else if p.isAppOfArity ``Option.none 1 then
      let v ← whnfR (← instantiateMVars (e.getArg! 3))
      if v.isMVar then
        let n ← mkAppOptM ``Option.none #[e.getArg! 0]
        if ← isDefEq v n then return mkConst ``Asrt.emp
      if v.isAppOfArity ``Option.none 1 then return mkConst ``Asrt.emp
      if v.isAppOfArity ``Option.some 2 then return mkApp (mkConst ``Asrt.pure) (mkConst ``False)
      return e
    else return e
  else if e.isAppOfArity ``Wickr.fresh 5 then
    let p ← whnfR (e.getArg! 3)
    if p.isAppOfArity ``Option.some 2 then
      return (mkApp2 (e.getArg! 1) (p.getArg! 1) (e.getArg! 2)).headBeta
    else if p.isAppOfArity ``Option.none 1 then
      return mkApp (mkConst ``Asrt.pure) (← mkEq (e.getArg! 4) (mkConst ``Bool.true))
    else return e
  else if e.isAppOfArity ``Wickr.orKeep 6 then
    let p ← whnfR (e.getArg! 4)
    if p.isAppOfArity ``Option.some 2 then
      return (mkApp2 (e.getArg! 2) (p.getArg! 1) (e.getArg! 3)).headBeta
    else if p.isAppOfArity ``Option.none 1 then
      return mkApp2 (mkConst ``Asrt.star)
        (mkApp (mkConst ``Asrt.pure) (← mkEq (e.getArg! 5) (mkConst ``Bool.true))) (e.getArg! 1)
    else return e
  else if e.isAppOfArity ``Wickr.gives 5 || e.isAppOfArity ``Wickr.givesN 5 then
    let p ← whnfR (e.getArg! 3)
    if p.isAppOfArity ``Option.some 2 || p.isAppOfArity ``Option.none 1 then
      let some e' ← delta? e | return e
      return (← whnfCore e').headBeta
    else return e
  else if e.isAppOfArity ``Wickr.orGives 6 || e.isAppOfArity ``Wickr.orSpills 6 || e.isAppOfArity ``Wickr.givesL 6 || e.isAppOfArity ``Wickr.givesA 6 || e.isAppOfArity ``Wickr.freshL 6 || e.isAppOfArity ``Wickr.leaky 6 || e.isAppOfArity ``Wickr.wasteful 6 then
    let p ← whnfR (e.getArg! 4)
    if p.isAppOfArity ``Option.some 2 || p.isAppOfArity ``Option.none 1 then
      let some e' ← delta? e | return e
      return (← whnfCore e').headBeta
    else return e
  else if e.isAppOfArity ``Wickr.made 4 then
    let p ← whnfR (e.getArg! 3)
    if p.isAppOfArity ``Option.some 2 then
      return (mkApp2 (e.getArg! 1) (p.getArg! 1) (e.getArg! 2)).headBeta
    else return e
  else return e

private def star (a b : Expr) : Expr := mkApp2 (mkConst ``Asrt.star) a b
private def empE : Expr := mkConst ``Asrt.emp
private def foldStar : List Expr → Expr
  | [] => empE
  | a :: r => star a (foldStar r)
/-- The same without the last `emp`. -/
private def foldNice : List Expr → Expr
  | [] => empE
  | [a] => a
  | a :: r => star a (foldNice r)

private def asrt : Expr := mkConst ``Asrt
private def eqRefl (a : Expr) : Expr := mkApp2 (mkConst ``Eq.refl [1]) asrt a
private def eqTrans (a b c p q : Expr) : Expr := mkAppN (mkConst ``Eq.trans [1]) #[asrt, a, b, c, p, q]
private def eqSymm (a b p : Expr) : Expr := mkAppN (mkConst ``Eq.symm [1]) #[asrt, a, b, p]
/-- From `b = b'` to `a ∗ b = a ∗ b'`. -/
private def congrR (a b b' p : Expr) : Expr :=
  mkAppN (mkConst ``congrArg [1, 1]) #[asrt, asrt, b, b', mkApp (mkConst ``Asrt.star) a, p]
private def congr2 (a a' b b' p q : Expr) : Expr :=
  mkAppN (mkConst ``congr [1, 1]) #[asrt, asrt, mkApp (mkConst ``Asrt.star) a, mkApp (mkConst ``Asrt.star) a', b, b',
    mkAppN (mkConst ``congrArg [1, 1]) #[asrt, mkForall `x .default asrt asrt, a, a', mkConst ``Asrt.star, p], q]

/-- `foldStar xs ∗ foldStar ys = foldStar (xs ++ ys)`. -/
private def appProof : List Expr → List Expr → Expr
  | [], ys => mkApp (mkConst ``Asrt.emp_star) (foldStar ys)
  | x :: xs, ys =>
    let a := star (star x (foldStar xs)) (foldStar ys)
    let b := star x (star (foldStar xs) (foldStar ys))
    let c := foldStar (x :: xs ++ ys)
    eqTrans a b c (mkApp3 (mkConst ``Asrt.star_assoc) x (foldStar xs) (foldStar ys))
      (congrR x (star (foldStar xs) (foldStar ys)) (foldStar (xs ++ ys)) (appProof xs ys))

/-- `foldNice xs = foldStar xs`. -/
private def niceProof : List Expr → Expr
  | [] => eqRefl empE
  | [a] => mkApp (mkConst ``Asrt.star_emp') a
  | a :: r => congrR a (foldNice r) (foldStar r) (niceProof r)

/-- The atoms of an assertion, and a proof that it is their product. -/
private partial def atoms (e : Expr) : MetaM (List Expr × Expr) := do
  let e ← instantiateMVars e
  let e ← normAtom e
  if e.isAppOfArity ``Asrt.star 2 then
    let (xs, p) ← atoms (e.getArg! 0)
    let (ys, q) ← atoms (e.getArg! 1)
    let a := e.getArg! 0
    let b := e.getArg! 1
    let pf := eqTrans e (star (foldStar xs) (foldStar ys)) (foldStar (xs ++ ys))
      (congr2 a (foldStar xs) b (foldStar ys) p q) (appProof xs ys)
    return (xs ++ ys, pf)
  else if e.isConstOf ``Asrt.emp then return ([], eqRefl empE)
  else return ([e], mkApp (mkConst ``Asrt.star_emp') e)

/-- Takes atom `i` to the front: `foldStar as = a ∗ foldStar (rest)`. -/
private def takeProof : List Expr → Nat → Option (Expr × List Expr × Expr)
  | [], _ => none
  | a :: as, 0 => some (a, as, eqRefl (foldStar (a :: as)))
  | x :: xs, i + 1 => do
    let (a, rest, p) ← takeProof xs i
    let e := star x (foldStar xs)
    let e' := star x (star a (foldStar rest))
    let e'' := star a (star x (foldStar rest))
    return (a, x :: rest, eqTrans e e' e'' (congrR x (foldStar xs) (star a (foldStar rest)) p)
      (mkApp3 (mkConst ``Asrt.left_comm) x a (foldStar rest)))

private def findAtom (as : List Expr) (p : Expr) : MetaM (Option Nat) := do
  let mut i := 0
  for a in as do
    if ← withReducible (isDefEq a p) then return some i
    i := i + 1
  return none

/-- `foldStar as = foldStar (ps ++ rest)`, finding `rest`. -/
private def takeAll (as : List Expr) : List Expr → MetaM (List Expr × Expr)
  | [] => return (as, eqRefl (foldStar as))
  | p :: ps => do
    let p ← instantiateMVars p
    let some i ← findAtom as p | throwError m!"frame: cannot find {p} in {as}"
    let some (a, rest, pf) := takeProof as i | throwError "frame"
    let (rest', pf') ← takeAll rest ps
    return (rest', eqTrans (foldStar as) (star a (foldStar rest)) (star a (foldStar (ps ++ rest'))) pf
      (congrR a (foldStar rest) (foldStar (ps ++ rest')) pf'))

/-- Closes `A = P ∗ ?F`, finding `?F`: what is left of `A` when the parts of `P` are taken away. -/
elab "frame" : tactic => withMainContext do
  let g ← getMainGoal
  let t ← instantiateMVars (← g.getType)
  let some (_, lhs, rhs) := t.eq? | throwError "frame: not an equation"
  let rhs := rhs.headBeta
  unless rhs.isAppOfArity ``Asrt.star 2 do throwError "frame: no frame"
  let (as, pa) ← atoms lhs
  let (ps, _) ← atoms (rhs.getArg! 0)
  let (rest, pt) ← takeAll as ps
  let (ps, pp) ← atoms (rhs.getArg! 0)
  let fr := foldNice rest
  unless ← isDefEq (rhs.getArg! 1) fr do throwError "frame: cannot assign"
  let P := rhs.getArg! 0
  let mid := foldStar (ps ++ rest)
  let e1 := eqTrans lhs (foldStar as) mid pa pt
  let e2 := eqSymm (star (foldStar ps) (foldStar rest)) mid (appProof ps rest)
  let e3 := eqSymm (star P fr) (star (foldStar ps) (foldStar rest)) (congr2 P (foldStar ps) fr (foldStar rest) pp (niceProof rest))
  let pf := eqTrans lhs mid (star P fr) e1 (eqTrans mid (star (foldStar ps) (foldStar rest)) (star P fr) e2 e3)
  g.assign (← instantiateMVars pf)

/-- Side conditions. -/
syntax "sside" : tactic
macro_rules | `(tactic| sside) => `(tactic| first | assumption | rfl | (simp_all; done) | omega)

private def le (a b : Expr) : Expr := mkApp2 (mkConst ``Asrt.le) a b

/-- Takes what the target asks for out of `as`: `foldStar as ≤ target ∗ foldStar rest`, with `target` unfolded where it is not
found as it is.  Facts and witnesses are left for later. -/
private partial def cover (as : List Expr) (t : Expr) (fuel : Nat) :
    TacticM (List Expr × List Expr × Expr × List MVarId) := do
  -- answer: atoms used, atoms left, proof that the used ones entail `t`, facts to prove
  match fuel with
  | 0 => throwError "cover: fuel"
  | fuel + 1 =>
  let t0 ← instantiateMVars t
  let t ← normAtom t0
  if t.isAppOfArity ``Asrt.star 2 then
    let (u1, as, p1, g1) ← cover as (t.getArg! 0) fuel
    let (u2, as, p2, g2) ← cover as (t.getArg! 1) fuel
    let pf := mkAppN (mkConst ``Asrt.le_trans) #[foldStar (u1 ++ u2), star (foldStar u1) (foldStar u2), t,
      mkApp3 (mkConst ``Asrt.le_of_eq) (foldStar (u1 ++ u2)) (star (foldStar u1) (foldStar u2))
        (eqSymm (star (foldStar u1) (foldStar u2)) (foldStar (u1 ++ u2)) (appProof u1 u2)),
      mkAppN (mkConst ``Asrt.le_star) #[foldStar u1, foldStar u2, t.getArg! 0, t.getArg! 1, p1, p2]]
    return (u1 ++ u2, as, pf, g1 ++ g2)
  else if t.isConstOf ``Asrt.emp then
    return ([], as, mkApp (mkConst ``Asrt.le_refl) empE, [])
  else if t.isConstOf ``Asrt.any then
    return (as, [], mkApp (mkConst ``Asrt.le_any) (foldStar as), [])
  else if let some i ← findAtom as t then
    let some (a, rest, _) := takeProof as i | throwError "cover"
    return ([a], rest, mkApp3 (mkConst ``Asrt.le_of_eq) (star a empE) a (mkApp (mkConst ``Asrt.star_emp) a), [])
  else if t.isAppOfArity ``Wickr.spill 1 then
    let f := t.getArg! 0
    if as.isEmpty then return ([], [], mkApp (mkConst ``Asrt.emp_le_spill) f, [])
    if as.all (·.isAppOfArity ``Wickr.spill 1) then
      let mut gs := []
      let mut pf := mkApp (mkConst ``Asrt.emp_le_spill) f
      let mut rest := []
      for a in as.reverse do
        let m ← mkFreshExprMVar (← mkArrow (← mkEq (a.getArg! 0) (mkConst ``Bool.true)) (← mkEq f (mkConst ``Bool.true)))
        pf := mkAppN (mkConst ``Asrt.spill_le) #[foldStar rest, a.getArg! 0, f, m, pf]
        gs := m.mvarId! :: gs
        rest := a :: rest
      return (as, [], pf, gs)
    let m ← mkFreshExprMVar (← mkEq f (mkConst ``Bool.true))
    return (as, [], mkApp3 (mkConst ``Asrt.le_spill) (foldStar as) f m, [m.mvarId!])
  else if t.isAppOfArity ``Asrt.pure 1 then
    let m ← mkFreshExprMVar (t.getArg! 0)
    return ([], as, mkApp2 (mkConst ``Asrt.le_pure) (t.getArg! 0) m, [m.mvarId!])
  else if t.isAppOfArity ``Asrt.ex 2 then
    let lvl ← getLevel (t.getArg! 0)
    let s ← saveState
    try
      let w ← mkFreshExprMVar (t.getArg! 0)
      let (u, as, p, g) ← cover as (mkApp (t.getArg! 1) w).headBeta fuel
      return (u, as, mkAppN (mkConst ``Asrt.le_ex [lvl]) #[t.getArg! 0, t.getArg! 1, w, foldStar u, p], g)
    catch e =>
    -- once more with the fields of the witness apart
    let some n := (t.getArg! 0).constName? | throw e
    unless (`Wickr).isPrefixOf n && isStructure (← getEnv) n do throw e
    s.restore
    let c := mkConst (getStructureCtor (← getEnv) n).name
    let (ms, _, _) ← forallMetaTelescope (← inferType c)
    let w := mkAppN c ms
    let (u, as, p, g) ← cover as (mkApp (t.getArg! 1) w).headBeta fuel
    return (u, as, mkAppN (mkConst ``Asrt.le_ex [lvl]) #[t.getArg! 0, t.getArg! 1, w, foldStar u, p], g)
  else if t.isAppOfArity ``Asrt.cell 2 then
    throwError m!"cover: cannot find {t} in {as}"
  else
    let some t' ← delta? t | throwError m!"cover: cannot find {t} in {as}"
    let t' := t'.headBeta
    let t' ← whnfCore t'
    cover as t' fuel

/-- Closes `∀ x, A x → B x` when `B` has the parts of `A`, and facts that hold. -/
elab "sentail" : tactic => withMainContext do
  let g ← getMainGoal
  let t ← whnfCore (← instantiateMVars (← g.getType))
  let .forallE _ _ body _ := t | throwError "sentail: not an entailment"
  let .forallE _ a b _ := body | throwError "sentail: not an entailment"
  let .app lhs (.bvar 0) := a.headBeta | throwError "sentail: lhs"
  let b := b.headBeta
  let .app rhs (.bvar 1) := b | throwError "sentail: rhs"
  if lhs.hasLooseBVars || rhs.hasLooseBVars then throwError "sentail: bvars"
  let (as, pa) ← atoms lhs
  let (u, rest, p, gs) ← cover as rhs 64
  unless rest.isEmpty do throwError m!"sentail: left over {rest}"
  let (rest', pt) ← takeAll as (← u.mapM instantiateMVars)
  unless rest'.isEmpty do throwError "sentail"
  for m in gs do
    let l ← Tactic.withoutRecover (evalTacticAt (← `(tactic| sside)) m)
    unless l.isEmpty do throwError "sentail: fact"
  let pf := mkAppN (mkConst ``Asrt.le_trans) #[lhs, foldStar u, rhs,
    mkApp3 (mkConst ``Asrt.le_of_eq) lhs (foldStar u) (eqTrans lhs (foldStar as) (foldStar u) pa pt), p]
  let pf ← instantiateMVars pf
  if pf.hasExprMVar then throwError "sentail: witness not found"
  g.assign pf

macro "sfin" : tactic => `(tactic| sentail)

/-- One step of a program by a lemma about it. -/
macro "sstep " e:term : tactic =>
  `(tactic| first
    | refine Triple.seq $e (by frame) ?_
    | refine Triple.seq' $e (by frame) ?_)
/-- A step that makes an object or dereferences NULL. -/
macro "smade " e:term : tactic =>
  `(tactic| first
    | refine Triple.made $e (by frame) ?_
    | refine Triple.made' $e (by frame) ?_)
/-- A step that reads. -/
macro "sread " e:term : tactic => `(tactic| refine Triple.read $e (by frame) ?_)
/-- A step that releases. -/
macro "sdestroy " e:term : tactic =>
  `(tactic| first
    | refine Triple.destroy $e (by frame) ?_
    | refine Triple.seq' ($e _) (by frame) ?_)

/-- Takes a fact out of the precondition. -/
macro "spure " h:ident : tactic => `(tactic| refine Triple.pureAt (by frame) (fun $h => ?_))
/-- Takes an existential out of the precondition. -/
macro "sex " x:rintroPat : tactic => `(tactic| (refine Triple.exAt (by frame) ?_; rintro $x; dsimp only))
/-- An impossible precondition. -/
macro "sabsurd" : tactic => `(tactic| exact Triple.pureAt (φ := False) (by frame) (fun h => h.elim))

/-- The precondition of the goal. -/
private def preOf (t : Expr) : TacticM Expr := do
  unless t.isAppOfArity ``Wickr.Triple 6 do throwError "not a Triple"
  return t.getArg! 3

private partial def unfoldFirst (n : Name) (e : Expr) : MetaM (Option Expr) := do
  if e.isAppOfArity ``Asrt.star 2 then
    if let some a ← unfoldFirst n (e.getArg! 0) then return some (star a (e.getArg! 1))
    if let some b ← unfoldFirst n (e.getArg! 1) then return some (star (e.getArg! 0) b)
    return none
  else if e.getAppFn.isConstOf n then
    let some e' ← delta? e | return none
    return some (← Core.betaReduce e')
  else return none

/-- Unfolds the first part of the precondition that is a `n`. -/
elab "sunfold1 " n:ident : tactic => withMainContext do
  let n ← realizeGlobalConstNoOverloadWithInfo n
  let g ← getMainGoal
  let t := (← instantiateMVars (← g.getType)).consumeMData
  let pre ← preOf t
  let some pre' ← unfoldFirst n pre | throwError "sunfold1: not found"
  let g ← g.change (mkAppN t.getAppFn (t.getAppArgs.set! 3 pre'))
  replaceMainGoal [g]

/-- Takes existentials and facts out of the precondition. -/
macro "sintro" : tactic => `(tactic| repeat (first
  | (refine Triple.exAt (by frame) (fun _ => ?_))
  | (refine Triple.pureAt (by frame) (fun _ => ?_))
  | fail))

/-- Opens the first part of the precondition that is a `n`. -/
macro "sopen " n:ident : tactic => `(tactic| (sunfold1 $n; sintro; try dsimp only))

private partial def findOpt (e : Expr) : MetaM (Option (FVarId ⊕ FVarId)) := do
  if e.isAppOfArity ``Asrt.star 2 then
    if let some x ← findOpt (e.getArg! 0) then return some x
    findOpt (e.getArg! 1)
  else if e.isAppOfArity ``Wickr.optRep 4 then
    if (e.getArg! 2).isFVar then return some (.inl (e.getArg! 2).fvarId!)
    if (e.getArg! 3).isFVar then return some (.inr (e.getArg! 3).fvarId!)
    return none
  else return none

/-- Splits on whether an optional part of the precondition is there. -/
elab "sopt1" : tactic => withMainContext do
  let g ← getMainGoal
  let t := (← instantiateMVars (← g.getType)).consumeMData
  let some x ← findOpt (← preOf t) | throwError "sopt: nothing optional"
  let id := match x with | .inl i => i | .inr i => i
  let gs ← g.cases id
  replaceMainGoal (gs.toList.map (·.mvarId))
macro "sopt" : tactic => `(tactic| repeat' (first | sabsurd | sopt1 | fail))

/-- Splits what is known about a kept piece of memory, `h : P x`, into what is known about its parts. -/
private partial def splitKept (n : Name) : TacticM Unit := withMainContext do
  let some d := (← getLCtx).findFromUserName? n | throwError "skeep"
  let hx := mkIdent n
  let ty ← instantiateMVars d.type
  let .app P _ := ty | return
  let P := P.headBeta
  if P.isAppOfArity ``Asrt.ex 2 then
    evalTactic (← `(tactic| (obtain ⟨_, $hx:ident⟩ := $hx:ident; try dsimp only at $hx:ident)))
    splitKept n
  else if P.isAppOfArity ``Asrt.star 2 then
    let n1 ← mkFreshUserName `hx
    let n2 ← mkFreshUserName `hy
    evalTactic (← `(tactic| (obtain ⟨_, _, $(mkIdent n1):ident, $(mkIdent n2):ident, e⟩ := keep_star $hx; rw [e]; clear e $hx)))
    splitKept n1
    splitKept n2
  else if P.isAppOfArity ``Asrt.cell 2 then
    evalTactic (← `(tactic| (rw [keep_cell $hx]; clear $hx)))
  else if P.isAppOfArity ``Asrt.pure 1 then
    evalTactic (← `(tactic| (obtain ⟨_, e⟩ := keep_pure $hx; rw [e]; clear e $hx)))
  else if P.isAppOfArity ``Asrt.emp 0 then
    evalTactic (← `(tactic| (rw [keep_emp $hx]; clear $hx)))
  else return

/-- Opens a kept `n`. -/
elab "skeep " h:ident n:ident : tactic => withMainContext do
  evalTactic (← `(tactic| (unfold $n at $h:ident)))
  splitKept h.getId
  evalTactic (← `(tactic| (try dsimp only at *)))

private def findKeptOpt : TacticM (Option (FVarId × Expr × Expr)) := withMainContext do
  for d in ← getLCtx do
    let ty ← instantiateMVars d.type
    if let .app P _ := ty then
      if P.isAppOfArity ``Wickr.optRep 4 then return some (d.fvarId, P.getArg! 2, P.getArg! 3)
  return none

/-- Splits on whether a kept optional part is there. -/
elab "skopt1" : tactic => do
  let some (h, p, v) ← findKeptOpt | throwError "skopt: nothing optional"
  withMainContext do
    if p.isFVar then
      let gs ← (← getMainGoal).cases p.fvarId!
      replaceMainGoal (gs.toList.map (·.mvarId))
    else if v.isFVar then
      let gs ← (← getMainGoal).cases v.fvarId!
      replaceMainGoal (gs.toList.map (·.mvarId))
    else
      let n ← mkFreshUserName `hx
      let g ← (← getMainGoal).rename h n
      replaceMainGoal [g]
      let hx := mkIdent n
      let ty ← instantiateMVars (← h.getType)
      let .app P x := ty | throwError "skopt"
      let P' ← normAtom P
      if P'.isAppOf ``Asrt.pure then evalTactic (← `(tactic| exact (And.left $hx).elim))
      else if P'.isConstOf ``Asrt.emp then evalTactic (← `(tactic| (rw [keep_emp $hx]; clear $hx)))
      else
        replaceMainGoal [← (← getMainGoal).changeLocalDecl h (mkApp P' x)]
macro "skopt" : tactic => `(tactic| repeat' (first | skopt1 | fail))

/-- Hypotheses of a lemma about a function. -/
syntax "sarg" : tactic
macro_rules | `(tactic| sarg) => `(tactic| first | assumption | (simp_all; done))

/-- What is known about a kept piece of memory, as a hypothesis of a lemma. -/
syntax "sheld" : tactic
macro_rules | `(tactic| sheld) => `(tactic| assumption)

/-- What is known about a kept piece of memory. -/
private def isKept (ty : Expr) : MetaM Bool := do
  if ty.isAppOf `Wickr.Spec.Has || ty.isAppOf `Wickr.HasOpt then return true
  let .app _ x := ty | return false
  return (← inferType x).isConstOf ``Wickr.Heap

/-- The only kept heap a goal talks about. -/
private def theKept (t : Expr) : MetaM (Option Expr) := do
  let isKeep (x : Expr) := x.isAppOfArity ``Asrt.keep 1 && !x.hasLooseBVars
  let some x := t.find? isKeep | return none
  let other := t.find? fun y => isKeep y && y != x
  return if other.isSome then none else some x.appArg!

/-- The lemma about a function, with its explicit arguments left open. -/
private def specTerm (n : Name) (suffix : String := "_spec") : TacticM (Term × Expr) := do
  let sn := n.appendAfter suffix
  let some ci := (← getEnv).find? sn | throwError m!"sgo: no {sn}"
  let mut stx : Array Term := #[]
  let mut t := ci.type
  let kept ← theKept (← instantiateMVars (← (← getMainGoal).getType))
  let (xs, bis, concl) ← forallMetaTelescope t
  for x in xs, bi in bis do
    if bi.isExplicit then
      let ty ← inferType x
      if ← isProp ty then
        if ← isKept ty then stx := stx.push (← `((by sheld))) else stx := stx.push (← `(?_))
      else if ty.isConstOf ``Wickr.Heap then
        match kept with
        | some h => stx := stx.push (← Term.exprToSyntax h)
        | none => stx := stx.push (← `(_))
      else stx := stx.push (← `(_))
  t := concl
  let id := mkCIdent sn
  return (← `($id $stx*), t)

private inductive Kind | destroys | reads | made | fresh | pfresh | freshL | keep | leaky | gives | givesL | givesN | orGives | orSpills | other

private def kindOf (t : Expr) : MetaM Kind := do
  if t.isAppOf ``Wickr.Destroys then return .destroys
  if t.isAppOf ``Wickr.Reads then return .reads
  let q := t.getArg! 5
  lambdaTelescope q fun _ b => do
    let b := b.headBeta
    if b.isAppOf ``Wickr.made then return .made
    if b.isAppOf ``Wickr.fresh then return .fresh
    if b.isAppOf ``Wickr.orKeep then return .keep
    if b.isAppOf ``Asrt.star && (b.getArg! 1).isAppOf ``Wickr.fresh then return .pfresh
    if b.isAppOf ``Asrt.star && (b.getArg! 1).isAppOf ``Wickr.freshL then return .freshL
    if b.isAppOf ``Asrt.star && (b.getArg! 1).isAppOf ``Wickr.leaky then return .leaky
    if b.isAppOf ``Asrt.star && (b.getArg! 1).isAppOf ``Wickr.gives then return .gives
    if b.isAppOf ``Asrt.star && (b.getArg! 1).isAppOf ``Wickr.givesL then return .givesL
    if b.isAppOf ``Asrt.star && (b.getArg! 1).isAppOf ``Wickr.givesN then return .givesN
    if b.isAppOf ``Asrt.star && (b.getArg! 1).isAppOf ``Wickr.orGives then return .orGives
    if b.isAppOf ``Asrt.star && (b.getArg! 1).isAppOf ``Wickr.orSpills then return .orSpills
    return .other

private def isNone (e : Expr) : MetaM Bool := do return (← whnfR e).isAppOfArity ``Option.none 1

/-- Runs a `refine`; proves the side conditions it leaves and keeps the goals about programs. -/
private def runStep (t : TSyntax `tactic) (after : TSyntax `tactic) : TacticM Unit := do
  let g ← getMainGoal
  let others := (← getGoals).tail
  setGoals [g]
  Tactic.withoutRecover (evalTactic t)
  let gs ← getGoals
  let mut out : List MVarId := []
  for g in gs do
    let ty ← instantiateMVars (← g.getType)
    if ty.getForallBody.isAppOf ``Wickr.Triple then
      let l ← Tactic.withoutRecover (evalTacticAt after g)
      out := out ++ l
    else
      let l ← Tactic.withoutRecover (evalTacticAt (← `(tactic| sarg)) g)
      unless l.isEmpty do throwError "sarg"
  setGoals (out ++ others)

private def stepCall (m : Expr) : TacticM Unit := do
  let some n := m.getAppFn.constName? | throwError m!"sgo: {m}"
  let ins ← `(tactic| intros)
  let run (t : TSyntax `tactic) : TacticM Unit := runStep t ins
  match n with
  | ``Wickr.field =>
    let v := mkIdent `Wickr.field_view
    if ← isNone (m.getArg! 0) then run (← `(tactic| refine Triple.fieldNull ?_ ?_)); return
    run (← `(tactic| first
      | refine Triple.field (by frame) (by rfl) ?_
      | refine Triple.read ($v (by assumption) (by rfl)) (by frame) ?_))
  | ``Wickr.scal =>
    let v := mkIdent `Wickr.scal_view
    run (← `(tactic| first
      | refine Triple.scal (by frame) ?_
      | refine Triple.read ($v (by assumption)) (by frame) ?_))
  | ``Wickr.setField =>
    runStep (← `(tactic| refine Triple.setField (by frame) (by simp; done) ?_))
      (← `(tactic| (intros; try simp only [List.set_cons_zero, List.set_cons_succ])))
  | ``Wickr.store =>
    if ← isNone (m.getArg! 0) then run (← `(tactic| refine Triple.storeNull ?_ ?_))
    else run (← `(tactic| sstep store_spec _ _ _ _ _))
  | ``Wickr.free =>
    if ← isNone m.appArg! then run (← `(tactic| refine Triple.destroyNull (by rfl) ?_))
    else run (← `(tactic| sstep free_obj _ _ _ _ _))
  | ``Wickr.setScal =>
    if ← isNone (m.getArg! 0) then run (← `(tactic| refine Triple.setScalNull ?_ ?_))
    else run (← `(tactic| sstep setScal_spec _ _ _ _ _ _))
  | ``Wickr.destroyField =>
    if ← isNone (m.getArg! 1) then run (← `(tactic| refine Triple.destroyFieldNil ?_ ?_)); return
    let run (t : TSyntax `tactic) : TacticM Unit := do
      runStep t (← `(tactic| (intros; try simp only [List.set_cons_zero, List.set_cons_succ])))
    try run (← `(tactic| refine Triple.destroyFieldNull (by frame) (by rfl) (by rfl) ?_))
    catch _ =>
      let some d := (m.getArg! 0).getAppFn.constName? | throwError "sgo: destroyField"
      let (e, _) ← specTerm d
      run (← `(tactic| refine Triple.destroyField (by frame) (by rfl) $e (by frame) ?_))
  | _ =>
    let env ← getEnv
    let viewOnly := !env.contains (n.appendAfter "_spec") && env.contains (n.appendAfter "_view")
    let (e, t) ← specTerm n (if viewOnly then "_view" else "_spec")
    match ← kindOf t with
    | .destroys =>
      if ← isNone m.appArg! then run (← `(tactic| refine Triple.destroyNull (by rfl) ?_))
      else run (← `(tactic| sdestroy $e))
    | .reads =>
      try run (← `(tactic| sread $e))
      catch ex =>
        unless env.contains (n.appendAfter "_view") do throw ex
        let (e, _) ← specTerm n "_view"
        run (← `(tactic| sread $e))
    | .made => run (← `(tactic| smade $e))
    | _ =>
      if ← isNone m.appArg! then
        try run (← `(tactic| refine Triple.destroyNull (by rfl) ?_)); return
        catch _ => pure ()
      let ins ← `(tactic| (intro r _ _; first | (cases r <;> sintro) | sintro))
      try runStep (← `(tactic| sstep $e)) ins
      catch ex =>
        try
          unless env.contains (n.appendAfter "_keep") do throw ex
          let (e, _) ← specTerm n "_keep"
          runStep (← `(tactic| sstep $e)) ins
        catch ex =>
          unless env.contains (n.appendAfter "_view") do throw ex
          let (e, _) ← specTerm n "_view"
          runStep (← `(tactic| sstep $e)) ins

/-- Branches that cannot be taken. -/
syntax "sfalse" : tactic
macro_rules | `(tactic| sfalse) => `(tactic| (simp_all; done))

/-- Whether the rules are lax and an allocation has failed. -/
private def loosens (t : Expr) : TacticM Bool := do
  let c := t.getArg! 1
  let f := t.getArg! 2
  unless c.isFVar do return false
  let mut lax := false
  let mut failed := f.isConstOf ``Bool.true
  for d in ← getLCtx do
    if d.isImplementationDetail then continue
    let ty ← instantiateMVars d.type
    if ty.isAppOfArity ``Wickr.Rules.lax 1 && ty.getArg! 0 == c then lax := true
    if ty.isAppOfArity ``Eq 3 && ty.getArg! 1 == f && (ty.getArg! 2).isConstOf ``Bool.true then failed := true
  return lax && failed

/-- One step of a program. -/
elab "sgo1" : tactic => withMainContext do
  let g ← getMainGoal
  let t ← instantiateMVars (← g.getType)
  let t ← whnfCore t
  let _ ← preOf t
  if ← loosens t then
    evalTactic (← `(tactic| refine Triple.loosen (by assumption) (by first | rfl | assumption) ?_))
    return
  let prog ← whnfCore (t.getArg! 4)
  let g ← g.change (mkAppN t.getAppFn (t.getAppArgs.set! 4 prog))
  replaceMainGoal [g]
  let ins ← `(tactic| intros)
  let run (t : TSyntax `tactic) : TacticM Unit := runStep t ins
  if prog.isAppOf ``Pure.pure then
    Tactic.withoutRecover (evalTactic (← `(tactic| (refine Triple.ret ?_; sfin))))
  else if prog.isAppOf ``Bind.bind then
    let m ← whnfCore (prog.getArg! 4)
    if m.isAppOf ``Pure.pure then run (← `(tactic| refine Triple.pureBind ?_))
    else if m.isAppOf ``Bind.bind then run (← `(tactic| refine Triple.assoc ?_))
    else stepCall m
  else if prog.isAppOf ``ite then
    runStep (← `(tactic| refine Triple.ite ?_ ?_)) (← `(tactic| (intro _; first | (exfalso; sfalse; done) | skip)))
  else if prog.isAppOf ``Wickr.onNull then
    let m ← whnfCore (prog.getArg! 1)
    let some n := m.getAppFn.constName? | throwError m!"sgo: {m}"
    let env ← getEnv
    for suffix in ["_keep", "_view"] do
      if env.contains (n.appendAfter suffix) then
        let (e, t) ← specTerm n suffix
        let s ← saveState
        try
          match ← kindOf t with
          | .freshL => run (← `(tactic| refine Triple.onNullL $e (by frame) ?_ ?_))
          | .leaky => run (← `(tactic| refine Triple.onNullA $e (by frame) ?_ ?_))
          | .gives => run (← `(tactic| refine Triple.onNullG $e (by frame) ?_ ?_))
          | .givesL => run (← `(tactic| refine Triple.onNullGL $e (by frame) ?_ ?_))
          | .givesN => run (← `(tactic| refine Triple.onNullN $e (by frame) ?_ ?_ ?_))
          | .orGives => run (← `(tactic| refine Triple.onNullO $e (by frame) ?_ ?_))
          | .orSpills => run (← `(tactic| refine Triple.onNullS $e (by frame) ?_ ?_ ?_))
          | _ => run (← `(tactic| refine Triple.onNull $e (by frame) ?_ ?_))
          return
        catch ex =>
          s.restore
          unless env.contains (n.appendAfter "_spec") do throw ex
    let (e, t) ← specTerm n
    let k ← kindOf t
    match k with
    | .fresh => run (← `(tactic| (first
        | refine Triple.onNull' $e ?_ ?_
        | refine Triple.onNullF $e (by frame) ?_ ?_)))
    | .pfresh => run (← `(tactic| refine Triple.onNull $e (by frame) ?_ ?_))
    | .freshL => run (← `(tactic| refine Triple.onNullL $e (by frame) ?_ ?_))
    | .leaky => run (← `(tactic| refine Triple.onNullA $e (by frame) ?_ ?_))
    | .gives => run (← `(tactic| refine Triple.onNullG $e (by frame) ?_ ?_))
    | .givesL => run (← `(tactic| refine Triple.onNullGL $e (by frame) ?_ ?_))
    | .givesN => run (← `(tactic| refine Triple.onNullN $e (by frame) ?_ ?_ ?_))
    | .orGives => run (← `(tactic| refine Triple.onNullO $e (by frame) ?_ ?_))
    | .orSpills => run (← `(tactic| refine Triple.onNullS $e (by frame) ?_ ?_ ?_))
    | .made => run (← `(tactic| refine Triple.onNullM $e (by frame) ?_))
    | .keep => run (← `(tactic| refine Triple.onNullK $e (by frame) ?_ ?_))
    | _ => run (← `(tactic| unfold Wickr.onNull))
  else
    if prog.isApp then
      if ← isNone prog.appArg! then
        try run (← `(tactic| refine Triple.eqNull (by rfl) ?_)); return
        catch _ => pure ()
    let s ← saveState
    try stepCall prog
    catch ex =>
      s.restore
      try
        run (← `(tactic| refine Triple.tail ?_))
        withMainContext (stepCall prog)
      catch _ =>
        s.restore
        throw ex

macro "sgo" : tactic => `(tactic| repeat' (first | sgo1 | fail))

end Wickr
