import Verif.Lemmas.SepFun
import Verif.Model.HeapUnpack
/-
The memory of the protobuf library.
-/
namespace Wickr
open Asrt Spec

/-- A field of bytes. -/
def isPart (p : Ptr) (b : Bytes) : Asrt :=
  match p with
  | none => ⌜b = []⌝
  | some q => q ↦ .bytes b

/-- The fields of a message. -/
def isParts : List Ptr → List Bytes → Asrt
  | [], [] => emp
  | p :: ps, b :: bs => isPart p b ∗ isParts ps bs
  | _, _ => ⌜False⌝

/-- An unpacked message with these fields. -/
def isProto (a : Addr) (bs : List Bytes) : Asrt := Asrt.ex fun (ps : List Ptr) => (a ↦ .obj .plain ps) ∗ isParts ps bs

/-- What unpacking the fields gives. -/
def parted (bs : List Bytes) (r : Option (List Ptr)) (f : Bool) : Asrt :=
  match r with
  | none => ⌜f = true⌝
  | some ps => isParts ps bs

theorem hParts_spec (c : Rules) (f : Bool) (bs : List Bytes) (hp : ∀ b ∈ bs, c.pub b) :
    Triple c f emp (hParts bs) (fun r f' => parted bs r f') := by
  induction bs generalizing f with
  | nil =>
    unfold hParts
    refine Triple.ret fun h hh => hh
  | cons b bs ih =>
    have ih := fun f => ih f (fun b hb => hp b (List.mem_cons_of_mem _ hb))
    cases b with
    | nil =>
      unfold hParts
      refine Triple.seq (F := emp) (ih f) ?_ fun r f1 _ => ?_
      · exact (Asrt.star_emp _).symm
      · rw [Asrt.star_emp]
        cases r with
        | none => exact Triple.ret fun h hh => hh
        | some ps => exact Triple.ret fun h hh => Asrt.pure_star.2 ⟨rfl, hh⟩
    | cons x b =>
      have hpx := hp _ (List.mem_cons_self)
      unfold hParts
      refine Triple.seq (F := emp) (alloc_spec c f _) ?_ fun r f1 _ => ?_
      · exact (Asrt.star_emp _).symm
      · rw [Asrt.star_emp]
        cases r with
        | none => exact Triple.ret fun h hh => hh
        | some q =>
          dsimp only [fresh]
          sstep fill_spec c f1 q (x :: b)
          intro _ f2 _
          refine Triple.seq (ih f2) (F := q ↦ .bytes (x :: b)) ?_ fun r f3 _ => ?_
          · rw [Asrt.emp_star, Asrt.star_emp]
          · cases r with
            | none =>
              dsimp only [parted]
              refine Triple.pure fun hf => ?_
              sstep free_bytes c f3 q _ (.inr hpx)
              intro _ f4 h4
              exact Triple.ret fun h hh => ⟨h4 hf, (Asrt.star_emp emp ▸ hh : emp h)⟩
            | some ps =>
              refine Triple.ret fun h hh => ?_
              rw [Asrt.star_comm] at hh
              exact hh

theorem hUnpack_spec (c : Rules) (f : Bool) (bs : List Bytes) (hp : ∀ b ∈ bs, c.pub b) :
    Triple c f emp (hUnpack bs) (fun r f' => fresh isProto bs r f') := by
  unfold hUnpack
  refine Triple.seq (F := emp) (alloc_spec c f _) ?_ fun r f1 _ => ?_
  · exact (Asrt.star_emp _).symm
  rw [Asrt.star_emp]
  cases r with
  | none => exact Triple.ret fun h hh => hh
  | some x =>
    dsimp only [fresh]
    refine Triple.seq (hParts_spec c f1 bs hp) (F := x ↦ .obj .plain []) ?_ fun r f2 _ => ?_
    · rw [Asrt.emp_star]
    cases r with
    | none =>
      dsimp only [parted]
      refine Triple.pure fun hf => ?_
      sstep free_obj c f2 x _ _
      intro _ f3 h3
      exact Triple.ret fun h hh => ⟨h3 hf, (Asrt.star_emp emp ▸ hh : emp h)⟩
    | some ps =>
      dsimp only [parted]
      sstep store_spec c f2 x _ _
      intro _ f3 _
      exact Triple.ret fun h hh => ⟨ps, hh⟩

theorem hFreeParts_spec (c : Rules) (f : Bool) (ps : List Ptr) (bs : List Bytes) (hp : ∀ b ∈ bs, c.pub b) :
    Triple c f (isParts ps bs) (hFreeParts ps) (fun _ _ => emp) := by
  induction ps generalizing f bs with
  | nil =>
    unfold hFreeParts
    cases bs with
    | nil => exact Triple.ret fun h hh => hh
    | cons b bs => exact Triple.ret fun h hh => hh.1.elim
  | cons p ps ih =>
    unfold hFreeParts
    cases bs with
    | nil =>
      have e : isParts (p :: ps) [] = ⌜False⌝ := rfl
      rw [e]
      sabsurd
    | cons b bs =>
      have ih := fun f => ih f bs (fun b hb => hp b (List.mem_cons_of_mem _ hb))
      have e : isParts (p :: ps) (b :: bs) = isPart p b ∗ isParts ps bs := rfl
      rw [e]
      cases p with
      | none =>
        unfold isPart
        dsimp only
        refine Triple.pure fun hb => ?_
        refine Triple.seq (free_null c f) (F := isParts ps bs) (by rw [Asrt.emp_star]) fun _ f1 _ => ?_
        rw [Asrt.emp_star]
        exact ih f1
      | some q =>
        unfold isPart
        dsimp only
        sstep free_bytes c f q b (.inr (hp _ List.mem_cons_self))
        intro _ f1 _
        first | exact ih f1 | (rw [Asrt.emp_star]; exact ih f1)

theorem hFreeUnpacked_spec (c : Rules) (a : Addr) (bs : List Bytes) (hp : ∀ b ∈ bs, c.pub b) :
    Destroys c (isProto a bs) (hFreeUnpacked (some a)) := by
  intro f
  unfold hFreeUnpacked
  sopen isProto
  sread loadObj_reads a _ _
  dsimp only
  sstep hFreeParts_spec c f _ bs hp
  intro _ f1 _
  sgo

theorem hFreeUnpacked_none : hFreeUnpacked none = pure none := rfl

/-- The element at an index. -/
class inductive Nth : List Bytes → Nat → outParam Bytes → Prop where
  | zero (b : Bytes) (bs : List Bytes) : Nth (b :: bs) 0 b
  | succ {b : Bytes} {bs : List Bytes} {i : Nat} (a : Bytes) (h : Nth bs i b) : Nth (a :: bs) (i + 1) b

instance (b : Bytes) (bs : List Bytes) : Nth (b :: bs) 0 b := .zero b bs
instance {b : Bytes} {bs : List Bytes} {i : Nat} (a : Bytes) [h : Nth bs i b] : Nth (a :: bs) (i + 1) b := .succ a h

theorem Nth.of {bs : List Bytes} {i : Nat} {b : Bytes} (h : bs[i]? = some b) : Nth bs i b := by
  induction bs generalizing i with
  | nil => simp at h
  | cons a bs ih =>
    cases i with
    | zero => simp at h; subst h; exact .zero _ _
    | succ i => exact .succ _ (ih (by simpa using h))

theorem isParts_nth {bs : List Bytes} {i : Nat} {b : Bytes} (hn : Nth bs i b) {ps : List Ptr} {x : Heap} (h : isParts ps bs x) :
    ∃ p, ps[i]? = some p ∧ ∃ F, (isPart p b ∗ F) x := by
  induction hn generalizing ps x with
  | zero b bs =>
    cases ps with
    | nil => exact h.1.elim
    | cons p ps => exact ⟨p, rfl, _, h⟩
  | succ a hn ih =>
    cases ps with
    | nil => exact h.1.elim
    | cons p ps =>
      obtain ⟨h1, h2, hd, rfl, k1, k2⟩ := h
      obtain ⟨q, hq, F, hF⟩ := ih k2
      refine ⟨q, by simpa using hq, keep h1 ∗ F, ?_⟩
      rw [Asrt.left_comm]
      exact ⟨h1, h2, hd, rfl, rfl, hF⟩

theorem hPart_view {h : Heap} {a : Addr} {bs : List Bytes} {i : Nat} {b : Bytes} [hn : Nth bs i b] (ha : Has isProto h a bs) :
    Reads (keep h) (hPart (some a) i) b := by
  refine Reads.view (fun x hx => ?_) ha
  intro c f
  unfold hPart
  obtain ⟨ps, hx⟩ := hx
  obtain ⟨h1, h2, k1, k2, e⟩ := keep_star hx
  rw [e]
  clear e
  rw [keep_cell k1]
  obtain ⟨p, hp, F, hF⟩ := isParts_nth hn k2
  obtain ⟨h3, h4, k3, k4, e⟩ := keep_star hF
  rw [e]
  clear e
  refine Triple.read (field_reads a _ ps i p hp) (by frame) ?_
  cases p with
  | none =>
    obtain ⟨rfl, e⟩ := keep_pure k3
    exact Triple.ret fun h hh => Asrt.pure_star.2 ⟨⟨rfl, rfl⟩, hh⟩
  | some q =>
    rw [keep_cell k3]
    dsimp only
    refine Triple.tail ?_
    sread loadBytes_reads q b
    exact Triple.ret fun h hh => Asrt.pure_star.2 ⟨⟨rfl, rfl⟩, hh⟩

end Wickr
