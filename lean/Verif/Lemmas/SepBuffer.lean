import Verif.Lemmas.Sep
import Verif.Spec.Repr
import Verif.Model.HeapBuffer
import Verif.Lemmas.Buffer
/-
Buffers on the heap.
-/
namespace Wickr
open Asrt

theorem Triple.open_ex {c : Rules} {f : Bool} {α' : Sort _} {P : α' → Asrt} {F : Asrt} {m : H α} {R : α → Bool → Asrt}
    (h : ∀ x, Triple c f (P x ∗ F) m R) : Triple c f (Asrt.ex P ∗ F) m R := by
  rw [Asrt.ex_star]; exact Triple.ex h

theorem hBufNew_spec (c : Rules) (f : Bool) (n : Nat) (z : Bool) :
    Triple c f emp (hBufNew n z) (fun r f' => match r with
      | none => ⌜f' = true ∨ ¬ (0 < n ∧ n ≤ maxBuffer)⌝
      | some a => ⌜0 < n ∧ n ≤ maxBuffer⌝ ∗ Asrt.ex fun q => (a ↦ .obj (.len n) [some q]) ∗
          (q ↦ (if z then .bytes (List.replicate n 0) else .raw n))) := by
  unfold hBufNew
  by_cases hn : n > maxBuffer ∨ n = 0
  · rw [if_pos hn]
    exact Triple.ret fun h hh => ⟨Or.inr (by omega), hh⟩
  · rw [if_neg hn]
    sstep alloc_spec c f _
    intro p f1 h1
    rw [Asrt.star_emp]
    cases p with
    | none => exact Triple.pure' fun h => Triple.ret fun h' hh => ⟨Or.inl h, hh⟩
    | some a =>
      simp only [fresh]
      sstep alloc_spec c f1 _
      intro q f2 h2
      cases q with
      | none =>
        simp only [fresh]
        refine Triple.pure fun h => ?_
        sstep free_obj c f2 a _ _
        intro _ f3 h3
        exact Triple.ret fun h' hh => ⟨Or.inl (h3 h), by rwa [Asrt.star_emp] at hh⟩
      | some q =>
        simp only [fresh]
        sstep store_spec c f2 a _ _
        intro _ f3 h3
        refine Triple.ret fun h' hh => Asrt.pure_star.2 ⟨by omega, q, hh⟩

theorem hBufCreate_spec (c : Rules) (f : Bool) (b : Bytes) : Triple c f emp (hBufCreate b) (newBuf b) := by
  unfold hBufCreate
  sstep hBufNew_spec c f _ _
  intro p f1 h1
  rw [Asrt.star_emp]
  cases p with
  | none => exact Triple.pure' fun h => Triple.ret fun h' hh => ⟨h, hh⟩
  | some a =>
    dsimp only
    refine Triple.pure fun hv => Triple.ex fun q => ?_
    sread field_reads a _ _ 0 (some q) rfl
    simp only [Bool.false_eq_true, if_false]
    sstep fill_spec c f1 q b
    intro _ f3 h3
    exact Triple.ret fun h' hh => Asrt.pure_star.2 ⟨hv, q, by rwa [Asrt.star_comm] at hh⟩

theorem readBuf_keep {a : Addr} {b : Bytes} {h : Heap} (hb : isBuf a b h) : Reads (keep h) (readBuf (some a)) b := by
  intro c f
  unfold readBuf
  skeep hb isBuf
  sread loadObj_reads a _ _
  sread loadBytes_reads _ b
  rw [if_pos (Nat.le_refl _), List.take_length]
  exact Triple.ret fun h' hh => Asrt.pure_star.2 ⟨⟨rfl, rfl⟩, hh⟩

theorem isBuf_valid {a : Addr} {b : Bytes} {h : Heap} (hb : isBuf a b h) : ValidBuf b := (Asrt.pure_star.1 hb).1

theorem hBufCopy_keep (c : Rules) (f : Bool) (a : Addr) (b : Bytes) (h : Heap) (hb : isBuf a b h) :
    Triple c f (keep h) (hBufCopy (some a)) (fun r f' => keep h ∗ fresh isBuf b r f') := by
  unfold hBufCopy
  have hv := isBuf_valid hb
  sread readBuf_keep hb
  sstep hBufCreate_spec c f b
  intro p f2 h2
  refine Triple.ret fun h' hh => ?_
  rw [Asrt.star_comm]
  cases p with
  | none =>
    obtain ⟨h3, h4⟩ := Asrt.pure_star.1 hh
    exact Asrt.pure_star.2 ⟨by simpa [hv] using h3, h4⟩
  | some q => exact hh

theorem hBufCopy_spec (c : Rules) (f : Bool) (a : Addr) (b : Bytes) :
    Triple c f (isBuf a b) (hBufCopy (some a)) (fun r f' => isBuf a b ∗ fresh isBuf b r f') :=
  Triple.owned fun h hb => hBufCopy_keep c f a b h hb

theorem Triple.valid {c : Rules} {f : Bool} {a : Addr} {b : Bytes} {A F : Asrt} {m : H α} {R : α → Bool → Asrt}
    (hA : A = isBuf a b ∗ F) (h : ValidBuf b → Triple c f A m R) : Triple c f A m R := by
  subst hA
  intro A s F' hf hp
  rw [Asrt.star_assoc] at hp
  obtain ⟨h1, h2, -, -, hb, -⟩ := id hp
  rw [← Asrt.star_assoc] at hp
  exact h (isBuf_valid hb) A s F' hf hp

theorem hBufDestroy_spec {c : Rules} {a : Addr} {b : Bytes} (hb : Wiped b ∨ c.pub b) :
    Destroys c (isBuf a b) (hBufDestroy (some a)) := by
  intro f
  unfold hBufDestroy isBuf
  refine Triple.pure fun hv => Triple.ex fun q => ?_
  sread field_reads a _ _ 0 (some q) rfl
  sstep free_bytes c f q b hb
  intro _ f2 h2
  rw [Asrt.emp_star]
  sstep free_obj c f2 a _ _
  intro _ f3 h3
  rw [Asrt.emp_star]
  exact Triple.ret fun h' hh => ⟨rfl, hh⟩

theorem hBufDestroyZero_spec {c : Rules} {a : Addr} {b : Bytes} :
    Destroys c (isBuf a b) (hBufDestroyZero (some a)) := by
  intro f
  unfold hBufDestroyZero
  unfold isBuf
  refine Triple.pure fun hv => Triple.ex fun q => ?_
  sread loadObj_reads a _ _
  sstep zero_spec c f q b
  intro _ f2 h2
  refine Triple.conseq (hBufDestroy_spec (a := a) (b := List.replicate b.length 0) (Or.inl ?_) f2) ?_ ?_
  · intro x hx; exact (List.mem_replicate.1 hx).2
  · intro h hh
    refine Asrt.pure_star.2 ⟨by unfold ValidBuf at *; simpa using hv, q, ?_⟩
    rw [Asrt.star_comm] at hh
    simpa only [List.length_replicate] using hh
  · intro r f' h _ hh; exact hh

theorem hBufDestroy_opt {c : Rules} {p : Ptr} {v : Option Bytes} (hb : ∀ b, v = some b → Wiped b ∨ c.pub b) :
    Destroys c (optRep isBuf p v) (hBufDestroy p) :=
  Destroys.opt (R := isBuf) rfl fun _ x h => hBufDestroy_spec (hb x h)

theorem hBufDestroyZero_opt {c : Rules} {p : Ptr} {v : Option Bytes} :
    Destroys c (optRep isBuf p v) (hBufDestroyZero p) :=
  Destroys.opt (R := isBuf) rfl fun _ _ _ => hBufDestroyZero_spec

end Wickr
