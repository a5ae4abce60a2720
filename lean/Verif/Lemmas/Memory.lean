import Verif.Spec.Memory
import Verif.Lemmas.Sep
/-
From triples to statements about runs.
-/
namespace Wickr
open Asrt Spec

variable {V : Type}

/-- What is allowed when everything but `pubs` is secret. -/
def loose (pubs : List Bytes) : Rules := { pub := (· ∈ pubs), crash := True }
def tight (pubs : List Bytes) : Rules := { pub := (· ∈ pubs), crash := False }

/-- Copying as it is proved. -/
def KeepSpec (c : V → Rules) (R : Addr → V → Asrt) (ok : V → Prop) (Post : V → Ptr → Bool → Asrt) (copy : Ptr → H Ptr) : Prop :=
  ∀ a v, ok v → ∀ f h, R a v h → Triple (c v) f (keep h) (copy (some a)) (fun r f' => keep h ∗ Post v r f')

theorem KeepSpec.run {c : V → Rules} {R : Addr → V → Asrt} {ok : V → Prop} {Post : V → Ptr → Bool → Asrt}
    {copy : Ptr → H Ptr} (hk : KeepSpec c R ok Post copy) {A : Alloc} {s : St} {a : Addr} {v : V} (ho : ok v)
    (hx : Has R s.heap a v) :
    Good (c v) s.oom s (keep s.heap) (fun r f' => Post v r f') (copy (some a) A s) := by
  obtain ⟨h1, h2, hd, he, hr, -⟩ := hx
  have hs : (keep h1 ∗ keep h2) s.heap := ⟨h1, h2, hd, he, rfl, rfl⟩
  have := hk a v ho s.oom h1 hr A s (keep h2) rfl hs
  revert this
  cases copy (some a) A s with
  | ub => exact id
  | crash s' => exact id
  | ret r s' =>
    rintro ⟨hq, h3⟩
    refine ⟨?_, h3⟩
    have e : keep s.heap = (keep h1 ∗ keep h2) := by
      funext z
      apply propext
      constructor
      · rintro rfl; exact hs
      · rintro ⟨a1, a2, -, rfl, rfl, rfl⟩; exact he.symm
    rw [e]
    dsimp only at hq ⊢
    rwa [Asrt.star_comm (keep h1), Asrt.star_assoc] at hq

theorem keep_sub {Q : Asrt} {h h' : Heap} (hq : (Q ∗ keep h) h') : ∀ x, h x ≠ none → h' x = h x := by
  obtain ⟨h1, h2, hd, rfl, -, rfl⟩ := hq
  intro x hx
  rcases hd x with h | h
  · simp [h]
  · exact absurd h hx

theorem emp_keep {h h' : Heap} (hq : (emp ∗ keep h) h') : h' = h := by rwa [Asrt.emp_star] at hq

theorem KeepSpec.mono {c : V → Rules} {R : Addr → V → Asrt} {ok : V → Prop} {Post Post' : V → Ptr → Bool → Asrt}
    {copy : Ptr → H Ptr} (hk : KeepSpec c R ok Post copy) (h : ∀ v, ok v → ∀ r f, Asrt.le (Post v r f) (Post' v r f)) :
    KeepSpec c R ok Post' copy := fun a v ho f h' hr =>
  Triple.conseq (hk a v ho f h' hr) (fun _ h => h) fun r f' z _ hz => Asrt.le_star (Asrt.le_refl _) (h v ho r f') z hz

theorem fresh_le {R : Addr → V → Asrt} {v : V} {r : Ptr} {f : Bool} : Asrt.le (fresh R v r f) (freshL R Eq v r f) := by
  cases r with
  | none => exact Asrt.le_refl _
  | some a => exact fun z hz => ⟨v, Asrt.pure_star.2 ⟨⟨rfl, fun _ => rfl⟩, hz⟩⟩

theorem freshL_le {R : Addr → V → Asrt} {L : V → V → Prop} {v : V} {r : Ptr} {f : Bool} :
    Asrt.le (freshL R L v r f) (leaky R L v r f) := by
  cases r with
  | none => exact fun z hz => Asrt.pure_star.2 ⟨hz.1, trivial⟩
  | some a => exact Asrt.le_refl _

theorem spill_of_emp {f : Bool} : Asrt.le emp (spill f) := by
  cases f
  · exact Asrt.le_refl _
  · exact Asrt.le_any _

theorem leaky_le {R : Addr → V → Asrt} {L : V → V → Prop} {v : V} {r : Ptr} {f : Bool} :
    Asrt.le (leaky R L v r f) (wasteful R L v r f) := by
  cases r with
  | none => exact Asrt.le_refl _
  | some a =>
    rintro z ⟨v', hz⟩
    refine ⟨v', ?_⟩
    refine Asrt.le_star (Asrt.le_refl _) (Asrt.le_star (Asrt.le_refl (R a v')) (spill_of_emp (f := f))) z ?_
    rw [Asrt.star_emp]
    exact hz

section
variable {c : V → Rules} {R : Addr → V → Asrt} {ok : V → Prop} {copy destroy : Ptr → H Ptr} {L : V → V → Prop}

theorem CopySafe.of {img : V → V} (hk : KeepSpec c R ok (fun v => wasteful R L (img v)) copy) : CopySafe R ok img copy := by
  intro A s a v ho hf hx
  have := hk.run (A := A) ho hx
  revert this
  cases copy (some a) A s with
  | ub => exact id
  | crash s' => exact fun h => h.2.1
  | ret r s' =>
    rintro ⟨hq, -, -⟩
    refine ⟨keep_sub hq, ?_, ?_⟩
    · rintro rfl
      unfold wasteful at hq
      rw [Asrt.star_assoc] at hq
      exact (Asrt.pure_star.1 hq).1
    · intro hf'
      rw [hf'] at hq
      cases r with
      | none =>
        unfold wasteful at hq
        rw [Asrt.star_assoc] at hq
        exact absurd (Asrt.pure_star.1 hq).1 (by simp)
      | some b =>
        refine ⟨b, rfl, ?_⟩
        unfold wasteful spill at hq
        rw [Asrt.ex_star] at hq
        obtain ⟨v', hq⟩ := hq
        rw [Asrt.star_assoc, Asrt.star_emp] at hq
        obtain ⟨⟨-, h⟩, hq⟩ := Asrt.pure_star.1 hq
        rwa [h rfl] at hq

theorem some_leaky {a : Addr} {v : V} {f : Bool} {F : Asrt} {z : Heap} (h : (leaky R L v (some a) f ∗ F) z) :
    ∃ v', L v v' ∧ (f = false → v' = v) ∧ (R a v' ∗ F) z := by
  unfold leaky at h
  rw [Asrt.ex_star] at h
  obtain ⟨v', h⟩ := h
  rw [Asrt.star_assoc] at h
  obtain ⟨⟨h1, h2⟩, h⟩ := Asrt.pure_star.1 h
  exact ⟨v', h1, h2, h⟩

theorem some_wasteful {a : Addr} {v : V} {f : Bool} {F : Asrt} {z : Heap} (h : (wasteful R L v (some a) f ∗ F) z) :
    ∃ v', L v v' ∧ (f = false → v' = v) ∧ (R a v' ∗ Asrt.any) z := by
  unfold wasteful at h
  rw [Asrt.ex_star] at h
  obtain ⟨v', h⟩ := h
  rw [Asrt.star_assoc] at h
  obtain ⟨⟨h1, h2⟩, h⟩ := Asrt.pure_star.1 h
  rw [Asrt.star_assoc] at h
  exact ⟨v', h1, h2, Asrt.le_star (Asrt.le_refl _) (Asrt.le_any _) z h⟩

theorem DestroySafe.of {pubs : V → List Bytes} (h : ∀ a v, ok v → Destroys (tight (pubs v)) (R a v) (destroy (some a))) :
    DestroySafe R ok destroy := by
  intro A s a v rest ho hx
  have := h a v ho s.oom A s (keep rest) rfl hx
  revert this
  cases destroy (some a) A s with
  | ub => exact fun h => h.elim
  | crash s' => exact fun h => h.1.elim
  | ret r s' =>
    rintro ⟨hq, -, -⟩
    obtain ⟨hn, hr⟩ := Asrt.pure_star.1 hq
    subst hn
    exact ⟨s', rfl, hr⟩

/-- Destroying what a copy may be. -/
theorem CopyUndone.of {img : V → V} {ok' : V → Prop} (hk : KeepSpec c R ok (fun v => leaky R L (img v)) copy)
    (hd : DestroySafe R ok' destroy) (hl : ∀ v v', ok v → L (img v) v' → ok' v') : CopyUndone R ok copy destroy := by
  intro A A' s a v b s' ho hf hx he
  have := hk.run (A := A) ho hx
  rw [he] at this
  obtain ⟨hq, -, -⟩ := this
  obtain ⟨v', h1, -, hq⟩ := some_leaky hq
  exact hd A' s' b v' s.heap (hl v v' ho h1) hq

theorem FullCopyUndone.of (hc : CopySafe R ok id copy) (hd : DestroySafe R ok destroy) : FullCopyUndone R ok copy destroy := by
  intro A A' s a v b s' ho hf hx he hf'
  have h := hc A s a v ho hf hx
  rw [he] at h
  obtain ⟨b', hb, h⟩ := h.2.2 hf'
  obtain rfl := Option.some.inj hb
  exact hd A' s' b v s.heap ho h

theorem CopyNoLeak.of {img : V → V} (hk : KeepSpec c R ok (fun v => freshL R L (img v)) copy) : CopyNoLeak R ok copy := by
  intro A s a v s' ho hf hx he
  have := hk.run (A := A) ho hx
  rw [he] at this
  exact (Asrt.pure_star.1 this.1).2

theorem CopyUpTo.of (hk : KeepSpec c R ok (fun v => wasteful R L v) copy) : CopyUpTo R ok L copy := by
  intro A s a v b s' ho hf hx he
  have := hk.run (A := A) ho hx
  rw [he] at this
  obtain ⟨v', h1, -, hq⟩ := some_wasteful this.1
  exact ⟨v', h1, hq⟩

theorem CopyFaithful.of {img : V → V} (hk : KeepSpec c R ok (fun v => wasteful R Eq (img v)) copy) :
    CopyFaithful R ok img copy := by
  intro A s a v b s' ho hf hx he
  have := hk.run (A := A) ho hx
  rw [he] at this
  obtain ⟨v', rfl, -, hq⟩ := some_wasteful this.1
  exact hq

theorem CopyNoCrash.of {Post : V → Ptr → Bool → Asrt} {pubs : V → List Bytes} (hk : KeepSpec (fun v => tight (pubs v)) R ok Post copy) :
    CopyNoCrash R ok copy := by
  intro A s a v ho hf hx s' he
  have := hk.run (A := A) ho hx
  rw [he] at this
  exact this.1

theorem Rules.May.strict {c : Rules} {f : Bool} {b : Bytes} (hc : ¬ c.lax) (h : c.May f b) : Wiped b ∨ c.pub b :=
  h.imp_right fun h => h.resolve_right fun h => hc h.2

theorem Wipes.of {Post : V → Ptr → Bool → Asrt} {pubs : V → List Bytes} (hk : KeepSpec (fun v => loose (pubs v)) R ok Post copy) :
    Wipes R ok pubs copy := by
  intro A s a v ho hf hx
  have := hk.run (A := A) ho hx
  revert this
  cases copy (some a) A s with
  | ub => exact id
  | crash s' => exact fun h b hb => (h.2.2 b hb).imp_right (Rules.May.strict id)
  | ret r s' => exact fun h b hb => (h.2.2 b hb).imp_right (Rules.May.strict id)

theorem Wipes.ofDestroy {pubs : V → List Bytes} (h : ∀ a v, ok v → Destroys (tight (pubs v)) (R a v) (destroy (some a))) :
    Wipes R ok pubs destroy := by
  intro A s a v ho hf hx
  have := h a v ho s.oom A s Asrt.any rfl hx
  revert this
  cases destroy (some a) A s with
  | ub => exact id
  | crash s' => exact fun h b hb => (h.2.2 b hb).imp_right (Rules.May.strict id)
  | ret r s' => exact fun h b hb => (h.2.2 b hb).imp_right (Rules.May.strict id)

theorem KeepSpec.freshL {img : V → V} (hk : KeepSpec c R ok (fun v => fresh R (img v)) copy) : KeepSpec c R ok (fun v => Wickr.freshL R Eq (img v)) copy :=
  hk.mono fun _ _ _ _ => fresh_le
theorem KeepSpec.leaky {img : V → V} (hk : KeepSpec c R ok (fun v => Wickr.freshL R L (img v)) copy) : KeepSpec c R ok (fun v => Wickr.leaky R L (img v)) copy :=
  hk.mono fun _ _ _ _ => freshL_le
theorem KeepSpec.wasteful {img : V → V} (hk : KeepSpec c R ok (fun v => Wickr.leaky R L (img v)) copy) : KeepSpec c R ok (fun v => Wickr.wasteful R L (img v)) copy :=
  hk.mono fun _ _ _ _ => leaky_le
end

theorem CreateSafe.ofMade {parts : Asrt} {R : Addr → V → Asrt} {v : V} {create : H Ptr}
    (h : Triple (loose []) false parts create (fun r _ => made R v r)) : CreateSafe parts R v create := by
  intro A s rest hf hx
  have := h A s (keep rest) hf hx
  revert this
  cases create A s with
  | ub => exact fun h => h
  | crash s' => exact fun h => h.2.1
  | ret r s' =>
    rintro ⟨hq, -, -⟩
    cases r with
    | none => exact (Asrt.pure_star.1 hq).1.elim
    | some b => exact hq

theorem CreateSafe.of {parts : Asrt} {R : Addr → V → Asrt} {v : V} {create : H Ptr}
    (h : Triple (tight []) false parts create (fun r f' => orKeep parts R v r f')) : CreateSafe parts R v create := by
  intro A s rest hf hx
  have := h A s (keep rest) hf hx
  revert this
  cases create A s with
  | ub => exact fun h => h
  | crash s' => exact fun h => h.2.1
  | ret r s' =>
    rintro ⟨hq, -, -⟩
    cases r with
    | none =>
      unfold orKeep at hq
      rw [Asrt.star_assoc] at hq
      exact Asrt.pure_star.1 hq
    | some b => exact hq

theorem RefusesIn.of {parts : Asrt} {create : H Ptr} (h : ∀ h', parts h' → Reads (keep h') create none) : RefusesIn parts create := by
  rintro A s ⟨h1, h2, hd, he, hp, -⟩
  have := h h1 hp Rules.strict s.oom A s (keep h2) rfl ⟨h1, h2, hd, he, rfl, rfl⟩
  revert this
  cases create A s with
  | ub => exact fun h => h.elim
  | crash s' => exact fun h => h.1.elim
  | ret r s' =>
    rintro ⟨hq, -, -⟩
    rw [Asrt.star_assoc] at hq
    obtain ⟨⟨hn, ho⟩, a1, a2, -, ha, rfl, rfl⟩ := Asrt.pure_star.1 hq
    subst hn
    exact ⟨s', rfl, by rw [ha, he], ho⟩

end Wickr
