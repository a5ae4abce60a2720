import Verif.Lemmas.Witness
/-
C78-C80: what does not fit the general statements: node arrays, parse results, and device information without a system salt.
-/
namespace Wickr
open Asrt Spec

/-- Device information without a system salt is never copied, however much memory there is. -/
theorem C78_dev_refused (A : Alloc) (s : St) (a : Addr) (v : DevInfo) (hn : v.systemSalt = none) (hx : Has isDev s.heap a v) :
    ∃ s', hDevCopy (some a) A s = .ret none s' ∧ s'.heap = s.heap ∧ s'.oom = s.oom := by
  obtain ⟨h1, h2, hd, he, hr, -⟩ := hx
  have := hDevCopy_none Rules.strict s.oom a v hn h1 hr A s (keep h2) rfl ⟨h1, h2, hd, he, rfl, rfl⟩
  revert this
  cases hDevCopy (some a) A s with
  | ub => exact fun h => h.elim
  | crash s' => exact fun h => h.1.elim
  | ret r s' =>
    rintro ⟨hq, -, -⟩
    rw [Asrt.star_assoc] at hq
    obtain ⟨⟨hn, h3⟩, hk⟩ := Asrt.pure_star.1 hq
    subst hn
    refine ⟨s', rfl, ?_, h3⟩
    obtain ⟨a1, a2, -, h, rfl, rfl⟩ := hk
    rw [h, he]

example : ∃ (s : St) (a : Addr), s.oom = false ∧ Has isDev s.heap a exDevNoSalt :=
  exists_has (mkDevNoSalt_spec _ _ trivial) (by decide +kernel)

/-- What is left of a node array when it is released: its nodes. -/
theorem C79_nodes_destroy (A : Alloc) (s : St) (a : Addr) (xs : List (Option Node)) (rest : Heap)
    (hx : (isArr isNode a xs ∗ keep rest) s.heap) :
    ∃ s' ps, hNodesDestroy (some a) A s = .ret none s' ∧ (items isNode ps xs ∗ keep rest) s'.heap := by
  unfold isArr at hx
  rw [Asrt.ex_star] at hx
  obtain ⟨ps, hx⟩ := hx
  rw [Asrt.star_assoc] at hx
  have := hArrDestroy_shallow hNodeDestroy Rules.strict a xs.length ps s.oom A s _ rfl hx
  revert this
  show Good _ _ _ _ _ (hNodesDestroy (some a) A s) → _
  cases hNodesDestroy (some a) A s with
  | ub => exact fun h => h.elim
  | crash s' => exact fun h => h.1.elim
  | ret r s' =>
    rintro ⟨hq, -, -⟩
    obtain ⟨hn, hk⟩ := Asrt.pure_star.1 hq
    subst hn
    exact ⟨s', ps, rfl, hk⟩

theorem items_occupied {V : Type} {R : Addr → V → Asrt} (hR : ∀ a v h, R a v h → h a ≠ none) :
    ∀ {ps : List Ptr} {xs : List (Option V)} {h : Heap}, items R ps xs h → (∃ v, some v ∈ xs) → ∃ x, h x ≠ none
  | [], [], _, _, ⟨_, hv⟩ => by simp at hv
  | p :: ps, x :: xs, h, hi, ⟨v, hv⟩ => by
    obtain ⟨h1, h2, hd, rfl, hx, hr⟩ := hi
    cases x with
    | some w =>
      cases p with
      | none => exact hx.1.elim
      | some q => exact ⟨q, by have := hR q w h1 hx; cases e : h1 q <;> simp_all⟩
    | none =>
      obtain ⟨y, hy⟩ := items_occupied hR hr ⟨v, by simpa using hv⟩
      refine ⟨y, ?_⟩
      rcases hd y with e | e
      · simpa [e] using hy
      · exact absurd e hy
  | [], _ :: _, _, h, _ => h.1.elim
  | _ :: _, [], _, h, _ => h.1.elim

theorem isNode_occupied (a : Addr) (v : Node) (h : Heap) (hx : isNode a v h) : h a ≠ none := by
  obtain ⟨_, _, _, _, h1, h2, -, rfl, hc, -⟩ := hx
  rw [hc]
  simp

/-- Copying a node array in which there is a node and releasing the copy leaves the copied nodes in memory. -/
theorem C79_nodes_leaks (A A' : Alloc) (s : St) (a : Addr) (xs : List (Option Node)) (b : Addr) (s' : St)
    (hf : s.oom = false) (hx : Has (isArr isNode) s.heap a xs) (hv : ∃ v, some v ∈ xs)
    (hc : hNodesCopy (some a) A s = .ret (some b) s') (hf' : s'.oom = false) :
    ∃ s'' ps, hNodesDestroy (some b) A' s' = .ret none s'' ∧ (items isNode ps xs ∗ keep s.heap) s''.heap ∧ s''.heap ≠ s.heap := by
  have h := (CopySafe.of (KeepSpec.wasteful (KeepSpec.leaky nodesKeep))) A s a xs trivial hf hx
  rw [hc] at h
  obtain ⟨-, -, h⟩ := h
  obtain ⟨b', hb, h⟩ := h hf'
  obtain rfl := Option.some.inj hb
  obtain ⟨s'', ps, h1, h2⟩ := C79_nodes_destroy A' s' b xs s.heap h
  refine ⟨s'', ps, h1, h2, ?_⟩
  obtain ⟨h3, h4, hd, he, hi, rfl⟩ := h2
  obtain ⟨x, hx⟩ := items_occupied isNode_occupied hi hv
  intro e
  have e := congrFun e x
  rw [he] at e
  rcases hd x with h | h
  · exact hx h
  · simp only [h, Option.or_none] at e
    exact hx e

/-- The nodes of an array of nodes are not released with it. -/
theorem C79_nodes_not_undone : ¬ CopyUndone (isArr isNode) (fun _ => True) hNodesCopy hNodesDestroy :=
  not_undone [] 53 trivial (mkNodes_spec _ _ trivial) (by decide +kernel)

/-- `wickr_parse_result_copy`, while no allocation fails. -/
theorem C79_parse_copy_partial : FullCopyUndone isParse (fun _ => True) hParseCopy hParseDestroy :=
  FullCopyUndone.of (CopySafe.of parseKeep) (DestroySafe.of (pubs := fun v => v.publics) parseFree)

/-- Otherwise it may leave something behind although it succeeds. -/
theorem C79_parse_not_undone : ¬ CopyUndone isParse (fun _ => True) hParseCopy hParseDestroy :=
  not_undone [45] 46 trivial (mkParse_spec _ _ trivial) (by decide +kernel)

/-- It may also leave something behind when it fails. -/
theorem C80_parse_leaks : ¬ CopyNoLeak isParse (fun _ => True) hParseCopy :=
  not_noLeak [45, 67] 46 trivial (mkParse_spec _ _ trivial) (by decide +kernel)

end Wickr
