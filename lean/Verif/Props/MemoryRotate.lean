import Verif.Lemmas.Witness
/-
C85: changing the ephemeral key of a node.
-/
namespace Wickr
open Asrt Spec

theorem hNodeRotate_move (c : Rules) (f : Bool) (a k : Addr) (v : Node) (e : EphKey) (hp : ∀ b ∈ v.publics, c.pub b) :
    Triple c f (isNode a v ∗ isEph k e) (hNodeRotate (some a) (some k) false)
      (fun r _ => ⌜r = true⌝ ∗ isNode a { v with eph := some e, status := .unknown }) := by
  unfold hNodeRotate
  obtain ⟨b, ch, ep, st, ca⟩ := v
  simp only [Node.publics, List.mem_cons, List.mem_append, or_imp, forall_and, forall_eq] at hp
  sopen isNode
  simp only [Bool.false_eq_true, if_false]
  sopt <;> simp at hp <;> sgo

/-- What a node is after its key was to be replaced by a copy of another. -/
def rotated (a : Addr) (v : Node) (e : EphKey) (r f' : Bool) : Asrt :=
  match r with
  | true => isNode a { v with eph := some e, status := .unknown }
  | false => ⌜f' = true⌝ ∗ isNode a { v with eph := none, status := .unknown }

theorem hNodeRotate_copy (c : Rules) (f : Bool) (hc : c.crash) (a k : Addr) (v : Node) (e : EphKey) (hp : ∀ b ∈ v.publics, c.pub b)
    (he : ∀ b ∈ e.publics, c.pub b) :
    Triple c f (isNode a v ∗ isEph k e) (hNodeRotate (some a) (some k) true)
      (fun r f' => isEph k e ∗ rotated a v e r f') := by
  unfold hNodeRotate
  obtain ⟨b, ch, ep, st, ca⟩ := v
  simp only [Node.publics, List.mem_cons, List.mem_append, or_imp, forall_and, forall_eq] at hp
  sopen isNode
  simp only [if_true, rotated]
  sopt <;> simp at hp <;> sgo <;> (refine Triple.ret ?_; dsimp only [List.set]; sentail)

/-- The key is handed over: the old one is released, and the node, with no cached status, owns the new one. -/
theorem C85_move (A : Alloc) (s : St) (a k : Addr) (v : Node) (e : EphKey) (rest : Heap)
    (hx : ((isNode a v ∗ isEph k e) ∗ keep rest) s.heap) :
    ∃ s', hNodeRotate (some a) (some k) false A s = .ret true s' ∧
      (isNode a { v with eph := some e, status := .unknown } ∗ keep rest) s'.heap := by
  have := hNodeRotate_move (tight v.publics) s.oom a k v e (fun _ h => h) A s (keep rest) rfl hx
  revert this
  cases hNodeRotate (some a) (some k) false A s with
  | ub => exact fun h => h.elim
  | crash s' => exact fun h => h.1.elim
  | ret r s' =>
    rintro ⟨hq, -, -⟩
    rw [Asrt.star_assoc] at hq
    obtain ⟨hr, hk⟩ := Asrt.pure_star.1 hq
    subst hr
    exact ⟨s', rfl, hk⟩

/-- The key is copied: the caller keeps theirs.  If there is no memory for the copy the node is left without a key. -/
theorem C85_copy (A : Alloc) (s : St) (a k : Addr) (v : Node) (e : EphKey) (rest : Heap)
    (hx : ((isNode a v ∗ isEph k e) ∗ keep rest) s.heap) :
    match hNodeRotate (some a) (some k) true A s with
    | .ub => False
    | .crash s' => s'.oom = true
    | .ret true s' => ((isNode a { v with eph := some e, status := .unknown } ∗ isEph k e) ∗ keep rest) s'.heap
    | .ret false s' => s'.oom = true ∧ ((isNode a { v with eph := none, status := .unknown } ∗ isEph k e) ∗ keep rest) s'.heap := by
  have := hNodeRotate_copy (loose (v.publics ++ e.publics)) s.oom trivial a k v e (fun _ h => List.mem_append_left _ h)
    (fun _ h => List.mem_append_right _ h) A s (keep rest) rfl hx
  revert this
  cases hNodeRotate (some a) (some k) true A s with
  | ub => exact fun h => h
  | crash s' => exact fun h => h.2.1
  | ret r s' =>
    rintro ⟨hq, -, -⟩
    dsimp only at hq
    rw [Asrt.star_comm (isEph k e)] at hq
    cases r with
    | true => exact hq
    | false =>
      simp only [rotated, Asrt.star_assoc] at hq ⊢
      exact Asrt.pure_star.1 hq

/-- Either way, no secret is released without being wiped. -/
theorem C85_wipes (A : Alloc) (s : St) (a k : Addr) (v : Node) (e : EphKey) (rest : Heap) (copy : Bool)
    (hx : ((isNode a v ∗ isEph k e) ∗ keep rest) s.heap) :
    match hNodeRotate (some a) (some k) copy A s with
    | .ub => False
    | .crash s' => ∀ b ∈ s'.log, b ∈ s.log ∨ Wiped b ∨ b ∈ v.publics ++ e.publics
    | .ret _ s' => ∀ b ∈ s'.log, b ∈ s.log ∨ Wiped b ∨ b ∈ v.publics ++ e.publics := by
  have h1 := hNodeRotate_copy (loose (v.publics ++ e.publics)) s.oom trivial a k v e (fun _ h => List.mem_append_left _ h)
    (fun _ h => List.mem_append_right _ h) A s (keep rest) rfl hx
  have h2 := hNodeRotate_move (loose (v.publics ++ e.publics)) s.oom a k v e (fun _ h => List.mem_append_left _ h)
    A s (keep rest) rfl hx
  cases copy with
  | true =>
    revert h1
    cases hNodeRotate (some a) (some k) true A s with
    | ub => exact id
    | crash s' => exact fun h b hb => (h.2.2 b hb).imp_right (Rules.May.strict id)
    | ret _ s' => exact fun h b hb => (h.2.2 b hb).imp_right (Rules.May.strict id)
  | false =>
    revert h2
    cases hNodeRotate (some a) (some k) false A s with
    | ub => exact id
    | crash s' => exact fun h b hb => (h.2.2 b hb).imp_right (Rules.May.strict id)
    | ret _ s' => exact fun h b hb => (h.2.2 b hb).imp_right (Rules.May.strict id)

/-- A node and a key in memory. -/
example : ∃ (s : St) (p q : Addr) (rest : Heap), s.oom = false ∧ ((isNode p exNode ∗ isEph q exEph) ∗ keep rest) s.heap :=
  exists_pair mkNode_spec mkEph_spec (by decide +kernel)

/-- A node whose key is at `k`. -/
def isNodeOf (k : Addr) (a : Addr) (v : Node) (e : EphKey) : Asrt :=
  Asrt.ex fun (d : Addr) => Asrt.ex fun (ch : Addr) => Asrt.ex fun (q : Ptr) =>
    ((a ↦ .obj (.status v.status) [some d, some ch, some k, q]) ∗ isEph k e) ∗ isBuf d v.devId ∗ isChain ch v.chain ∗
      optRep isBuf q v.cache

theorem eph_dropped (c : Rules) (a k d ch : Addr) (q : Ptr) (st : Status) (e : EphKey) (f : Bool) (he : ∀ b ∈ e.publics, c.pub b) :
    Triple c f ((a ↦ .obj (.status st) [some d, some ch, some k, q]) ∗ isEph k e)
      (do destroyField hEphDestroy (some a) 2; setScal (some a) (.status .unknown))
      (fun _ _ => a ↦ .obj (.status .unknown) [some d, some ch, none, q]) := by
  sgo

theorem isEph_occupied (a : Addr) (v : EphKey) (h : Heap) (hx : isEph a v h) : h a ≠ none := by
  obtain ⟨_, _, h1, h2, -, rfl, hc, -⟩ := hx
  rw [hc]
  simp

theorem eph_dropped_run (A : Alloc) (s : St) (a k : Addr) (v : Node) (e : EphKey) (hx : (isNodeOf k a v e ∗ any) s.heap) :
    ∃ s' d ch q, (do destroyField hEphDestroy (some a) 2; setScal (some a) (.status .unknown)) A s = .ret () s' ∧
      s'.heap k = none ∧ s'.heap a = some (.obj (.status .unknown) [some d, some ch, none, q]) := by
  obtain ⟨h1, h2, hd, hu, ⟨d, ch, q, h3, h4, hd', hu', hp, -⟩, -⟩ := hx
  have hs : (((a ↦ .obj (.status v.status) [some d, some ch, some k, q]) ∗ isEph k e) ∗ (fun z => z k = none)) s.heap := by
    obtain ⟨h5, h6, hd2, hu2, hc, he⟩ := id hp
    have ho := isEph_occupied k e h6 he
    have h3k : h3 k ≠ none := by
      rcases hd2 k with h | h
      · rw [hu2]; simpa [h] using ho
      · exact absurd h ho
    refine ⟨h3, fun x => (h4 x).or (h2 x), ?_, ?_, hp, ?_⟩
    · intro x
      have e1 := hd x
      have e2 := hd' x
      rw [hu'] at e1
      clear hu2 hu' hp
      cases hx3 : h3 x <;> simp_all
    · rw [hu, hu']
      funext x
      simp [Option.or_assoc]
    · have e1 := hd k
      have e2 := hd' k
      rw [hu'] at e1
      clear hu2 hu' hp
      cases hx3 : h3 k <;> simp_all
  have := eph_dropped (tight e.publics) a k d ch q v.status e s.oom (fun _ h => h) A s _ rfl hs
  revert this
  have hka : k ≠ a := by
    rintro rfl
    obtain ⟨h5, h6, hd2, hu2, hc, he⟩ := hp
    have ho := isEph_occupied k e h6 he
    rcases hd2 k with h | h
    · rw [hc] at h; simp at h
    · exact ho h
  cases (do destroyField hEphDestroy (some a) 2; setScal (some a) (.status .unknown) : H Unit) A s with
  | ub => exact fun h => h.elim
  | crash s' => exact fun h => h.1.elim
  | ret r s' =>
    rintro ⟨⟨h7, h8, hd3, hu3, hc, hk⟩, -, -⟩
    refine ⟨s', d, ch, q, rfl, ?_, ?_⟩
    · rw [hu3, hc]; simp [hka, hk]
    · rw [hu3, hc]; simp

theorem rotate_split (a k : Addr) (copy : Bool) (A : Alloc) (s : St) :
    hNodeRotate (some a) (some k) copy A s =
      (do
        (do destroyField hEphDestroy (some a) 2; setScal (some a) (.status .unknown) : H Unit)
        if copy then
          onNull (hEphCopy (some k)) (pure false) fun q => do
            setField (some a) 2 q
            pure true
        else do
          setField (some a) 2 (some k)
          pure true) A s := by
  unfold hNodeRotate
  simp only [bind, H.bind]
  cases destroyField hEphDestroy (some a) 2 A s <;> rfl

/-- Replacing the key of a node by a copy of itself reads memory that was released. -/
theorem C85_self_copy (A : Alloc) (s : St) (a k : Addr) (v : Node) (e : EphKey) (hx : (isNodeOf k a v e ∗ any) s.heap) :
    hNodeRotate (some a) (some k) true A s = .ub := by
  obtain ⟨s', d, ch, q, h1, h2, h3⟩ := eph_dropped_run A s a k v e hx
  rw [rotate_split]
  show H.bind _ _ A s = _
  unfold H.bind
  rw [h1]
  simp [onNull, hEphCopy, field, loadObj, bind, H.bind, h2]

/-- Replacing the key of a node by itself leaves the node with a pointer to a key that was released. -/
theorem C85_self_move (A : Alloc) (s : St) (a k : Addr) (v : Node) (e : EphKey) (hx : (isNodeOf k a v e ∗ any) s.heap) :
    ∃ s', hNodeRotate (some a) (some k) false A s = .ret true s' ∧ s'.heap k = none ∧
      ∃ d ch q, s'.heap a = some (.obj (.status .unknown) [some d, some ch, some k, q]) := by
  obtain ⟨s', d, ch, q, h1, h2, h3⟩ := eph_dropped_run A s a k v e hx
  have hka : k ≠ a := by rintro rfl; rw [h2] at h3; exact nomatch h3
  rw [rotate_split]
  show ∃ s', H.bind _ _ A s = _ ∧ _
  unfold H.bind
  rw [h1]
  simp [setField, loadObj, store, bind, H.bind, h3]
  refine ⟨_, rfl, ?_, d, ch, q, ?_⟩ <;> simp [Heap.set, hka, h2]

/-- A node in memory whose key is at a known place. -/
example : ∃ (s : St) (a k : Addr), (isNodeOf k a exNode exEph ∗ any) s.heap := by
  obtain ⟨s, a, -, h1, h2, hd, hu, ⟨d, ch, p, q, hx⟩, -⟩ := exists_has (mkNode_spec _ _ trivial) (by decide +kernel)
  cases p with
  | none =>
    obtain ⟨_, _, _, _, _, _, _, _, _, _, _, _, _, _, _, _, _, _, _, h, _⟩ := hx
    exact h.1.elim
  | some k =>
    refine ⟨s, a, k, h1, h2, hd, hu, ⟨d, ch, q, ?_⟩, trivial⟩
    have : Asrt.le ((a ↦ .obj (.status exNode.status) [some d, some ch, some k, q]) ∗ isBuf d exNode.devId ∗
        isChain ch exNode.chain ∗ isEph k exEph ∗ optRep isBuf q exNode.cache)
        (((a ↦ .obj (.status exNode.status) [some d, some ch, some k, q]) ∗ isEph k exEph) ∗ isBuf d exNode.devId ∗
          isChain ch exNode.chain ∗ optRep isBuf q exNode.cache) := by
      intro z hz
      rw [Asrt.star_assoc]
      rw [Asrt.star_comm (isEph k exEph)]
      simpa only [Asrt.star_assoc, Asrt.star_comm (isEph k exEph)] using hz
    exact this h1 hx

theorem strip_spec (c : Rules) (f : Bool) (k : Addr) (cv : Curve) (b : Bytes) (v : Option Bytes) :
    Triple c f (isKey k ⟨cv, b, v⟩) (do destroyField hBufDestroyZero (some k) 1; pure ()) (fun _ _ => isKey k ⟨cv, b, none⟩) := by
  sopen isKey
  sopt <;> sgo <;> (refine Triple.ret ?_; dsimp only [List.set]; sentail)

theorem hEphMakePublic_spec (c : Rules) (f : Bool) (a : Addr) (e : EphKey) :
    Triple c f (isEph a e) (hEphMakePublic (some a)) (fun _ _ => isEph a { e with key := { e.key with pri := none } }) := by
  unfold hEphMakePublic
  obtain ⟨n, ⟨cv, b, v⟩, s⟩ := e
  sopen isEph
  rename_i k p
  sread field_reads a _ _ 0 (some k) rfl
  refine Triple.seq' (strip_spec c f k cv b v) (by frame) fun _ f' _ => ?_
  sgo

/-- Removing the private key: it is wiped and released, and the rest is as it was. -/
theorem C85_make_public (A : Alloc) (s : St) (a : Addr) (e : EphKey) (rest : Heap) (hx : (isEph a e ∗ keep rest) s.heap) :
    ∃ s', hEphMakePublic (some a) A s = .ret () s' ∧
      (isEph a { e with key := { e.key with pri := none } } ∗ keep rest) s'.heap ∧ ∀ b ∈ s'.log, b ∈ s.log ∨ Wiped b := by
  have := hEphMakePublic_spec Rules.strict s.oom a e A s (keep rest) rfl hx
  revert this
  cases hEphMakePublic (some a) A s with
  | ub => exact fun h => h.elim
  | crash s' => exact fun h => h.1.elim
  | ret r s' =>
    rintro ⟨hq, -, hl⟩
    refine ⟨s', rfl, hq, fun b hb => ?_⟩
    rcases hl b hb with h | h | h | h
    · exact Or.inl h
    · exact Or.inr h
    · exact h.elim
    · exact h.2.elim

end Wickr
