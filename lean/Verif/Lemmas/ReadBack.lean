import Verif.Spec.ReadBack
import Verif.Spec.Among
import Verif.Spec.Adopt
import Verif.Props.IdentityCodec
import Verif.Props.Storage
/-
What is written with too little memory, read back.
-/
namespace Wickr
open Asrt Spec

variable {E : Engine}

theorem ecdsa_bare_parse {s t : EcdsaResult} {b : Bytes} (hb : ecdsaBare s = some b) (ht : ecdsaFromBuffer b = some t) :
    ∃ n, t = { s with sig := s.sig.drop n } := by
  obtain ⟨c, d, sig⟩ := s
  unfold ecdsaBare at hb
  have e := (concatMulti_some.1 hb).1
  clear hb
  simp only [(ecdsaHdr c d).1] at e
  generalize UInt8.ofNat _ = pad at e
  have e : b = (c.id * 16 + d.id) :: pad :: sig := by
    rw [e]
    simp [optBytes]
  subst e
  unfold ecdsaFromBuffer at ht
  rw [if_neg (by simp)] at ht
  simp only [(ecdsaHdr c d).2.1, (ecdsaHdr c d).2.2, Curve.find_id, Digest.find_id] at ht
  split at ht
  · simp at ht
  · obtain ⟨k, hk, rfl⟩ := Option.map_eq_some_iff.1 ht
    refine ⟨pad.toNat, ?_⟩
    obtain ⟨-, -, hk, -⟩ := copySection_some hk
    subst hk
    rw [show 2 + pad.toNat = pad.toNat + 1 + 1 by omega, List.drop_succ_cons, List.drop_succ_cons]
    rw [List.take_of_length_le (by simp)]

theorem IdButSig.refl (i : Identity) : IdButSig i i := ⟨rfl, rfl, rfl, Or.inl rfl⟩

theorem id_write_back {i i₀ j : Identity} {isPrivate : Bool} {m m₀ : PIdentity}
    (h₀ : identityBuildProto i isPrivate = some m₀) (h₁ : identityFromProto E m₀ = some i₀)
    (hs : ∀ s b, i.sig = some s → ecdsaSerialize s = some b → ecdsaFromBuffer b = some s)
    (hw : idWrites i isPrivate m) (hj : identityFromProto E m = some j) : IdButSig i₀ j := by
  obtain ⟨m', hm', hw⟩ := hw
  cases h₀.symm.trans hm'
  rcases hw with rfl | ⟨s, b, ht, hsig, hb, rfl⟩
  · cases h₁.symm.trans hj
    exact IdButSig.refl _
  · obtain ⟨ty, id, k, sg⟩ := i
    dsimp only at ht hsig
    subst ht hsig
    unfold identityBuildProto at h₀
    split at h₀
    · simp at h₀
    · rename_i kb hkb
      dsimp only at h₀
      simp only [Option.bind_some, Option.map_eq_some_iff] at h₀
      obtain ⟨sb, hsb, rfl⟩ := h₀
      have hback := hs s sb rfl hsb
      simp only [identityFromProto, optParse, hback, Option.map_some, Option.bind_some, Option.bind_eq_some_iff,
        Option.map_eq_some_iff, identityCreate] at h₁ hj
      obtain ⟨x, hx, y, hy, h₁⟩ := h₁
      obtain ⟨x', hx', y', hy', s', ⟨t, ht, rfl⟩, hj⟩ := hj
      cases hx.symm.trans hx'
      cases hy.symm.trans hy'
      obtain ⟨n, rfl⟩ := ecdsa_bare_parse hb ht
      split at h₁
      · simp at h₁
      · rename_i hl
        rw [if_neg hl] at hj
        cases h₁
        cases hj
        exact ⟨rfl, rfl, rfl, Or.inr ⟨s, n, rfl, rfl⟩⟩

theorem wfId_back {i : Identity} (h : WfIdentity E i) (ht : i.type = .node) :
    ∀ s b, i.sig = some s → ecdsaSerialize s = some b → ecdsaFromBuffer b = some s := by
  intro s b hs hb
  obtain ⟨s', h1, h2⟩ := h.sig ht
  cases hs.symm.trans h1
  obtain ⟨b', h3, -, h4⟩ := ecdsa_ok h2
  cases hb.symm.trans h3
  exact h4

/-- The signature of a root identity is not written. -/
theorem id_write_back_wf {i i₀ j : Identity} {isPrivate : Bool} {m m₀ : PIdentity} (h : WfIdentity E i)
    (h₀ : identityBuildProto i isPrivate = some m₀) (h₁ : identityFromProto E m₀ = some i₀)
    (hw : idWrites i isPrivate m) (hj : identityFromProto E m = some j) : IdButSig i₀ j := by
  cases ht : i.type with
  | node => exact id_write_back h₀ h₁ (wfId_back h ht) hw hj
  | root =>
    obtain ⟨m', hm', hw⟩ := hw
    cases h₀.symm.trans hm'
    rcases hw with rfl | ⟨s, b, ht', -⟩
    · cases h₁.symm.trans hj
      exact IdButSig.refl _
    · rw [ht] at ht'
      cases ht'

theorem chain_write_back {c c₀ d : Chain} {isPrivate : Bool} {m m₀ : PChain} (hr : WfIdentity E c.root) (hn : WfIdentity E c.node)
    (h₀ : chainBuildProto c isPrivate = some m₀) (h₁ : chainFromProto E m₀ = some c₀)
    (hw : chainWrites c isPrivate m) (hj : chainFromProto E m = some d) : ChainButSig c₀ d := by
  obtain ⟨r, n, hwr, hwn, rfl⟩ := hw
  simp only [chainBuildProto, Option.bind_eq_some_iff, Option.map_eq_some_iff] at h₀
  obtain ⟨r', hr', n', hn', rfl⟩ := h₀
  simp only [chainFromProto, Option.bind_eq_some_iff, Option.map_eq_some_iff] at h₁ hj
  obtain ⟨a, ha, b, hb, rfl⟩ := h₁
  obtain ⟨a', ha', b', hb', rfl⟩ := hj
  exact ⟨id_write_back_wf hr hr' ha hwr ha', id_write_back_wf hn hn' hb hwn hb', rfl, rfl⟩

theorem eph_write_back {k k₀ l : EphKey} {m m₀ : PEphKey} (h : WfEph E k) (h₀ : ephToProto k = some m₀) (h₁ : ephFromProto E m₀ = some k₀)
    (hw : ephWrites k m) (hj : ephFromProto E m = some l) : EphButSig k₀ l := by
  obtain ⟨m', hm', hw⟩ := hw
  cases h₀.symm.trans hm'
  rcases hw with rfl | ⟨s, b, hsig, hb, rfl⟩
  · cases h₁.symm.trans hj
    exact ⟨rfl, rfl, Or.inl rfl⟩
  · obtain ⟨id, key, sg⟩ := k
    dsimp only at hsig
    subst hsig
    simp only [ephToProto, Option.map_eq_some_iff] at h₀
    obtain ⟨sb, hsb, rfl⟩ := h₀
    obtain ⟨b', h3, -, h4⟩ := ecdsa_ok (h.sig s rfl)
    cases hsb.symm.trans h3
    simp only [ephFromProto, optParse, h4, Option.map_some, Option.bind_eq_some_iff, Option.map_eq_some_iff] at h₁ hj
    obtain ⟨x, hx, s₁, rfl, rfl⟩ := h₁
    obtain ⟨x', hx', s', ⟨t, ht, rfl⟩, rfl⟩ := hj
    cases hx.symm.trans hx'
    obtain ⟨n, rfl⟩ := ecdsa_bare_parse hb ht
    exact ⟨rfl, rfl, Or.inr ⟨s, n, rfl, rfl⟩⟩

theorem node_write_back {v v₀ w : Node} {m m₀ : PNode} (hr : WfIdentity E v.chain.root) (hn : WfIdentity E v.chain.node)
    (hk : ∀ k, v.eph = some k → WfEph E k) (h₀ : nodeToProto v = some m₀) (h₁ : nodeFromProto E m₀ = some v₀)
    (hw : nodeWrites v m) (hj : nodeFromProto E m = some w) : NodeButSig v₀ w := by
  obtain ⟨c, e, hwc, hwe, rfl⟩ := hw
  obtain ⟨dev, ch, eph, st, cache⟩ := v
  cases eph with
  | none =>
    dsimp only at hwe
    subst hwe
    simp only [nodeToProto, Option.bind_some, Option.map_eq_some_iff] at h₀
    obtain ⟨c₀, hc₀, rfl⟩ := h₀
    simp only [nodeFromProto, Option.map_some, Option.bind_eq_some_iff, Option.some.injEq] at h₁ hj
    obtain ⟨x, hx, y, hy, rfl⟩ := h₁
    obtain ⟨x', hx', y', hy', rfl⟩ := hj
    cases hx.symm.trans hx'
    exact ⟨rfl, chain_write_back hr hn hc₀ hy hwc hy', rfl, rfl, trivial⟩
  | some k =>
    obtain ⟨k', hwk, rfl⟩ := hwe
    simp only [nodeToProto, Option.bind_eq_some_iff, Option.map_eq_some_iff] at h₀
    obtain ⟨_, ⟨k₀, hk₀, rfl⟩, c₀, hc₀, rfl⟩ := h₀
    simp only [nodeFromProto, Option.map_map, Option.bind_eq_some_iff, Option.map_eq_some_iff] at h₁ hj
    obtain ⟨x, hx, y, hy, z, hz, rfl⟩ := h₁
    obtain ⟨x', hx', y', hy', z', hz', rfl⟩ := hj
    cases hx.symm.trans hx'
    exact ⟨rfl, chain_write_back hr hn hc₀ hy hwc hy', rfl, rfl, eph_write_back (hk k rfl) hk₀ hz hwk hz'⟩

theorem ctx_write_back {v v₀ w : Ctx} {d : DevInfo} {m m₀ : PCtx} (h : WfCtx E v) (h₀ : ctxToProto v = some m₀)
    (h₁ : ctxFromProto E d m₀ = some v₀) (hw : ctxWrites v m) (hj : ctxFromProto E d m = some w) : CtxButSig v₀ w := by
  obtain ⟨c, s, hwc, hs, rfl⟩ := hw
  simp only [ctxToProto, Option.bind_eq_some_iff, Option.map_eq_some_iff] at h₀
  obtain ⟨c₀, hc₀, s₀, hs₀, rfl⟩ := h₀
  cases hs.symm.trans hs₀
  simp only [ctxFromProto, ctxCreate, Option.bind_eq_some_iff, Option.map_eq_some_iff] at h₁ hj
  obtain ⟨y, hy, z, hz, k, hk, rfl⟩ := h₁
  obtain ⟨y', hy', z', hz', k', hk', rfl⟩ := hj
  cases hz.symm.trans hz'
  have hb := chain_write_back h.rootWf h.nodeWf hc₀ hy hwc hy'
  have he : genHeaderKey E defaultCipher y' = genHeaderKey E defaultCipher y := by
    unfold genHeaderKey
    rw [hb.1.2.1, hb.2.1.2.1]
  rw [he, hk] at hk'
  cases hk'
  exact ⟨rfl, hb, rfl, rfl, rfl⟩

/-- Writing and reading. -/
theorem ReadsBack.of {V : Type} {args extra : Heap → Prop} {S : Bytes → Prop} {x : Option Bytes} {v : V} {R : Addr → V → Asrt} {w : H Ptr}
    {rd : Ptr → H Ptr} {val : Bytes → Option V} {same : V → Prop} (hw : ComputesAmong S args isBuf x w)
    (hx : ∃ b, x = some b ∧ val b = some v)
    (hr : ∀ p b, S b → Computes (fun h => Has isBuf h p b ∧ extra h) R (val b) (rd (some p)))
    (hs : ∀ b u, S b → val b = some u → same u) : ReadsBack args extra same v R w rd := by
  obtain ⟨b₀, hx, hb₀⟩ := hx
  subst hx
  intro A s hf ha
  have := hw A s hf ha
  revert this
  cases w A s with
  | ub => exact id
  | crash s' => exact id
  | ret r s' =>
    rintro ⟨-, h⟩
    cases r with
    | none => exact h.1.elim id fun h => nomatch h
    | some q =>
      obtain ⟨b, hS, hb, ho⟩ := h
      refine ⟨b, hb, fun A' t p ht hp => ?_⟩
      have := hr p b hS A' t ht hp
      revert this
      cases rd (some p) A' t with
      | ub => exact id
      | crash t' => exact id
      | ret r t' =>
        rintro ⟨-, h⟩
        have hv : s'.oom = false → val b = some v := fun h => by
          cases (ho h).1
          exact hb₀
        cases r with
        | none =>
          show s'.oom = true ∨ t'.oom = true
          cases ho' : s'.oom with
          | true => exact Or.inl rfl
          | false =>
            refine Or.inr (h.1.elim id fun h => ?_)
            rw [hv ho'] at h
            cases h
        | some r =>
          obtain ⟨u, hu, ⟨u', rfl, hR⟩, -⟩ := h
          exact ⟨u, hR, hs b u hS hu, fun h => Option.some.inj (hu.symm.trans (hv h))⟩

theorem ReadsBackInto.of {U V : Type} {args extra : Heap → Prop} {S : Bytes → Prop} {x : Option Bytes} {v : V} {R₀ : Addr → U → Asrt}
    {d : Addr} {u₀ : U} {R : Addr → V → Asrt} {w : H Ptr}
    {rd : Ptr → H Ptr} {val : Bytes → Option V} {same : V → Prop} (hw : ComputesAmong S args isBuf x w)
    (hx : ∃ b, x = some b ∧ val b = some v)
    (hr : ∀ p b, S b → AdoptsFrom (fun h => Has isBuf h p b ∧ extra h) R₀ d u₀ R (val b) (rd (some p)))
    (hs : ∀ b u, S b → val b = some u → same u) : ReadsBackInto args extra same v R₀ d u₀ R w rd := by
  obtain ⟨b₀, hx, hb₀⟩ := hx
  subst hx
  intro A s hf ha
  have := hw A s hf ha
  revert this
  cases w A s with
  | ub => exact id
  | crash s' => exact id
  | ret r s' =>
    rintro ⟨-, h⟩
    cases r with
    | none => exact h.1.elim id fun h => nomatch h
    | some q =>
      obtain ⟨b, hS, hb, ho⟩ := h
      refine ⟨b, hb, fun A' t h p ht hp hd => ?_⟩
      have := hr p b hS A' t h ht hp hd
      revert this
      have hv : s'.oom = false → val b = some v := fun h => by
        cases (ho h).1
        exact hb₀
      cases rd (some p) A' t with
      | ub => exact id
      | crash t' => exact id
      | ret r t' =>
        cases r with
        | none =>
          rintro ⟨h, -⟩
          show s'.oom = true ∨ t'.oom = true
          cases ho' : s'.oom with
          | true => exact Or.inl rfl
          | false =>
            refine Or.inr (h.elim id fun h => ?_)
            rw [hv ho'] at h
            cases h
        | some r =>
          rintro ⟨u, hu, hR⟩
          exact ⟨u, hR, hs b u hS hu, fun h => Option.some.inj (hu.symm.trans (hv h))⟩

theorem Computes.weaken {V : Type} {args args' : Heap → Prop} {R : Addr → V → Asrt} {x : Option V} {m : H Ptr} (h : Computes args R x m)
    (ha : ∀ h, args' h → args h) : Computes args' R x m := fun A s hf hx => h A s hf (ha _ hx)

theorem AdoptsFrom.weaken {U V : Type} {args args' : Heap → Prop} {R₀ : Addr → U → Asrt} {p : Addr} {u : U} {R : Addr → V → Asrt}
    {x : Option V} {m : H Ptr} (h : AdoptsFrom args R₀ p u R x m) (ha : ∀ h, args' h → args h) : AdoptsFrom args' R₀ p u R x m :=
  fun A s t hf hx => h A s t hf (ha _ hx)

/-- Where a value is exact, it is among those with a property it has. -/
theorem Computes.among {V : Type} {args : Heap → Prop} {R : Addr → V → Asrt} {x : Option V} {m : H Ptr} (h : Computes args R x m) :
    ComputesAmong (fun v => x = some v) args R x m := by
  intro A s hf ha
  have := h A s hf ha
  revert this
  cases m A s with
  | ub => exact id
  | crash s' => exact id
  | ret r s' =>
    rintro ⟨h1, h2⟩
    refine ⟨h1, ?_⟩
    cases r with
    | none => exact h2
    | some b =>
      obtain ⟨v, hv, ⟨v', rfl, hR⟩, ho⟩ := h2
      exact ⟨v, hv, hR, fun h => ⟨hv, ho h⟩⟩

/-! ### Sizes -/

theorem ecdsa_bare_len {s : EcdsaResult} {b : Bytes} (hl : s.sig.length + 2 ≤ s.curve.sigSize) (hb : ecdsaBare s = some b) :
    b.length ≤ 143 := by
  have hc : s.curve.sigSize = 143 := by cases s.curve; rfl
  unfold ecdsaBare at hb
  rw [(concatMulti_some.1 hb).1]
  simp [optBytes]
  omega

theorem id_write_size (hE : E.Lawful) {i : Identity} {isPrivate : Bool} {m : PIdentity} (h : WfIdentity E i)
    (hb : isPrivate = true → E.KeyPair i.key) (hw : idWrites i isPrivate m) : (fieldsEnc m.pack).length ≤ 1500 := by
  obtain ⟨m₀, hm₀, hw⟩ := hw
  rcases hw with rfl | ⟨s, b, ht, hsig, hbare, rfl⟩
  · obtain ⟨p, hp, hl, -⟩ := identity_proto_round_trip hE h isPrivate hb
    cases hm₀.symm.trans hp
    exact hl
  · have hk : ∀ kb, (if isPrivate then i.key.pri else some i.key.pub) = some kb → kb.length ≤ 1024 := by
      intro kb hkb
      cases isPrivate with
      | false =>
        cases hkb
        have h2 := (hE.import_len _ _ _ h.pub).2.1
        simp only at h2
        cases hc : i.key.curve
        rw [hc] at h2; simp [Curve.maxPub] at h2; omega
      | true =>
        obtain ⟨p, h1, h2, h3, h4⟩ := (hb rfl).pri
        simp only [if_true] at hkb
        cases h1.symm.trans hkb
        exact h4
    obtain ⟨s', h1, h2⟩ := h.sig ht
    cases hsig.symm.trans h1
    have hbl := ecdsa_bare_len h2.2 hbare
    have hid := h.id.2
    unfold identityBuildProto at hm₀
    split at hm₀
    · simp at hm₀
    · rename_i kb hkb
      have := hk kb hkb
      rw [ht] at hm₀
      dsimp only at hm₀
      obtain ⟨sb, -, rfl⟩ := Option.map_eq_some_iff.1 hm₀
      refine Nat.le_trans (PIdentity.size _) ?_
      simp only [optBytes]
      omega

theorem ctx_write_size (hE : E.Lawful) {v : Ctx} (h : WfCtx E v) {m : PCtx} (hw : ctxWrites v m) :
    m.pack ≠ [] ∧ (fieldsEnc m.pack).length ≤ 4000 := by
  obtain ⟨c, s, ⟨r, n, hr, hn, rfl⟩, hs, rfl⟩ := hw
  obtain ⟨p, p1, p2, -, -⟩ := storage_proto_round h.locKey h.remKey
  cases hs.symm.trans p1
  have h1 := id_write_size hE h.rootWf (fun _ => h.rootKey) hr
  have h2 := id_write_size hE h.nodeWf (fun _ => h.nodeKey) hn
  have h3 := PChain.size r n
  have h4 := PCtx.size s ⟨some r, some n⟩
  exact ⟨by simp [PCtx.pack, putMsg], by omega⟩

end Wickr
