import Verif.Lemmas.BaseN
set_option linter.unusedSimpArgs false
namespace Wickr

/-! ### base64 memory safety -/

/-- relation between `i` and `j` in the decoder -/
def B64Rel (i j : Nat) : Prop := j = 3 * (i / 4) + (i % 4 - 1)

theorem b64Put_safe (v : UInt8) (i j : Nat) (out : Bytes) (hr : B64Rel i j) (hi : i < out.length) :
    ∃ j' out', b64Put v i j out = .ok (j', out') ∧ out'.length = out.length ∧ B64Rel (i + 1) j' := by
  unfold B64Rel at *
  have h4 : i % 4 < 4 := Nat.mod_lt _ (by omega)
  unfold b64Put
  by_cases h0 : i % 4 = 0
  · have hj : j < out.length := by omega
    refine ⟨j, out.set j (v <<< 2), by simp [h0, storeByte, hj, Res.bind], by simp, by omega⟩
  · by_cases h1 : i % 4 = 1
    · have hj : j < out.length := by omega
      have hj1 : j + 1 < out.length := by omega
      refine ⟨j + 1, (out.set j (out[j] ||| v >>> 4)).set (j + 1) ((v &&& 15) <<< 4), by simp [h1, orByte, storeByte, hj, hj1, Res.bind], by simp, by omega⟩
    · by_cases h2 : i % 4 = 2
      · have hj : j < out.length := by omega
        have hj1 : j + 1 < out.length := by omega
        refine ⟨j + 1, (out.set j (out[j] ||| v >>> 2)).set (j + 1) ((v &&& 3) <<< 6), by simp [h2, orByte, storeByte, hj, hj1, Res.bind], by simp, by omega⟩
      · have hj : j < out.length := by omega
        refine ⟨j + 1, out.set j (out[j] ||| v), by simp [h0, h1, h2, orByte, storeByte, hj, Res.bind], by simp, by omega⟩

theorem b64Loop_safe (junk : Bytes) : ∀ (t : Bytes) (n i j : Nat) (out : Bytes),
    (∀ c ∈ t, c ≠ 0 ∧ c < 128) → n ≤ t.length → B64Rel i j → i + n ≤ out.length →
    b64Loop (t ++ 0 :: junk) n i j out = .null ∨
    ∃ s, b64Loop (t ++ 0 :: junk) n i j out = .ok s ∧ s.out.length = out.length ∧ B64Rel s.i s.j ∧
      s.i ≤ i + n ∧ (t ++ 0 :: junk)[n]? = some s.cur := by
  intro t
  induction t with
  | nil =>
    intro n i j out _ hn hr hl
    have : n = 0 := by simpa using hn
    subst this
    exact Or.inr ⟨⟨0, i, j, out⟩, by simp [b64Loop], rfl, hr, by simp, by simp⟩
  | cons c t ih =>
    intro n i j out ht hn hr hl
    have ⟨hc0, hc1⟩ := ht c (by simp)
    have ht' : ∀ c ∈ t, c ≠ 0 ∧ c < 128 := fun d hd => ht d (by simp [hd])
    cases n with
    | zero => exact Or.inr ⟨⟨c, i, j, out⟩, by simp [b64Loop], rfl, hr, by simp, by simp⟩
    | succ n =>
      have hn' : n ≤ t.length := by simpa using hn
      simp only [List.cons_append]
      rw [b64Loop.eq_def]
      simp only [Nat.add_sub_cancel]
      rw [if_neg (by simp [hc0])]
      have IH := ih n i j out ht' hn' hr (by omega)
      have key : ∀ (r : Res B64State), r = b64Loop (t ++ 0 :: junk) n i j out →
        (r = .null ∨ ∃ s, r = .ok s ∧ s.out.length = out.length ∧ B64Rel s.i s.j ∧
          s.i ≤ i + (n + 1) ∧ (c :: (t ++ 0 :: junk))[n + 1]? = some s.cur) := by
        intro r hr
        rcases IH with h | ⟨s, h1, h2, h3, h4, h5⟩
        · exact Or.inl (by rw [hr, h])
        · exact Or.inr ⟨s, by rw [hr, h1], h2, h3, by omega, by simpa using h5⟩
      by_cases h61 : c = 61
      · rw [if_pos h61]
        cases hrest : t ++ 0 :: junk with
        | nil => simp at hrest
        | cons d ds =>
          simp only
          by_cases hd : d ≠ 61 ∧ i % 4 = 1
          · rw [if_pos hd]; exact Or.inl rfl
          · rw [if_neg hd, ← hrest]
            exact key _ rfl
      · rw [if_neg h61, if_neg (by simpa using hc1)]
        split
        · exact key _ rfl
        · split
          · exact Or.inl rfl
          · obtain ⟨j', out', e1, e2, e3⟩ := b64Put_safe (UInt8.ofNat (b64DecTable.getD c.toNat (-2)).toNat) i j out hr (by omega)
            rw [e1]
            simp only [Res.bind_ok]
            rcases ih n (i + 1) j' out' ht' hn' e3 (by omega) with h | ⟨s, h1, h2, h3, h4, h5⟩
            · exact Or.inl h
            · exact Or.inr ⟨s, h1, by omega, h3, by omega, by simpa using h5⟩

theorem b64Decode_safe (t junk : Bytes) (length : Nat) (ht : ∀ c ∈ t, c ≠ 0 ∧ c < 128)
    (hlen : t.length ≤ length ∨ length ≠ 2) :
    base64Decode (some ⟨t ++ 0 :: junk, length⟩) ≠ .ub := by
  unfold base64Decode
  simp only
  rw [strlen_append t junk (fun c hc => (ht c hc).1)]
  simp only [Res.bind_ok]
  generalize hn : (if t.length > length then length else t.length) = n
  have hn1 : n ≤ t.length := by split at hn <;> omega
  split
  · simp
  · rename_i hz
    rcases b64Loop_safe junk t n 0 0 (List.replicate n 0) ht hn1 (by simp [B64Rel]) (by simp) with h | ⟨s, h1, h2, h3, h4, h5⟩
    · rw [h]; simp [Res.bind]
    · rw [h1]
      simp only [Res.bind_ok]
      simp only [List.length_replicate] at h2
      unfold B64Rel at h3
      have hf : b64Finish s ≠ .ub := by
        unfold b64Finish
        by_cases hc : s.cur = 61
        · have hshort : n ≠ t.length := by
            intro he; subst he
            simp [hc] at h5
          have hn2 : n ≠ 2 := by split at hn <;> omega
          rw [if_pos hc]
          by_cases hi1 : s.i % 4 = 1
          · simp [hi1]
          · by_cases hi2 : s.i % 4 = 2
            · have : s.j + 1 < s.out.length := by omega
              simp [hi2, storeByte, this]
            · by_cases hi3 : s.i % 4 = 3
              · have : s.j < s.out.length := by omega
                simp [hi3, storeByte, this]
              · simp [hi1, hi2, hi3]
        · simp [hc]
      cases hb : b64Finish s with
      | ok o => simp [Res.bind]
      | null => simp [Res.bind]
      | ub => exact absurd hb hf

/-! ### hex -/

theorem nibble_facts : ∀ n : Fin 256, nibbleToChar ((UInt8.ofNat n.val) >>> 4) ≠ 0 ∧ nibbleToChar ((UInt8.ofNat n.val) &&& 15) ≠ 0 ∧
    strToChar (nibbleToChar ((UInt8.ofNat n.val) >>> 4)) (nibbleToChar ((UInt8.ofNat n.val) &&& 15)) = UInt8.ofNat n.val ∧
    Spec.charAt Spec.lowerHex (n.val / 16) = nibbleToChar ((UInt8.ofNat n.val) >>> 4) ∧
    Spec.charAt Spec.lowerHex (n.val % 16) = nibbleToChar ((UInt8.ofNat n.val) &&& 15) := by decide +kernel

theorem nibble_facts' (a : UInt8) : nibbleToChar (a >>> 4) ≠ 0 ∧ nibbleToChar (a &&& 15) ≠ 0 ∧
    strToChar (nibbleToChar (a >>> 4)) (nibbleToChar (a &&& 15)) = a ∧
    Spec.charAt Spec.lowerHex (a.toNat / 16) = nibbleToChar (a >>> 4) ∧
    Spec.charAt Spec.lowerHex (a.toNat % 16) = nibbleToChar (a &&& 15) := by
  have := nibble_facts ⟨a.toNat, a.toNat_lt⟩
  simpa using this

theorem hexText_length (d : Bytes) : (hexText d).length = d.length * 2 := by
  induction d with
  | nil => rfl
  | cons a d ih => simp only [hexText, List.length_cons, ih]; omega

theorem hexText_nonzero (d : Bytes) : ∀ c ∈ hexText d, c ≠ 0 := by
  induction d with
  | nil => simp [hexText]
  | cons a d ih =>
    intro c hc
    simp only [hexText, List.mem_cons] at hc
    rcases hc with rfl | rfl | hc
    · exact (nibble_facts' a).1
    · exact (nibble_facts' a).2.1
    · exact ih c hc

theorem hexPairs_hexText (d junk : Bytes) : hexPairs (hexText d ++ 0 :: junk) = d := by
  induction d with
  | nil => cases junk <;> simp [hexText, hexPairs]
  | cons a d ih =>
    obtain ⟨h1, h2, h3, _⟩ := nibble_facts' a
    simp only [hexText, List.cons_append, hexPairs]
    rw [if_neg (by simp [h1, h2]), ih, h3]

theorem hexText_spec (d : Bytes) : hexText d = Spec.hex d := by
  induction d with
  | nil => rfl
  | cons a d ih =>
    have ha := a.toNat_lt
    unfold Spec.hex at *
    rw [bits_cons]
    simp only [Spec.byteBits, List.cons_append, List.nil_append]
    rw [Spec.groups_step 4 (by omega) _ (by simp)]
    simp only [List.drop_succ_cons, List.drop_zero]
    rw [Spec.groups_step 4 (by omega) _ (by simp)]
    simp only [List.drop_succ_cons, List.drop_zero, List.map_cons]
    rw [← ih, hexText]
    obtain ⟨_, _, _, h4, h5⟩ := nibble_facts' a
    have z : ∀ n, 4 - (n + 1 + 1 + 1 + 1) = 0 := by intro n; omega
    simp only [List.take_succ_cons, List.take_zero, Spec.bitsVal, List.foldl_cons, List.foldl_nil, List.length_cons, List.cons_append, List.nil_append, z, List.replicate]
    rw [← h4, ← h5]
    congr 1
    · congr 1; omega
    · congr 1
      · congr 1; omega

theorem hexDigit_cases (c : UInt8) {d : Nat} (h : hexDigit? c = some d) :
    isSpaceC c = false ∧ c ≠ 45 ∧ c ≠ 43 ∧ c ≠ 0 ∧ d < 16 := by
  have : ∀ n : Fin 256, ∀ d, hexDigit? (UInt8.ofNat n.val) = some d →
      isSpaceC (UInt8.ofNat n.val) = false ∧ UInt8.ofNat n.val ≠ 45 ∧ UInt8.ofNat n.val ≠ 43 ∧ UInt8.ofNat n.val ≠ 0 ∧ d < 16 := by
    have h : ∀ n : Fin 256, match hexDigit? (UInt8.ofNat n.val) with
      | none => True
      | some d => isSpaceC (UInt8.ofNat n.val) = false ∧ UInt8.ofNat n.val ≠ 45 ∧ UInt8.ofNat n.val ≠ 43 ∧ UInt8.ofNat n.val ≠ 0 ∧ d < 16 := by
      intro n
      have : ∀ n : Fin 256, (match hexDigit? (UInt8.ofNat n.val) with
        | none => true
        | some d => isSpaceC (UInt8.ofNat n.val) = false && UInt8.ofNat n.val != 45 && UInt8.ofNat n.val != 43 && UInt8.ofNat n.val != 0 && decide (d < 16)) = true := by
        decide +kernel
      have := this n
      split
      · trivial
      · rename_i d hd
        rw [hd] at this
        simp only [Bool.and_eq_true, decide_eq_true_eq, bne_iff_ne, ne_eq] at this
        exact ⟨this.1.1.1.1, this.1.1.1.2, this.1.1.2, this.1.2, this.2⟩
    intro n d hd
    have := h n
    rw [hd] at this
    exact this
  have := this ⟨c.toNat, c.toNat_lt⟩ d (by simpa using h)
  simpa using this

theorem strToChar_digits (a b : UInt8) {x y : Nat} (ha : hexDigit? a = some x) (hb : hexDigit? b = some y) :
    strToChar a b = UInt8.ofNat (16 * x + y) := by
  obtain ⟨h1, h2, h3, _, hx⟩ := hexDigit_cases a ha
  obtain ⟨_, _, _, _, hy⟩ := hexDigit_cases b hb
  unfold strToChar strtol16
  have e : ([a, b] : Bytes).dropWhile isSpaceC = [a, b] := by simp [List.dropWhile, h1]
  rw [e]
  simp only [if_neg h2, if_neg h3]
  simp only [hexDigits, ha, hb, Bool.false_eq_true, if_false]
  congr 1
  omega

theorem hexPairs_digits (vals : List (UInt8 × UInt8 × Nat × Nat)) (junk : Bytes)
    (h : ∀ p ∈ vals, hexDigit? p.1 = some p.2.2.1 ∧ hexDigit? p.2.1 = some p.2.2.2) :
    hexPairs (vals.flatMap (fun p => [p.1, p.2.1]) ++ 0 :: junk) = vals.map (fun p => UInt8.ofNat (16 * p.2.2.1 + p.2.2.2)) := by
  induction vals with
  | nil => cases junk <;> simp [hexPairs]
  | cons p ps ih =>
    have hp := h p (by simp)
    have h1 := (hexDigit_cases _ hp.1).2.2.2.1
    have h2 := (hexDigit_cases _ hp.2).2.2.2.1
    simp only [List.flatMap_cons, List.cons_append, List.nil_append, hexPairs, List.map_cons]
    rw [if_neg (by simp [h1, h2]), ih (fun q hq => h q (by simp [hq])), strToChar_digits _ _ hp.1 hp.2]

end Wickr
