import Verif.Spec.EcdsaRaw
import Verif.Props.IdentityCodec
/-
C77: raw signatures.
-/
set_option linter.unusedSimpArgs false
namespace Wickr
open Spec

theorem natToBe_length : ∀ (k n : Nat), (natToBe k n).length = k
  | 0, _ => rfl
  | k + 1, n => by simp [natToBe, natToBe_length k]

theorem beToNat_snoc (b : Bytes) (x : UInt8) : beToNat (b ++ [x]) = beToNat b * 256 + x.toNat := by
  simp [beToNat, List.foldl_append]

theorem beToNat_natToBe : ∀ (k n : Nat), n < 256 ^ k → beToNat (natToBe k n) = n
  | 0, n, h => by simp at h; subst h; rfl
  | k + 1, n, h => by
    have h1 : n / 256 < 256 ^ k := by
      rw [Nat.div_lt_iff_lt_mul (by omega)]; rwa [Nat.pow_succ] at h
    rw [natToBe, beToNat_snoc, beToNat_natToBe k _ h1]
    have : (UInt8.ofNat (n % 256)).toNat = n % 256 := by
      simp [UInt8.toNat_ofNat']
    rw [this]; omega

theorem snoc_cases {α : Type} (l : List α) (n : Nat) (h : l.length = n + 1) : ∃ l' x, l = l' ++ [x] ∧ l'.length = n := by
  refine ⟨l.dropLast, l.getLast (by rintro rfl; simp at h), (List.dropLast_concat_getLast _).symm, by simp [h]⟩

theorem beToNat_lt : ∀ (k : Nat) (b : Bytes), b.length = k → beToNat b < 256 ^ k
  | 0, b, h => by simp at h; subst h; simp [beToNat]
  | k + 1, b, h => by
    obtain ⟨c, x, rfl, hc⟩ := snoc_cases b k h
    have := beToNat_lt k c hc
    have hx := x.toNat_lt
    rw [beToNat_snoc, Nat.pow_succ]
    have : (beToNat c + 1) * 256 ≤ 256 ^ k * 256 := Nat.mul_le_mul_right _ this
    omega

theorem natToBe_beToNat : ∀ (k : Nat) (b : Bytes), b.length = k → natToBe k (beToNat b) = b
  | 0, b, h => by simp at h; subst h; rfl
  | k + 1, b, h => by
    obtain ⟨c, x, rfl, hc⟩ := snoc_cases b k h
    have hx := x.toNat_lt
    rw [beToNat_snoc, natToBe]
    have h1 : (beToNat c * 256 + x.toNat) / 256 = beToNat c := by omega
    have h2 : (beToNat c * 256 + x.toNat) % 256 = x.toNat := by omega
    rw [h1, h2, natToBe_beToNat k c hc]
    simp

/-- The top byte of a fixed-length encoding. -/
theorem natToBe_cons (k n : Nat) (h : n < 256 ^ (k + 1)) :
    natToBe (k + 1) n = UInt8.ofNat (n / 256 ^ k) :: natToBe k n := by
  induction k generalizing n with
  | zero => simp [natToBe] at h ⊢; rw [Nat.mod_eq_of_lt h]
  | succ k ih =>
    have h1 : n / 256 < 256 ^ (k + 1) := by
      rw [Nat.div_lt_iff_lt_mul (by omega)]; rwa [Nat.pow_succ] at h
    rw [natToBe, ih _ h1, natToBe.eq_def (k + 1) n]
    simp only [List.cons_append]
    rw [Nat.div_div_eq_div_mul, Nat.pow_succ, Nat.mul_comm]

theorem pow256 (k : Nat) : (256 : Nat) ^ k = 2 ^ (8 * k) := by
  rw [show (256 : Nat) = 2 ^ 8 by rfl, ← Nat.pow_mul]

theorem derIntLen_le {n : Nat} (h : n < 2 ^ 528) : derIntLen n ≤ 67 := by
  unfold derIntLen
  by_cases h0 : n = 0
  · subst h0; simp
  · have := (Nat.log2_lt h0).2 h
    omega

theorem derIntVal_natToBe (n : Nat) : derIntVal (natToBe (derIntLen n) n) = some (n : Int) := by
  obtain ⟨c, hc⟩ : ∃ c, derIntLen n = c + 1 := ⟨(n.log2 + 1) / 8, rfl⟩
  have hub : n < 2 ^ (8 * c + 7) := by
    by_cases h0 : n = 0
    · subst h0; exact Nat.pow_pos (by omega)
    · refine Nat.lt_of_lt_of_le ((Nat.log2_lt (k := n.log2 + 1) h0).1 (by omega)) ?_
      unfold derIntLen at hc
      exact Nat.pow_le_pow_right (by omega) (by omega)
  have hub' : n < 256 ^ (c + 1) := by
    rw [pow256]
    exact Nat.lt_of_lt_of_le hub (Nat.pow_le_pow_right (by omega) (by omega))
  have htop : n / 256 ^ c < 128 := by
    rw [Nat.div_lt_iff_lt_mul (Nat.pow_pos (by omega)), pow256]
    have : (128 : Nat) * 2 ^ (8 * c) = 2 ^ (8 * c + 7) := by rw [Nat.pow_add]; omega
    rw [this]; exact hub
  have htn : (UInt8.ofNat (n / 256 ^ c)).toNat = n / 256 ^ c := by
    rw [UInt8.toNat_ofNat', Nat.mod_eq_of_lt (by omega)]
  have hval := beToNat_natToBe (c + 1) n hub'
  rw [hc]
  cases c with
  | zero =>
    rw [natToBe_cons 0 n hub'] at hval ⊢
    simp only [natToBe, derIntVal, htn]
    simp at htop ⊢
    omega
  | succ c =>
    have hlb : 2 ^ (8 * (c + 1) - 1) ≤ n := by
      have h0 : n ≠ 0 := by
        rintro rfl
        simp [derIntLen] at hc
      refine Nat.le_trans ?_ (Nat.log2_self_le h0)
      unfold derIntLen at hc
      exact Nat.pow_le_pow_right (by omega) (by omega)
    have h2 : natToBe (c + 2) n = UInt8.ofNat (n / 256 ^ (c + 1)) :: natToBe (c + 1) n := natToBe_cons (c + 1) n hub'
    obtain ⟨y, r, hy⟩ : ∃ y r, natToBe (c + 1) n = y :: r := by
      cases hq : natToBe (c + 1) n with
      | nil => have := natToBe_length (c + 1) n; rw [hq] at this; simp at this
      | cons y r => exact ⟨y, r, rfl⟩
    rw [h2, hy] at hval ⊢
    unfold derIntVal
    have hpad : ¬ ((UInt8.ofNat (n / 256 ^ (c + 1)) = 0 ∧ y.toNat < 128) ∨
        (UInt8.ofNat (n / 256 ^ (c + 1)) = 0xFF ∧ 128 ≤ y.toNat)) := by
      rintro (⟨h1, h3⟩ | ⟨h1, -⟩)
      · have h1' : n / 256 ^ (c + 1) = 0 := by rw [← htn, h1]; rfl
        have hlt : n < 256 ^ (c + 1) := by
          rcases Nat.div_eq_zero_iff.1 h1' with h | h
          · have := Nat.pow_pos (n := c + 1) (show 0 < 256 by omega); omega
          · exact h
        rw [natToBe_cons c n hlt] at hy
        have hy1 : y = UInt8.ofNat (n / 256 ^ c) := by
          simp only [List.cons.injEq] at hy; exact hy.1.symm
        have hle : n / 256 ^ c < 256 := by
          rw [Nat.div_lt_iff_lt_mul (Nat.pow_pos (by omega)), Nat.mul_comm, ← Nat.pow_succ]; exact hlt
        have : y.toNat = n / 256 ^ c := by rw [hy1, UInt8.toNat_ofNat', Nat.mod_eq_of_lt (by omega)]
        have h4 : 128 ≤ n / 256 ^ c := by
          rw [Nat.le_div_iff_mul_le (Nat.pow_pos (by omega)), pow256]
          have : (128 : Nat) * 2 ^ (8 * c) = 2 ^ (8 * (c + 1) - 1) := by
            rw [show 8 * (c + 1) - 1 = 7 + 8 * c by omega, Nat.pow_add]
          rw [this]; exact hlb
        omega
      · have : n / 256 ^ (c + 1) = 255 := by rw [← htn, h1]; rfl
        omega
    simp only [if_neg hpad, htn, if_pos htop, hval]

theorem derGetInt_derInt (n : Nat) (h : n < 2 ^ 528) (rest : Bytes) :
    derGetInt (derInt n ++ rest) = some ((n : Int), rest) := by
  have hl := derIntLen_le h
  have hn : (UInt8.ofNat (derIntLen n)).toNat = derIntLen n := by
    rw [UInt8.toNat_ofNat', Nat.mod_eq_of_lt (by omega)]
  have hlen := natToBe_length (derIntLen n) n
  simp only [derInt, List.cons_append, derGetInt, derGetLen, hn, if_pos (show derIntLen n < 128 by omega),
    Option.bind_some, List.length_append, hlen]
  rw [if_neg (by omega), List.take_left' hlen, List.drop_left' hlen, derIntVal_natToBe]
  rfl

theorem derInt_len {n : Nat} (h : n < 2 ^ 528) : 3 ≤ (derInt n).length ∧ (derInt n).length ≤ 69 := by
  have hl := derIntLen_le h
  simp only [derInt, List.length_cons, natToBe_length]
  unfold derIntLen at *
  omega

/-- DER meets the assumptions. -/
theorem der_lawful : der.Lawful := by
  have hlen : ∀ r s : Nat, r < 2 ^ 528 → s < 2 ^ 528 → (derInt r ++ derInt s).length ≤ 138 := by
    intro r s hr hs
    have := derInt_len hr; have := derInt_len hs
    simp only [List.length_append]; omega
  constructor
  · intro r s hr hs
    have hb := hlen r s hr hs
    have hg : derGetLen (derLen (derInt r ++ derInt s).length ++ (derInt r ++ derInt s)) =
        some ((derInt r ++ derInt s).length, derInt r ++ derInt s) := by
      generalize derInt r ++ derInt s = body at hb
      unfold derLen
      have hn : (UInt8.ofNat body.length).toNat = body.length := by
        rw [UInt8.toNat_ofNat', Nat.mod_eq_of_lt (by omega)]
      by_cases h : body.length < 128
      · simp only [if_pos h, List.cons_append, List.nil_append, derGetLen, hn]
      · simp only [if_neg h, if_pos (show body.length < 256 by omega), List.cons_append, List.nil_append, derGetLen, hn]
        simp
    show derRead (derSig r s) = _
    unfold derSig derRead
    simp only [List.cons_append]
    rw [hg]
    simp only [Option.bind_some, if_neg (Nat.lt_irrefl _), List.take_length]
    rw [derGetInt_derInt r hr]
    simp only [Option.bind_some]
    have := derGetInt_derInt s hs []
    rw [List.append_nil] at this
    rw [this]
    rfl
  · intro r s hr hs
    have hb := hlen r s hr hs
    show 0 < (derSig r s).length ∧ (derSig r s).length ≤ 141
    unfold derSig derLen
    split
    · simp only [List.length_append, List.length_cons, List.length_nil] at *; omega
    · split
      · simp only [List.length_append, List.length_cons, List.length_nil] at *; omega
      · rename_i h; omega

theorem beToNat_foldl (b : Bytes) (a : Nat) :
    b.foldl (fun a x => a * 256 + x.toNat) a = a * 256 ^ b.length + num b := by
  induction b generalizing a with
  | nil => simp [num]
  | cons x r ih =>
    rw [List.foldl_cons, ih, num, List.length_cons, Nat.pow_succ, Nat.add_mul, Nat.mul_assoc, Nat.mul_comm 256, Nat.add_assoc]

theorem beToNat_num (b : Bytes) : beToNat b = num b := by
  unfold beToNat
  rw [beToNat_foldl]; omega

theorem p528 : (256 : Nat) ^ 66 = 2 ^ 528 := by decide +kernel

theorem isRaw_natToBe {r s : Nat} (hr : r < 2 ^ 528) (hs : s < 2 ^ 528) :
    IsRaw (natToBe 66 r ++ natToBe 66 s) r s := by
  refine ⟨by simp [natToBe_length], ?_, ?_⟩
  · rw [List.take_left' (natToBe_length 66 r), ← beToNat_num, beToNat_natToBe 66 r (by rw [p528]; exact hr)]
  · rw [List.drop_left' (natToBe_length 66 r), ← beToNat_num, beToNat_natToBe 66 s (by rw [p528]; exact hs)]

theorem Spec.IsRaw.lt {raw : Bytes} {r s : Nat} (h : IsRaw raw r s) : r < 2 ^ 528 ∧ s < 2 ^ 528 := by
  obtain ⟨hl, h1, h2⟩ := h
  have a := beToNat_lt 66 (raw.take 66) (by rw [List.length_take, hl]; rfl)
  have b := beToNat_lt 66 (raw.drop 66) (by rw [List.length_drop, hl])
  rw [beToNat_num, h1, p528] at a
  rw [beToNat_num, h2, p528] at b
  exact ⟨a, b⟩

theorem Spec.IsRaw.eq {raw : Bytes} {r s : Nat} (h : IsRaw raw r s) : raw = natToBe 66 r ++ natToBe 66 s := by
  obtain ⟨hl, h1, h2⟩ := h
  have a := natToBe_beToNat 66 (raw.take 66) (by rw [List.length_take, hl]; rfl)
  have b := natToBe_beToNat 66 (raw.drop 66) (by rw [List.length_drop, hl])
  rw [beToNat_num, h1] at a
  rw [beToNat_num, h2] at b
  rw [a, b, List.take_append_drop]

theorem bn2binpad_nat {r : Nat} (hr : r < 2 ^ 528) : bn2binpad (r : Int) 66 = some (natToBe 66 r) := by
  unfold bn2binpad
  rw [Int.natAbs_natCast, p528, if_pos hr]

/-- The raw form is a function of the two numbers and holds exactly them. -/
theorem C77_to_raw_value_partial (D : DerSig) (x : EcdsaResult) (r s : Nat)
    (hd : D.d2i x.sig = some ((r : Int), (s : Int))) (hr : r < 2 ^ 528) (hs : s < 2 ^ 528) :
    ∃ raw, ecdsaToRaw D x = some raw ∧ IsRaw raw r s := by
  refine ⟨natToBe 66 r ++ natToBe 66 s, ?_, isRaw_natToBe hr hs⟩
  unfold ecdsaToRaw bnToBin
  rw [hd]
  cases x.curve
  simp only [Curve.rawSize, Nat.reduceDiv, bn2binpad_nat hr, bn2binpad_nat hs]
  rw [show zeroBuf 132 = some (List.replicate 132 0) from by unfold zeroBuf; rw [if_pos ⟨by omega, by rw [maxBuffer_val]; omega⟩]]
  rfl

/-- What `from_raw` makes of a string of 132 bytes: the DER form of the two numbers in it. -/
theorem C77_from_raw_value (D : DerSig) (hD : D.Lawful) (c : Curve) (d : Digest) (raw : Bytes) (r s : Nat)
    (h : IsRaw raw r s) : ecdsaFromRaw D c d raw = some ⟨c, d, D.i2d r s⟩ := by
  obtain ⟨hr, hs⟩ := Spec.IsRaw.lt h
  obtain ⟨hl, h1, h2⟩ := h
  have hz := hD.size r s hr hs
  unfold ecdsaFromRaw
  cases c
  simp only [Curve.rawSize, hl, ne_eq, not_true_eq_false, if_false, Nat.reduceDiv]
  rw [beToNat_num, h1, beToNat_num, List.take_of_length_le (by rw [List.length_drop, hl]; omega), h2]
  unfold zeroBuf
  rw [if_pos ⟨hz.1, by rw [maxBuffer_val]; omega⟩]
  rfl

/-- Every other length is refused. -/
theorem C77_from_raw_length (D : DerSig) (hD : D.Lawful) (c : Curve) (d : Digest) (raw : Bytes) :
    ecdsaFromRaw D c d raw = none ↔ raw.length ≠ 132 := by
  constructor
  · intro h hl
    rw [C77_from_raw_value D hD c d raw _ _ ⟨hl, rfl, rfl⟩] at h
    exact absurd h (by simp)
  · intro h
    unfold ecdsaFromRaw
    cases c
    exact if_pos h

/-- A signature in the form the engine writes it survives the way to raw and back, whatever curve and digest
it is marked with. -/
theorem C77_der_round_trip (D : DerSig) (hD : D.Lawful) (c : Curve) (d : Digest) (r s : Nat)
    (hr : r < 2 ^ 528) (hs : s < 2 ^ 528) :
    (ecdsaToRaw D ⟨c, d, D.i2d r s⟩).bind (ecdsaFromRaw D c d) = some ⟨c, d, D.i2d r s⟩ := by
  obtain ⟨raw, h1, h2⟩ := C77_to_raw_value_partial D ⟨c, d, D.i2d r s⟩ r s (hD.round r s hr hs) hr hs
  rw [h1, Option.bind_some, C77_from_raw_value D hD c d raw r s h2]

/-- Every string of 132 bytes survives the way to a signature object and back. -/
theorem C77_raw_round_trip (D : DerSig) (hD : D.Lawful) (c : Curve) (d : Digest) (raw : Bytes)
    (hl : raw.length = 132) : (ecdsaFromRaw D c d raw).bind (ecdsaToRaw D) = some raw := by
  have h : IsRaw raw (num (raw.take 66)) (num (raw.drop 66)) := ⟨hl, rfl, rfl⟩
  rw [C77_from_raw_value D hD c d raw _ _ h, Option.bind_some]
  obtain ⟨raw', h1, h2⟩ := C77_to_raw_value_partial D ⟨c, d, D.i2d (num (raw.take 66)) (num (raw.drop 66))⟩ _ _
    (hD.round _ _ h.lt.1 h.lt.2) h.lt.1 h.lt.2
  rw [h1, h2.eq, ← h.eq]

/-- What `from_raw` gives can always be serialized and read back. -/
theorem C77_from_raw_serializable (D : DerSig) (hD : D.Lawful) (c : Curve) (d : Digest) (raw : Bytes)
    (hl : raw.length = 132) :
    ∃ x y, ecdsaFromRaw D c d raw = some x ∧ ecdsaSerialize x = some y ∧ ecdsaFromBuffer y = some x := by
  have h : IsRaw raw (num (raw.take 66)) (num (raw.drop 66)) := ⟨hl, rfl, rfl⟩
  have hz := hD.size _ _ h.lt.1 h.lt.2
  obtain ⟨y, h1, -, h2⟩ := ecdsa_ok (s := ⟨c, d, D.i2d (num (raw.take 66)) (num (raw.drop 66))⟩)
    ⟨hz.1, by cases c; simp only [Curve.sigSize]; omega⟩
  exact ⟨_, y, C77_from_raw_value D hD c d raw _ _ h, h1, h2⟩

theorem bnNumBytes_lt {n : Nat} (w : Nat) : bnNumBytes (n : Int) ≤ w ↔ n < 256 ^ w := by
  unfold bnNumBytes
  rw [Int.natAbs_natCast]
  by_cases h0 : n = 0
  · subst h0; simp [Nat.pow_pos]
  · rw [if_neg h0, pow256, ← Nat.log2_lt h0]
    omega

theorem natToBe_pad : ∀ (k j n : Nat), n < 256 ^ k → List.replicate j 0 ++ natToBe k n = natToBe (j + k) n
  | 0, j, n, h => by
    have : n = 0 := by simp at h; exact h
    subst this
    simp only [natToBe, List.append_nil, Nat.add_zero]
    induction j with
    | zero => rfl
    | succ j ih => rw [natToBe, Nat.zero_div, ← ih, List.replicate_succ']; rfl
  | k + 1, j, n, h => by
    rw [natToBe, ← List.append_assoc, natToBe_pad k j (n / 256)
      (by rw [Nat.div_lt_iff_lt_mul (by omega), ← Nat.pow_succ]; exact h), ← Nat.add_assoc, natToBe]

/-- The three builds of `to_raw` agree on numbers of up to 66 bytes. -/
theorem C77_builds_agree (D : DerSig) (x : EcdsaResult) (r s : Nat)
    (hd : D.d2i x.sig = some ((r : Int), (s : Int))) (hr : r < 2 ^ 528) (hs : s < 2 ^ 528) :
    ecdsaToRawAws D x = ecdsaToRaw D x ∧ ecdsaToRawOld D x = Res.ofOption (ecdsaToRaw D x) := by
  obtain ⟨raw, h1, h2⟩ := C77_to_raw_value_partial D x r s hd hr hs
  have hz : zeroBuf 132 = some (List.replicate 132 0) := by
    unfold zeroBuf; rw [if_pos ⟨by omega, by rw [maxBuffer_val]; omega⟩]
  rw [h1, h2.eq]
  have hlr : bnNumBytes (r : Int) ≤ 66 := (bnNumBytes_lt 66).2 (by rw [p528]; exact hr)
  have hls : bnNumBytes (s : Int) ≤ 66 := (bnNumBytes_lt 66).2 (by rw [p528]; exact hs)
  constructor
  · unfold ecdsaToRawAws bnToBinAws
    rw [hd]
    cases x.curve
    simp only [Curve.rawSize, Nat.reduceDiv, bn2binpad_nat hr, bn2binpad_nat hs, hz]
    rfl
  · unfold ecdsaToRawOld
    rw [hd]
    cases x.curve
    rw [show Curve.p521.rawSize = 132 from rfl]
    simp only [hz, Option.isSome_some, if_true]
    unfold bnToBinOld
    rw [show 132 / 2 = 66 from rfl]
    dsimp only
    rw [if_neg (show ¬ 66 < bnNumBytes (r : Int) by omega), if_neg (show ¬ 66 * 2 < bnNumBytes (s : Int) by omega),
      Int.natAbs_natCast, Int.natAbs_natCast, show 66 * 2 = 132 from rfl]
    have e1 : (List.replicate 132 (0 : UInt8)).take (66 - bnNumBytes (r : Int)) ++ natToBe (bnNumBytes (r : Int)) r =
        natToBe 66 r := by
      rw [List.take_replicate, Nat.min_eq_left (by omega), natToBe_pad _ _ _ ((bnNumBytes_lt _).1 (Nat.le_refl _)),
        Nat.sub_add_cancel hlr]
    rw [e1]
    have e2 : (natToBe 66 r ++ (List.replicate 132 (0 : UInt8)).drop 66).take (132 - bnNumBytes (s : Int)) =
        natToBe 66 r ++ List.replicate (66 - bnNumBytes (s : Int)) 0 := by
      rw [List.take_append, natToBe_length, List.take_of_length_le (by rw [natToBe_length]; omega),
        List.drop_replicate, List.take_replicate]
      congr 2
      omega
    have e3 : (natToBe 66 r ++ (List.replicate 132 (0 : UInt8)).drop 66).drop 132 = [] := by
      apply List.drop_eq_nil_of_le
      simp only [List.length_append, natToBe_length, List.length_drop, List.length_replicate]
      omega
    rw [e2, e3, List.append_nil, List.append_assoc, natToBe_pad _ _ _ ((bnNumBytes_lt _).1 (Nat.le_refl _)),
      Nat.sub_add_cancel hls]
    rfl

/-- The current build cannot fail on a signature that can be read, whatever the numbers are. -/
theorem C77_to_raw_never_refuses (D : DerSig) (x : EcdsaResult) :
    ecdsaToRaw D x = none ↔ D.d2i x.sig = none := by
  unfold ecdsaToRaw
  have hz : (zeroBuf x.curve.rawSize).isSome := by cases x.curve; decide
  cases h : D.d2i x.sig with
  | none => simp
  | some p =>
    obtain ⟨r, s⟩ := p
    obtain ⟨z, hz⟩ := Option.isSome_iff_exists.1 hz
    simp [hz]

/-- The AWS-LC build refuses exactly the signatures that cannot be read or have a number of more than 66 bytes. -/
theorem C77_aws_refuses (D : DerSig) (x : EcdsaResult) :
    ecdsaToRawAws D x = none ↔ ∀ r s : Int, D.d2i x.sig = some (r, s) → 2 ^ 528 ≤ r.natAbs ∨ 2 ^ 528 ≤ s.natAbs := by
  have hz : zeroBuf 132 = some (List.replicate 132 0) := by
    unfold zeroBuf; rw [if_pos ⟨by omega, by rw [maxBuffer_val]; omega⟩]
  unfold ecdsaToRawAws bnToBinAws bn2binpad
  cases x.curve
  simp only [Curve.rawSize, Nat.reduceDiv, p528]
  cases h : D.d2i x.sig with
  | none => simp
  | some p =>
    obtain ⟨r, s⟩ := p
    simp only [hz, Option.bind_some, Option.some.injEq, Prod.mk.injEq]
    constructor
    · rintro h r s ⟨rfl, rfl⟩
      by_cases h1 : r.natAbs < 2 ^ 528
      · by_cases h2 : s.natAbs < 2 ^ 528
        · rw [if_pos h1, if_pos h2] at h; simp at h
        · exact Or.inr (Nat.le_of_not_lt h2)
      · exact Or.inl (Nat.le_of_not_lt h1)
    · intro h
      rcases h r s ⟨rfl, rfl⟩ with h | h
      · rw [if_neg (Nat.not_lt.2 h)]; rfl
      · rw [if_neg (Nat.not_lt.2 h)]
        split <;> rfl

/-- The build before 1.1.0 writes outside its buffer exactly for a first number of more than 66 bytes or a
second number of more than 132. -/
theorem C77_old_undefined_iff (D : DerSig) (x : EcdsaResult) :
    ecdsaToRawOld D x = .ub ↔
      ∃ r s : Int, D.d2i x.sig = some (r, s) ∧ (2 ^ 528 ≤ r.natAbs ∨ 2 ^ 1056 ≤ s.natAbs) := by
  have hn : ∀ (z : Int) (w : Nat), w < bnNumBytes z ↔ 2 ^ (8 * w) ≤ z.natAbs := by
    intro z w
    have := bnNumBytes_lt (n := z.natAbs) w
    rw [show bnNumBytes ((z.natAbs : Nat) : Int) = bnNumBytes z from by unfold bnNumBytes; rw [Int.natAbs_natCast], pow256] at this
    omega
  have hz : zeroBuf 132 = some (List.replicate 132 0) := by
    unfold zeroBuf; rw [if_pos ⟨by omega, by rw [maxBuffer_val]; omega⟩]
  unfold ecdsaToRawOld
  cases x.curve
  rw [show Curve.p521.rawSize = 132 from rfl]
  cases h : D.d2i x.sig with
  | none => simp
  | some p =>
    obtain ⟨r, s⟩ := p
    simp only [hz, Option.isSome_some, if_true, Option.some.injEq, Prod.mk.injEq]
    unfold bnToBinOld
    rw [show 132 / 2 = 66 from rfl]
    dsimp only
    have h1 := hn r 66
    have h2 := hn s 132
    constructor
    · intro h
      refine ⟨r, s, ⟨rfl, rfl⟩, ?_⟩
      by_cases ha : 66 < bnNumBytes r
      · exact Or.inl (h1.1 ha)
      · rw [if_neg ha] at h
        by_cases hb : 132 < bnNumBytes s
        · exact Or.inr (h2.1 hb)
        · rw [if_neg hb] at h; exact absurd h (by simp)
    · rintro ⟨r', s', ⟨rfl, rfl⟩, h | h⟩
      · rw [if_pos (h1.2 h)]
      · split
        · rfl
        · exact if_pos (h2.2 h)

/-- "A signature is converted to the raw form of its numbers or refused" is false: a first number of more than
66 bytes is replaced by zero, so that a different signature comes out; the same signature makes the build
against OpenSSL before 1.1.0 write before the start of its buffer; the AWS-LC build refuses it. -/
theorem C77_oversized_false :
    ∃ x : EcdsaResult, der.d2i x.sig = some (2 ^ 528, 1) ∧
      ecdsaToRaw der x = ecdsaToRaw der ⟨x.curve, x.digest, der.i2d 0 1⟩ ∧ (ecdsaToRaw der x).isSome ∧
      ecdsaToRawOld der x = .ub ∧ ecdsaToRawAws der x = none :=
  ⟨⟨.p521, .sha512, derSig (2 ^ 528) 1⟩, by decide +kernel⟩

/-- Two different signature objects can have one raw form: bytes after the sequence and the sign of a number
are dropped. -/
theorem C77_injective_false :
    (∃ x y : EcdsaResult, x ≠ y ∧ ecdsaToRaw der x = ecdsaToRaw der y ∧ (ecdsaToRaw der x).isSome ∧
      der.d2i x.sig = der.d2i y.sig) ∧
    (∃ x y : EcdsaResult, ecdsaToRaw der x = ecdsaToRaw der y ∧ der.d2i x.sig = some (1, 1) ∧
      der.d2i y.sig = some (-1, 1)) :=
  ⟨⟨⟨.p521, .sha512, derSig 1 1⟩, ⟨.p521, .sha512, derSig 1 1 ++ [0]⟩, by decide +kernel⟩,
   ⟨⟨.p521, .sha512, derSig 1 1⟩, ⟨.p521, .sha512, [0x30, 6, 2, 1, 0xFF, 2, 1, 1]⟩, by decide +kernel⟩⟩

/-- On the other hand, equal raw forms mean equal numbers as long as they are natural and fit. -/
theorem C77_raw_determines (D : DerSig) (x y : EcdsaResult) (r s r' s' : Nat)
    (hx : D.d2i x.sig = some ((r : Int), (s : Int))) (hy : D.d2i y.sig = some ((r' : Int), (s' : Int)))
    (hr : r < 2 ^ 528) (hs : s < 2 ^ 528) (hr' : r' < 2 ^ 528) (hs' : s' < 2 ^ 528)
    (h : ecdsaToRaw D x = ecdsaToRaw D y) : r = r' ∧ s = s' := by
  obtain ⟨a, h1, -, h2, h3⟩ := C77_to_raw_value_partial D x r s hx hr hs
  obtain ⟨b, h4, -, h5, h6⟩ := C77_to_raw_value_partial D y r' s' hy hr' hs'
  rw [h1, h4] at h
  obtain rfl := Option.some.inj h
  exact ⟨h2.symm.trans h5, h3.symm.trans h6⟩

/-! Concrete cases: DER meets the assumptions, with numbers that need padding, a leading zero octet and the
long form of the length. -/

example : der.Lawful := der_lawful
example : derSig 1 0x80 = [0x30, 7, 2, 1, 1, 2, 2, 0, 0x80] ∧ derRead [0x30, 7, 2, 1, 1, 2, 2, 0, 0x80] = some (1, 0x80) ∧
    (derSig (2 ^ 521 - 1) (2 ^ 521 - 1)).length = 139 ∧ (derSig (2 ^ 521 - 1) (2 ^ 521 - 1)).take 5 = [0x30, 0x81, 136, 2, 66] ∧
    (derSig (2 ^ 528 - 1) (2 ^ 528 - 1)).length = 141 := by decide +kernel
example : ecdsaToRaw der ⟨.p521, .sha512, derSig 0x1234 5⟩ =
    some (List.replicate 64 0 ++ [0x12, 0x34] ++ List.replicate 65 0 ++ [5]) := by decide +kernel
example : ecdsaFromRaw der .p521 .sha256 (List.replicate 64 0 ++ [0x12, 0x34] ++ List.replicate 65 0 ++ [5]) =
    some ⟨.p521, .sha256, derSig 0x1234 5⟩ := by decide +kernel

end Wickr
