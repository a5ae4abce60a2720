import Verif.Lemmas.BaseN
set_option linter.unusedSimpArgs false
namespace Wickr

theorem u64_mask (x : UInt64) (s : Nat) (hs : s < 64) :
    ((x <<< UInt64.ofNat s) >>> UInt64.ofNat s).toNat = x.toNat % 2 ^ (64 - s) := by
  have e : (UInt64.ofNat s).toNat % 64 = s := by simp; omega
  rw [UInt64.toNat_shiftRight, UInt64.toNat_shiftLeft, e, Nat.shiftLeft_eq, Nat.shiftRight_eq_div_pow]
  have h2 : (2 : Nat) ^ 64 = 2 ^ (64 - s) * 2 ^ s := by rw [← Nat.pow_add]; congr 1; omega
  rw [h2, Nat.mul_mod_mul_right, Nat.mul_div_cancel _ (Nat.two_pow_pos s)]

theorem u64_shr (x : UInt64) (s : Nat) (hs : s < 64) : (x >>> UInt64.ofNat s).toNat = x.toNat / 2 ^ s := by
  have e : (UInt64.ofNat s).toNat % 64 = s := by simp; omega
  rw [UInt64.toNat_shiftRight, e, Nat.shiftRight_eq_div_pow]

theorem u64_shl_or (x : UInt64) (y : UInt8) (k : Nat) (hk : k < 64) (hy : y.toNat < 2 ^ k)
    (hx : x.toNat * 2 ^ k < 2 ^ 64) :
    ((x <<< UInt64.ofNat k) ||| y.toUInt64).toNat = x.toNat * 2 ^ k + y.toNat := by
  have e : (UInt64.ofNat k).toNat % 64 = k := by simp; omega
  rw [UInt64.toNat_or, UInt64.toNat_shiftLeft, e, UInt8.toNat_toUInt64, Nat.mod_eq_of_lt (by rw [Nat.shiftLeft_eq]; exact hx),
    ← Nat.shiftLeft_add_eq_or_of_lt hy, Nat.shiftLeft_eq]

/-- base 32 digits, most significant first -/
def digits32 : Nat → Nat → List UInt8
  | 0, _ => []
  | j + 1, x => UInt8.ofNat (x / 32 ^ j % 32) :: digits32 j x

theorem digits32_mod : ∀ (j m x : Nat), j ≤ m → digits32 j (x % 32 ^ m) = digits32 j x := by
  intro j
  induction j with
  | zero => intro m x _; rfl
  | succ j ih =>
    intro m x h
    simp only [digits32]
    rw [ih m x (by omega)]
    congr 2
    have : 32 ^ m = 32 ^ j * 32 ^ (m - j) := by rw [← Nat.pow_add]; congr 1; omega
    rw [this, Nat.mod_mul_right_div_self]
    have : 32 ^ (m - j) = 32 * 32 ^ (m - j - 1) := by
      rw [← Nat.pow_succ']; congr 1; omega
    rw [this, Nat.mod_mul_right_mod]

theorem b32Out8_eq : ∀ (k : Nat) (x : UInt64), k ≤ 8 → b32Out8 k x = some (digits32 k x.toNat) := by
  intro k
  induction k with
  | zero => intro x _; rfl
  | succ j ih =>
    intro x hk
    simp only [b32Out8]
    have hm := u64_mask x (24 + (7 - j) * 5) (by omega)
    generalize hb : (x <<< UInt64.ofNat (24 + (7 - j) * 5)) >>> UInt64.ofNat (24 + (7 - j) * 5) = buf at hm
    have hp : 2 ^ (64 - (24 + (7 - j) * 5)) = 32 ^ (j + 1) := by
      rw [show (32 : Nat) = 2 ^ 5 from rfl, ← Nat.pow_mul]; congr 1; omega
    rw [hp] at hm
    have hc : ((buf >>> UInt64.ofNat (j * 5)).toUInt8).toNat = x.toNat / 32 ^ j % 32 := by
      rw [UInt64.toNat_toUInt8, u64_shr _ _ (by omega), hm]
      have hp2 : 2 ^ (j * 5) = 32 ^ j := by
        rw [show (32 : Nat) = 2 ^ 5 from rfl, ← Nat.pow_mul]; congr 1; omega
      rw [hp2, Nat.pow_succ, Nat.mod_mul_right_div_self]; omega
    have hlt : ¬ (buf >>> UInt64.ofNat (j * 5)).toUInt8 ≥ 32 := by
      rw [ge_iff_le, UInt8.le_iff_toNat_le, hc]
      have : (32 : UInt8).toNat = 32 := rfl
      rw [this]; omega
    rw [if_neg hlt, ih buf (by omega), hm, digits32_mod j (j + 1) _ (by omega)]
    simp only [Option.map_some, digits32, Option.some.injEq, List.cons.injEq, and_true]
    apply UInt8.toNat_inj.1
    rw [hc]; simp; omega

theorem digits32_lt : ∀ (k x : Nat), ∀ c ∈ digits32 k x, c.toNat < 32 := by
  intro k
  induction k with
  | zero => intro x c hc; simp [digits32] at hc
  | succ k ih =>
    intro x c hc
    simp only [digits32, List.mem_cons] at hc
    rcases hc with rfl | hc
    · simp; omega
    · exact ih x c hc

theorem b32Pack8_step (c : UInt8) (hc : c.toNat < 32) (cs : Bytes) (acc : UInt64) :
    b32Pack8 (c :: cs) acc = b32Pack8 cs ((acc <<< 5) ||| c.toUInt64) := by
  rw [b32Pack8, if_neg]
  rw [ge_iff_le, UInt8.le_iff_toNat_le]
  have : (32 : UInt8).toNat = 32 := rfl
  omega

theorem b32Pack8_digits : ∀ (k x : Nat) (acc : UInt64), acc.toNat * 32 ^ k + 32 ^ k ≤ 2 ^ 64 →
    ∃ v, b32Pack8 (digits32 k x) acc = some v ∧ v.toNat = acc.toNat * 32 ^ k + x % 32 ^ k := by
  intro k
  induction k with
  | zero => intro x acc _; exact ⟨acc, rfl, by simp [Nat.mod_one]⟩
  | succ k ih =>
    intro x acc h
    simp only [digits32]
    have hd : (UInt8.ofNat (x / 32 ^ k % 32)).toNat = x / 32 ^ k % 32 := by simp; omega
    have hpos : 1 ≤ 32 ^ k := Nat.one_le_pow _ _ (by omega)
    have hacc : acc.toNat * 2 ^ 5 < 2 ^ 64 := by
      have : acc.toNat * 32 ≤ acc.toNat * 32 ^ (k + 1) := Nat.mul_le_mul_left _ (by rw [Nat.pow_succ]; omega)
      have h1 : 1 ≤ 32 ^ (k + 1) := Nat.one_le_pow _ _ (by omega)
      omega
    have e := u64_shl_or acc (UInt8.ofNat (x / 32 ^ k % 32)) 5 (by omega) (by rw [hd]; omega) hacc
    rw [b32Pack8_step _ (by rw [hd]; omega)]
    rw [hd] at e
    obtain ⟨v, h1, h2⟩ := ih x (acc <<< 5 ||| (UInt8.ofNat (x / 32 ^ k % 32)).toUInt64) (by
      rw [show acc <<< 5 = acc <<< UInt64.ofNat 5 from rfl, e]
      have : x / 32 ^ k % 32 ≤ 31 := by omega
      have := Nat.mul_le_mul_right (32 ^ k) this
      rw [Nat.pow_succ] at h
      rw [Nat.add_mul]
      have e3 : acc.toNat * (32 ^ k * 32) = acc.toNat * 2 ^ 5 * 32 ^ k := by
        rw [Nat.mul_assoc, Nat.mul_comm (32 ^ k) 32]
      omega)
    refine ⟨v, h1, ?_⟩
    rw [h2, show acc <<< 5 = acc <<< UInt64.ofNat 5 from rfl, e]
    have e1 : x % 32 ^ (k + 1) = x % 32 ^ k + 32 ^ k * (x / 32 ^ k % 32) := by
      rw [Nat.pow_succ, Nat.mod_mul]
    have e2 : acc.toNat * 32 ^ (k + 1) = acc.toNat * 2 ^ 5 * 32 ^ k := by
      rw [Nat.pow_succ, Nat.mul_assoc, Nat.mul_comm (32 ^ k) 32]
    rw [e1, e2, Nat.add_mul, Nat.mul_comm (x / 32 ^ k % 32)]
    omega

/-- base 256 digits, most significant first -/
def digits256 : Nat → Nat → List UInt8
  | 0, _ => []
  | j + 1, x => UInt8.ofNat (x / 256 ^ j) :: digits256 j x

theorem b32Out5_eq : ∀ (k : Nat) (x : UInt64), k ≤ 8 → b32Out5 k x = digits256 k x.toNat := by
  intro k
  induction k with
  | zero => intro x _; rfl
  | succ k ih =>
    intro x hk
    simp only [b32Out5, digits256, ih x (by omega)]
    congr 1
    apply UInt8.toNat_inj.1
    rw [UInt64.toNat_toUInt8, u64_shr _ _ (by omega)]
    have : 2 ^ (k * 8) = 256 ^ k := by
      rw [show (256 : Nat) = 2 ^ 8 from rfl, ← Nat.pow_mul]; congr 1; omega
    rw [this]; simp

/-- big-endian number of five bytes -/
def val5 (a b c d e : UInt8) : Nat := (((a.toNat * 256 + b.toNat) * 256 + c.toNat) * 256 + d.toNat) * 256 + e.toNat

theorem b32Pack5_val (a b c d e : UInt8) : (b32Pack5 [a, b, c, d, e] 0).toNat = val5 a b c d e := by
  have ha := a.toNat_lt
  have hb := b.toNat_lt
  have hc := c.toNat_lt
  have hd := d.toNat_lt
  have he := e.toNat_lt
  simp only [b32Pack5, val5]
  have step : ∀ (x : UInt64) (y : UInt8), x.toNat < 2 ^ 56 → ((x <<< 8) ||| y.toUInt64).toNat = x.toNat * 256 + y.toNat := by
    intro x y hx
    exact u64_shl_or x y 8 (by omega) y.toNat_lt (by omega)
  have z : (0 : UInt64).toNat = 0 := rfl
  have s1 := step 0 a (by omega)
  have s2 := step _ b (show ((0 : UInt64) <<< 8 ||| a.toUInt64).toNat < 2 ^ 56 by omega)
  have s3 := step _ c (show (((0 : UInt64) <<< 8 ||| a.toUInt64) <<< 8 ||| b.toUInt64).toNat < 2 ^ 56 by omega)
  have s4 := step _ d (show ((((0 : UInt64) <<< 8 ||| a.toUInt64) <<< 8 ||| b.toUInt64) <<< 8 ||| c.toUInt64).toNat < 2 ^ 56 by omega)
  have s5 := step _ e (show (((((0 : UInt64) <<< 8 ||| a.toUInt64) <<< 8 ||| b.toUInt64) <<< 8 ||| c.toUInt64) <<< 8 ||| d.toUInt64).toNat < 2 ^ 56 by omega)
  rw [s5, s4, s3, s2, s1, z]; omega

theorem val5_lt (a b c d e : UInt8) : val5 a b c d e < 32 ^ 8 := by
  have ha := a.toNat_lt
  have hb := b.toNat_lt
  have hc := c.toNat_lt
  have hd := d.toNat_lt
  have he := e.toNat_lt
  unfold val5; omega

theorem b32EncodeBlock_eq (a b c d e : UInt8) : b32EncodeBlock [a, b, c, d, e] = some (digits32 8 (val5 a b c d e)) := by
  rw [b32EncodeBlock, b32Out8_eq 8 _ (by omega), b32Pack5_val]

theorem b32DecodeBlock_digits (x : Nat) (hx : x < 32 ^ 8) : b32DecodeBlock (digits32 8 x) = some (digits256 5 x) := by
  obtain ⟨v, h1, h2⟩ := b32Pack8_digits 8 x 0 (by decide)
  rw [b32DecodeBlock, h1]
  simp only [Option.map_some]
  rw [b32Out5_eq 5 _ (by omega), h2]
  simp only [UInt64.toNat_zero, Nat.zero_mul, Nat.zero_add, Nat.mod_eq_of_lt hx]

theorem digits256_val5 (a b c d e : UInt8) : digits256 5 (val5 a b c d e) = [a, b, c, d, e] := by
  have ha := a.toNat_lt
  have hb := b.toNat_lt
  have hc := c.toNat_lt
  have hd := d.toNat_lt
  have he := e.toNat_lt
  have key : ∀ (n : Nat) (x : UInt8), n % 256 = x.toNat → UInt8.ofNat n = x := by
    intro n x h; apply UInt8.toNat_inj.1; simpa using h
  simp only [digits256, val5]
  simp only [List.cons.injEq, and_true]
  refine ⟨key _ _ ?_, key _ _ ?_, key _ _ ?_, key _ _ ?_, key _ _ ?_⟩ <;> omega

theorem enclen (r : Nat) (h : r < 2 ^ 32) : (b32EncodeLength (UInt64.ofNat r)).toNat = (8 * r + 4) / 5 := by
  unfold b32EncodeLength
  have e : (UInt64.ofNat r).toNat = r := by simp; omega
  have h1 : ¬ UInt64.ofNat r ≥ 18446744073709551615 / 8 := by
    rw [ge_iff_le, UInt64.le_iff_toNat_le, e]
    have : (18446744073709551615 / 8 : UInt64).toNat = 2305843009213693951 := by decide
    omega
  rw [if_neg h1]
  have h8 : (UInt64.ofNat r * 8).toNat = 8 * r := by
    rw [UInt64.toNat_mul, e]; have : (8 : UInt64).toNat = 8 := rfl
    rw [this]; omega
  have h5 : (UInt64.ofNat r * 8 / 5).toNat = 8 * r / 5 := by
    rw [UInt64.toNat_div, h8]; rfl
  have hm : (UInt64.ofNat r * 8 % 5).toNat = 8 * r % 5 := by
    rw [UInt64.toNat_mod, h8]; rfl
  simp only [gt_iff_lt, UInt64.lt_iff_toNat_lt, hm]
  have z : (0 : UInt64).toNat = 0 := rfl
  rw [z]
  split
  · rename_i hpos
    rw [UInt64.toNat_add, h5]; have h1 : (1 : UInt64).toNat = 1 := rfl
    rw [h1, Nat.mod_eq_of_lt (by omega)]; omega
  · rw [h5]; omega

theorem declen (r : Nat) (h : r < 2 ^ 32) : (b32DecodeLength (UInt64.ofNat r)).toNat = 5 * r / 8 := by
  unfold b32DecodeLength
  have e : (UInt64.ofNat r).toNat = r := by simp; omega
  have h1 : ¬ UInt64.ofNat r ≥ 18446744073709551615 / 5 := by
    rw [ge_iff_le, UInt64.le_iff_toNat_le, e]
    have : (18446744073709551615 / 5 : UInt64).toNat = 3689348814741910323 := by decide
    omega
  rw [if_neg h1, UInt64.toNat_div, UInt64.toNat_mul, e]
  have h5 : (5 : UInt64).toNat = 5 := rfl
  have h8 : (8 : UInt64).toNat = 8 := rfl
  rw [h5, h8]; omega

/-- digits of the encoding of `d` -/
def b32Digits : Bytes → Bytes
  | a :: b :: c :: d :: e :: rest => digits32 8 (val5 a b c d e) ++ b32Digits rest
  | [a, b, c, d] => (digits32 8 (val5 a b c d 0)).take 7
  | [a, b, c] => (digits32 8 (val5 a b c 0 0)).take 5
  | [a, b] => (digits32 8 (val5 a b 0 0 0)).take 4
  | [a] => (digits32 8 (val5 a 0 0 0 0)).take 2
  | [] => []

theorem b32EncodeAll_eq : ∀ d, b32EncodeAll d = some (b32Digits d)
  | a :: b :: c :: d :: e :: rest => by
    rw [b32EncodeAll]
    simp only [b32EncodeBlock_eq, b32EncodeAll_eq rest, Option.map_some, b32Digits]
  | [a, b, c, d] => by
    rw [b32EncodeAll.eq_def]
    simp only [List.length_cons, List.length_nil]
    rw [enclen _ (by omega)]
    simp [b32EncodeBlock_eq, b32Digits, List.replicate]
  | [a, b, c] => by
    rw [b32EncodeAll.eq_def]
    simp only [List.length_cons, List.length_nil]
    rw [enclen _ (by omega)]
    simp [b32EncodeBlock_eq, b32Digits, List.replicate]
  | [a, b] => by
    rw [b32EncodeAll.eq_def]
    simp only [List.length_cons, List.length_nil]
    rw [enclen _ (by omega)]
    simp [b32EncodeBlock_eq, b32Digits, List.replicate]
  | [a] => by
    rw [b32EncodeAll.eq_def]
    simp only [List.length_cons, List.length_nil]
    rw [enclen _ (by omega)]
    simp [b32EncodeBlock_eq, b32Digits, List.replicate]
  | [] => by
    rw [b32EncodeAll.eq_def]
    simp only [List.length_nil]
    rw [enclen _ (by omega)]
    simp [b32EncodeBlock_eq, b32Digits, List.replicate]

theorem digits32_length : ∀ k x, (digits32 k x).length = k := by
  intro k; induction k with
  | zero => intro x; rfl
  | succ k ih => intro x; simp [digits32, ih]

theorem b32Digits_length : ∀ d, (b32Digits d).length = (8 * d.length + 4) / 5
  | a :: b :: c :: d :: e :: rest => by
    simp only [b32Digits, List.length_append, digits32_length, b32Digits_length rest, List.length_cons]; omega
  | [a, b, c, d] => by simp [b32Digits, digits32_length]
  | [a, b, c] => by simp [b32Digits, digits32_length]
  | [a, b] => by simp [b32Digits, digits32_length]
  | [a] => by simp [b32Digits, digits32_length]
  | [] => by simp [b32Digits]

theorem b32Digits_lt : ∀ d, ∀ c ∈ b32Digits d, c.toNat < 32
  | a :: b :: c :: d :: e :: rest => by
    intro x hx
    simp only [b32Digits, List.mem_append] at hx
    rcases hx with hx | hx
    · exact digits32_lt _ _ x hx
    · exact b32Digits_lt rest x hx
  | [a, b, c, d] => fun x hx => digits32_lt _ _ x (List.mem_of_mem_take hx)
  | [a, b, c] => fun x hx => digits32_lt _ _ x (List.mem_of_mem_take hx)
  | [a, b] => fun x hx => digits32_lt _ _ x (List.mem_of_mem_take hx)
  | [a] => fun x hx => digits32_lt _ _ x (List.mem_of_mem_take hx)
  | [] => by simp [b32Digits]

theorem ofNat_zero_of {n : Nat} (h : n % 256 = 0) : (0 : UInt8) = UInt8.ofNat n := by
  apply UInt8.toNat_inj.1; simp; omega

theorem b32DecodeAll_digits : ∀ d, b32DecodeAll (b32Digits d) = some d
  | a :: b :: c :: d :: e :: rest => by
    simp only [b32Digits]
    have hb := b32DecodeBlock_digits _ (val5_lt a b c d e)
    have hd := digits256_val5 a b c d e
    rw [hd] at hb
    simp only [digits32, List.cons_append, List.nil_append] at hb ⊢
    rw [b32DecodeAll]
    simp only [hb, b32DecodeAll_digits rest, Option.map_some, List.cons_append, List.nil_append]
  | [a, b, c, d] => by
    have hb := b32DecodeBlock_digits _ (val5_lt a b c d 0)
    have hd := digits256_val5 a b c d 0
    rw [hd] at hb
    have hpad : (digits32 8 (val5 a b c d 0)).take 7 ++ [0] = digits32 8 (val5 a b c d 0) := by
      simp only [digits32, List.take_succ_cons, List.take_zero, List.cons_append, List.nil_append]
      rw [← ofNat_zero_of (show (val5 a b c d 0 / 32 ^ 0 % 32) % 256 = 0 by
        unfold val5; have : (0 : UInt8).toNat = 0 := rfl
        omega)]
    rw [b32Digits]
    rw [b32DecodeAll.eq_def]
    have hl : ((digits32 8 (val5 a b c d 0)).take 7).length = 7 := by simp [digits32_length]
    simp only [digits32, List.take_succ_cons, List.take_zero] at hpad hb hl ⊢
    rw [hl, show List.replicate (8 - 7) (0 : UInt8) = [0] from rfl, hpad, hb, declen _ (by omega)]
    simp
  | [a, b, c] => by
    have hb := b32DecodeBlock_digits _ (val5_lt a b c 0 0)
    have hd := digits256_val5 a b c 0 0
    rw [hd] at hb
    have z : (0 : UInt8).toNat = 0 := rfl
    have hpad : (digits32 8 (val5 a b c 0 0)).take 5 ++ [0, 0, 0] = digits32 8 (val5 a b c 0 0) := by
      simp only [digits32, List.take_succ_cons, List.take_zero, List.cons_append, List.nil_append]
      rw [← ofNat_zero_of (show (val5 a b c 0 0 / 32 ^ 0 % 32) % 256 = 0 by unfold val5; omega),
        ← ofNat_zero_of (show (val5 a b c 0 0 / 32 ^ 1 % 32) % 256 = 0 by unfold val5; omega),
        ← ofNat_zero_of (show (val5 a b c 0 0 / 32 ^ 2 % 32) % 256 = 0 by unfold val5; omega)]
    rw [b32Digits]
    rw [b32DecodeAll.eq_def]
    have hl : ((digits32 8 (val5 a b c 0 0)).take 5).length = 5 := by simp [digits32_length]
    simp only [digits32, List.take_succ_cons, List.take_zero] at hpad hb hl ⊢
    rw [hl, show List.replicate (8 - 5) (0 : UInt8) = [0, 0, 0] from rfl, hpad, hb, declen _ (by omega)]
    simp
  | [a, b] => by
    have hb := b32DecodeBlock_digits _ (val5_lt a b 0 0 0)
    have hd := digits256_val5 a b 0 0 0
    rw [hd] at hb
    have z : (0 : UInt8).toNat = 0 := rfl
    have hpad : (digits32 8 (val5 a b 0 0 0)).take 4 ++ [0, 0, 0, 0] = digits32 8 (val5 a b 0 0 0) := by
      simp only [digits32, List.take_succ_cons, List.take_zero, List.cons_append, List.nil_append]
      rw [← ofNat_zero_of (show (val5 a b 0 0 0 / 32 ^ 0 % 32) % 256 = 0 by unfold val5; omega),
        ← ofNat_zero_of (show (val5 a b 0 0 0 / 32 ^ 1 % 32) % 256 = 0 by unfold val5; omega),
        ← ofNat_zero_of (show (val5 a b 0 0 0 / 32 ^ 2 % 32) % 256 = 0 by unfold val5; omega),
        ← ofNat_zero_of (show (val5 a b 0 0 0 / 32 ^ 3 % 32) % 256 = 0 by unfold val5; omega)]
    rw [b32Digits]
    rw [b32DecodeAll.eq_def]
    have hl : ((digits32 8 (val5 a b 0 0 0)).take 4).length = 4 := by simp [digits32_length]
    simp only [digits32, List.take_succ_cons, List.take_zero] at hpad hb hl ⊢
    rw [hl, show List.replicate (8 - 4) (0 : UInt8) = [0, 0, 0, 0] from rfl, hpad, hb, declen _ (by omega)]
    simp
  | [a] => by
    have hb := b32DecodeBlock_digits _ (val5_lt a 0 0 0 0)
    have hd := digits256_val5 a 0 0 0 0
    rw [hd] at hb
    have z : (0 : UInt8).toNat = 0 := rfl
    have hpad : (digits32 8 (val5 a 0 0 0 0)).take 2 ++ [0, 0, 0, 0, 0, 0] = digits32 8 (val5 a 0 0 0 0) := by
      simp only [digits32, List.take_succ_cons, List.take_zero, List.cons_append, List.nil_append]
      rw [← ofNat_zero_of (show (val5 a 0 0 0 0 / 32 ^ 0 % 32) % 256 = 0 by unfold val5; omega),
        ← ofNat_zero_of (show (val5 a 0 0 0 0 / 32 ^ 1 % 32) % 256 = 0 by unfold val5; omega),
        ← ofNat_zero_of (show (val5 a 0 0 0 0 / 32 ^ 2 % 32) % 256 = 0 by unfold val5; omega),
        ← ofNat_zero_of (show (val5 a 0 0 0 0 / 32 ^ 3 % 32) % 256 = 0 by unfold val5; omega),
        ← ofNat_zero_of (show (val5 a 0 0 0 0 / 32 ^ 4 % 32) % 256 = 0 by unfold val5; omega),
        ← ofNat_zero_of (show (val5 a 0 0 0 0 / 32 ^ 5 % 32) % 256 = 0 by unfold val5; omega)]
    rw [b32Digits]
    rw [b32DecodeAll.eq_def]
    have hl : ((digits32 8 (val5 a 0 0 0 0)).take 2).length = 2 := by simp [digits32_length]
    simp only [digits32, List.take_succ_cons, List.take_zero] at hpad hb hl ⊢
    rw [hl, show List.replicate (8 - 2) (0 : UInt8) = [0, 0, 0, 0, 0, 0] from rfl, hpad, hb, declen _ (by omega)]
    simp
  | [] => by
    rw [b32Digits, b32DecodeAll.eq_def]
    simp only [List.length_nil]
    rw [declen _ (by omega)]
    have := b32DecodeBlock_digits 0 (by decide)
    have e : digits32 8 0 = [] ++ List.replicate (8 - 0) 0 := by decide
    rw [e] at this
    rw [this]; simp

theorem b32_map_facts : ∀ n : Fin 32, b32ReverseMap.getD (b32Alphabet.getD n.val 0).toNat 255 = UInt8.ofNat n.val ∧
    Spec.charAt Spec.crockford n.val = b32Alphabet.getD n.val 0 := by decide +kernel

theorem b32EncodeMap_eq : ∀ u : Bytes, (∀ c ∈ u, c.toNat < 32) → b32EncodeMap u = some (u.map (fun c => b32Alphabet.getD c.toNat 0)) := by
  intro u
  induction u with
  | nil => intro _; rfl
  | cons c cs ih =>
    intro h
    have hc := h c (by simp)
    have : ¬ c ≥ 32 := by
      rw [ge_iff_le, UInt8.le_iff_toNat_le]
      have : (32 : UInt8).toNat = 32 := rfl
      omega
    rw [b32EncodeMap, if_neg this, ih (fun x hx => h x (by simp [hx]))]
    simp

theorem b32Unmap_map : ∀ u : Bytes, (∀ c ∈ u, c.toNat < 32) → b32Unmap (u.map (fun c => b32Alphabet.getD c.toNat 0)) = some u := by
  intro u
  induction u with
  | nil => intro _; rfl
  | cons c cs ih =>
    intro h
    have hc := h c (by simp)
    have := (b32_map_facts ⟨c.toNat, hc⟩).1
    simp only [UInt8.ofNat_toNat] at this
    simp only [List.map_cons, b32Unmap, this]
    rw [if_neg, ih (fun x hx => h x (by simp [hx]))]
    · simp
    · intro he; rw [he] at hc; simp at hc

theorem chars_eq (u : Bytes) (h : ∀ c ∈ u, c.toNat < 32) :
    u.map (fun c => b32Alphabet.getD c.toNat 0) = (u.map UInt8.toNat).map (Spec.charAt Spec.crockford) := by
  rw [List.map_map]
  apply List.map_congr_left
  intro c hc
  exact ((b32_map_facts ⟨c.toNat, h c hc⟩).2).symm

theorem ofNat_toNat_lt {n : Nat} (h : n < 256) : (UInt8.ofNat n).toNat = n := by
  simp; omega

theorem g5 (x0 x1 x2 x3 x4 : Nat) (l : List Nat) :
    Spec.groups 5 (x0 :: x1 :: x2 :: x3 :: x4 :: l) = (16 * x0 + 8 * x1 + 4 * x2 + 2 * x3 + x4) :: Spec.groups 5 l := by
  rw [Spec.groups_step 5 (by omega) _ (by simp)]
  have z : 5 - (x0 :: x1 :: x2 :: x3 :: x4 :: l).length = 0 := by simp only [List.length_cons]; omega
  rw [z]
  simp only [List.take_succ_cons, List.take_zero, List.replicate, List.cons_append, List.nil_append, List.drop_succ_cons, List.drop_zero,
    Spec.bitsVal, List.foldl_cons, List.foldl_nil, List.cons.injEq, and_true]
  omega
theorem g4 (x0 x1 x2 x3 : Nat) :
    Spec.groups 5 [x0, x1, x2, x3] = [16 * x0 + 8 * x1 + 4 * x2 + 2 * x3] := by
  rw [Spec.groups_step 5 (by omega) _ (by simp)]
  simp only [List.take_succ_cons, List.take_zero, List.take_nil, List.length_cons, List.length_nil, List.replicate, List.cons_append, List.nil_append, List.drop_succ_cons, List.drop_nil,
    Spec.bitsVal, List.foldl_cons, List.foldl_nil, List.cons.injEq, Spec.groups_nil, and_true]
  omega
theorem g3 (x0 x1 x2 : Nat) :
    Spec.groups 5 [x0, x1, x2] = [16 * x0 + 8 * x1 + 4 * x2] := by
  rw [Spec.groups_step 5 (by omega) _ (by simp)]
  simp only [List.take_succ_cons, List.take_zero, List.take_nil, List.length_cons, List.length_nil, List.replicate, List.cons_append, List.nil_append, List.drop_succ_cons, List.drop_nil,
    Spec.bitsVal, List.foldl_cons, List.foldl_nil, List.cons.injEq, Spec.groups_nil, and_true]
  omega
theorem g2 (x0 x1 : Nat) :
    Spec.groups 5 [x0, x1] = [16 * x0 + 8 * x1] := by
  rw [Spec.groups_step 5 (by omega) _ (by simp)]
  simp only [List.take_succ_cons, List.take_zero, List.take_nil, List.length_cons, List.length_nil, List.replicate, List.cons_append, List.nil_append, List.drop_succ_cons, List.drop_nil,
    Spec.bitsVal, List.foldl_cons, List.foldl_nil, List.cons.injEq, Spec.groups_nil, and_true]
  omega
theorem g1 (x0 : Nat) :
    Spec.groups 5 [x0] = [16 * x0] := by
  rw [Spec.groups_step 5 (by omega) _ (by simp)]
  simp only [List.take_succ_cons, List.take_zero, List.take_nil, List.length_cons, List.length_nil, List.replicate, List.cons_append, List.nil_append, List.drop_succ_cons, List.drop_nil,
    Spec.bitsVal, List.foldl_cons, List.foldl_nil, List.cons.injEq, Spec.groups_nil, and_true]
  omega

theorem d5 (a b c d e : UInt8) : (digits32 8 (val5 a b c d e)).map UInt8.toNat =
    [a.toNat / 8, a.toNat % 8 * 4 + b.toNat / 64, b.toNat / 2 % 32, b.toNat % 2 * 16 + c.toNat / 16,
     c.toNat % 16 * 2 + d.toNat / 128, d.toNat / 4 % 32, d.toNat % 4 * 8 + e.toNat / 32, e.toNat % 32] := by
  have ha := a.toNat_lt
  have hb := b.toNat_lt
  have hc := c.toNat_lt
  have hd := d.toNat_lt
  have he := e.toNat_lt
  simp only [digits32, List.map_cons, List.map_nil, List.cons.injEq, and_true]
  refine ⟨?_, ?_, ?_, ?_, ?_, ?_, ?_, ?_⟩ <;> (rw [ofNat_toNat_lt (by omega)]; unfold val5; omega)

theorem b32Groups : ∀ d, Spec.groups 5 (Spec.bits d) = (b32Digits d).map UInt8.toNat
  | a :: b :: c :: d :: e :: rest => by
    have ha := a.toNat_lt
    have hb := b.toNat_lt
    have hc := c.toNat_lt
    have hd := d.toNat_lt
    have he := e.toNat_lt
    simp only [bits_cons, Spec.byteBits, List.cons_append, List.nil_append, g5]
    rw [b32Groups rest, b32Digits, List.map_append, d5]
    simp only [List.cons_append, List.nil_append, List.cons.injEq, and_true]
    refine ⟨?_, ?_, ?_, ?_, ?_, ?_, ?_, ?_⟩ <;> omega
  | [a, b, c, d] => by
    have ha := a.toNat_lt
    have hb := b.toNat_lt
    have hc := c.toNat_lt
    have hd := d.toNat_lt
    have z0 : (0 : UInt8).toNat = 0 := rfl
    simp only [bits_cons]
    simp only [Spec.bits, List.flatMap_nil, Spec.byteBits, List.cons_append, List.nil_append, List.append_nil, g5, g2]
    rw [b32Digits, List.map_take, d5, z0]
    simp only [List.take_succ_cons, List.take_zero, List.cons.injEq, and_true]
    refine ⟨?_, ?_, ?_, ?_, ?_, ?_, ?_⟩ <;> omega
  | [a, b, c] => by
    have ha := a.toNat_lt
    have hb := b.toNat_lt
    have hc := c.toNat_lt
    have z0 : (0 : UInt8).toNat = 0 := rfl
    simp only [bits_cons]
    simp only [Spec.bits, List.flatMap_nil, Spec.byteBits, List.cons_append, List.nil_append, List.append_nil, g5, g4]
    rw [b32Digits, List.map_take, d5, z0]
    simp only [List.take_succ_cons, List.take_zero, List.cons.injEq, and_true]
    refine ⟨?_, ?_, ?_, ?_, ?_⟩ <;> omega
  | [a, b] => by
    have ha := a.toNat_lt
    have hb := b.toNat_lt
    have z0 : (0 : UInt8).toNat = 0 := rfl
    simp only [bits_cons]
    simp only [Spec.bits, List.flatMap_nil, Spec.byteBits, List.cons_append, List.nil_append, List.append_nil, g5, g1]
    rw [b32Digits, List.map_take, d5, z0]
    simp only [List.take_succ_cons, List.take_zero, List.cons.injEq, and_true]
    refine ⟨?_, ?_, ?_, ?_⟩ <;> omega
  | [a] => by
    have ha := a.toNat_lt
    have z0 : (0 : UInt8).toNat = 0 := rfl
    simp only [bits_cons]
    simp only [Spec.bits, List.flatMap_nil, Spec.byteBits, List.cons_append, List.nil_append, List.append_nil, g5, g3]
    rw [b32Digits, List.map_take, d5, z0]
    simp only [List.take_succ_cons, List.take_zero, List.cons.injEq, and_true]
    refine ⟨?_, ?_⟩ <;> omega
  | [] => by simp [Spec.bits, Spec.groups_nil, b32Digits]

theorem b32Encode_eq (d : Bytes) (h0 : d ≠ []) (h1 : (8 * d.length + 4) / 5 ≤ maxBuffer) :
    base32Encode (some d) = .ok (Spec.base32 d) := by
  have hlen : 0 < d.length := List.length_pos_iff.2 h0
  rw [maxBuffer_val] at h1
  have he := enclen d.length (by omega)
  have hcan : canAlloc (b32EncodeLength (UInt64.ofNat d.length)) = true := by
    rw [canAlloc_iff, he, maxBuffer_val]; omega
  simp only [base32Encode, hcan, Bool.not_true, Bool.false_eq_true, if_false, b32EncodeAll_eq, he]
  have hl := b32Digits_length d
  have : memWrite (List.replicate ((8 * d.length + 4) / 5) 0) 0 (b32Digits d) = .ok (b32Digits d) := by
    unfold memWrite
    rw [if_pos (by simp; omega)]
    simp; omega
  rw [this]
  simp only [Res.bind_ok, b32EncodeMap_eq _ (b32Digits_lt d)]
  rw [chars_eq _ (b32Digits_lt d), Spec.base32, b32Groups]

theorem b32Decode_spec (d : Bytes) (h0 : d ≠ []) (h1 : (8 * d.length + 4) / 5 ≤ maxBuffer) :
    base32Decode (some (Spec.base32 d)) = .ok d := by
  have hlen : 0 < d.length := List.length_pos_iff.2 h0
  rw [maxBuffer_val] at h1
  have hl := b32Digits_length d
  have hs : Spec.base32 d = (b32Digits d).map (fun c => b32Alphabet.getD c.toNat 0) := by
    rw [chars_eq _ (b32Digits_lt d), Spec.base32, b32Groups]
  have hsl : (Spec.base32 d).length = (8 * d.length + 4) / 5 := by rw [hs, List.length_map, hl]
  have hc : bufCopy (some (Spec.base32 d)) = some (Spec.base32 d) := by
    simp only [bufCopy]
    rw [bufCreate_eq (by unfold Fits; omega), if_pos (by rw [maxBuffer_val]; omega)]
  have hd := declen (b32Digits d).length (by omega)
  have hd' : 5 * (b32Digits d).length / 8 = d.length := by rw [hl]; omega
  rw [hd'] at hd
  have hne : ¬ b32DecodeLength (UInt64.ofNat (b32Digits d).length) = 0 := by
    intro h; rw [h] at hd; simp at hd; omega
  have hp1 : (b32DecodeLength (UInt64.ofNat (b32Digits d).length) + 1).toNat = d.length + 1 := by
    rw [UInt64.toNat_add, hd]; have : (1 : UInt64).toNat = 1 := rfl
    rw [this, Nat.mod_eq_of_lt (by omega)]
  have hcan : canAlloc (b32DecodeLength (UInt64.ofNat (b32Digits d).length) + 1) = true := by
    rw [canAlloc_iff, hp1, maxBuffer_val]; omega
  simp only [base32Decode, hc]
  rw [hs, b32Unmap_map _ (b32Digits_lt d)]
  simp only [hcan, Bool.not_true, Bool.false_eq_true, if_false, if_neg hne, b32DecodeAll_digits, hp1, hd]
  have : memWrite (List.replicate (d.length + 1) 0) 0 d = .ok (d ++ [0]) := by
    unfold memWrite
    rw [if_pos (by simp)]
    simp
  rw [this]
  simp [Res.bind_ok]

/-! ### decoding arbitrary text -/

theorem b32ReverseMap_facts : ∀ n : Fin 256, (b32ReverseMap.getD n.val 255 ≠ 255 ↔ UInt8.ofNat n.val ∈ b32Alphabet) ∧
    (b32ReverseMap.getD n.val 255 ≠ 255 → (b32ReverseMap.getD n.val 255).toNat < 32) := by decide +kernel

theorem b32Unmap_iff : ∀ t : Bytes, (∀ c ∈ t, c ∈ b32Alphabet) ∧ (∃ u, b32Unmap t = some u ∧ u.length = t.length ∧ ∀ c ∈ u, c.toNat < 32) ∨
    (∃ c ∈ t, c ∉ b32Alphabet) ∧ b32Unmap t = none := by
  intro t
  induction t with
  | nil => exact Or.inl ⟨by simp, [], rfl, rfl, by simp⟩
  | cons c cs ih =>
    obtain ⟨f1, f2⟩ := b32ReverseMap_facts ⟨c.toNat, c.toNat_lt⟩
    simp only [UInt8.ofNat_toNat] at f1 f2
    simp only [b32Unmap]
    by_cases hm : b32ReverseMap.getD c.toNat 255 = 255
    · have : c ∉ b32Alphabet := fun h => (f1.2 h) hm
      exact Or.inr ⟨⟨c, by simp, this⟩, by rw [if_pos hm]⟩
    · rcases ih with ⟨h1, u, h2, h3, h4⟩ | ⟨⟨x, hx, hx'⟩, h2⟩
      · refine Or.inl ⟨?_, b32ReverseMap.getD c.toNat 255 :: u, ?_, by simp [h3], ?_⟩
        · intro x hx
          rcases List.mem_cons.1 hx with rfl | hx
          · exact f1.1 hm
          · exact h1 x hx
        · rw [if_neg hm, h2]; simp
        · intro x hx
          rcases List.mem_cons.1 hx with rfl | hx
          · exact f2 hm
          · exact h4 x hx
      · exact Or.inr ⟨⟨x, by simp [hx], hx'⟩, by rw [if_neg hm, h2]; simp⟩

theorem b32Pack8_some : ∀ (u : Bytes) (acc : UInt64), (∀ c ∈ u, c.toNat < 32) → ∃ v, b32Pack8 u acc = some v := by
  intro u
  induction u with
  | nil => intro acc _; exact ⟨acc, rfl⟩
  | cons c cs ih =>
    intro acc h
    rw [b32Pack8_step c (h c (by simp))]
    exact ih _ (fun x hx => h x (by simp [hx]))

theorem b32Out5_length (k : Nat) (x : UInt64) : (b32Out5 k x).length = k := by
  induction k with
  | zero => rfl
  | succ k ih => simp [b32Out5, ih]

theorem b32DecodeBlock_some (u : Bytes) (h : ∀ c ∈ u, c.toNat < 32) : ∃ o, b32DecodeBlock u = some o ∧ o.length = 5 := by
  obtain ⟨v, hv⟩ := b32Pack8_some u 0 h
  exact ⟨b32Out5 5 v, by simp [b32DecodeBlock, hv], b32Out5_length 5 v⟩

theorem b32DecodeAll_some (n : Nat) : ∀ u : Bytes, u.length ≤ n → (∀ c ∈ u, c.toNat < 32) →
    ∃ o, b32DecodeAll u = some o ∧ o.length = 5 * u.length / 8 := by
  induction n with
  | zero =>
    intro u hu _
    have : u = [] := List.eq_nil_of_length_eq_zero (by omega)
    subst this
    exact ⟨[], b32DecodeAll_digits [], rfl⟩
  | succ n ih =>
    intro u hu h
    by_cases h8 : 8 ≤ u.length
    · match u, h8, hu, h with
      | a :: b :: c :: d :: e :: f :: g :: i :: rest, _, hu, h =>
        obtain ⟨o, ho, hol⟩ := b32DecodeBlock_some [a, b, c, d, e, f, g, i] (fun x hx => h x (by
          simp only [List.mem_cons, List.not_mem_nil, or_false] at hx ⊢
          rcases hx with h | h | h | h | h | h | h | h <;> simp [h]))
        obtain ⟨o2, h1, h2⟩ := ih rest (by simp at hu; omega) (fun x hx => h x (by simp [hx]))
        refine ⟨o ++ o2, ?_, ?_⟩
        · rw [b32DecodeAll]; simp [ho, h1]
        · simp only [List.length_append, hol, h2, List.length_cons]; omega
    · have hr : b32DecodeAll u = (b32DecodeBlock (u ++ List.replicate (8 - u.length) 0)).map
          (List.take (b32DecodeLength (UInt64.ofNat u.length)).toNat) := by
        rw [b32DecodeAll.eq_def]
        split
        · simp at h8
        · rfl
      obtain ⟨o, ho, hol⟩ := b32DecodeBlock_some (u ++ List.replicate (8 - u.length) 0) (by
        intro x hx
        rcases List.mem_append.1 hx with hx | hx
        · exact h x hx
        · rw [List.eq_of_mem_replicate hx]; decide)
      refine ⟨o.take (5 * u.length / 8), ?_, ?_⟩
      · rw [hr, ho, declen _ (by omega)]; rfl
      · rw [List.length_take, hol]; omega

end Wickr
