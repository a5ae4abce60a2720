import Verif.Model.Hex
import Verif.Model.Base32
import Verif.Spec.BaseN
import Verif.Lemmas.Buffer
set_option linter.unusedSimpArgs false
namespace Wickr

theorem forall_u8 {P : UInt8 → Prop} (h : ∀ n : Fin 256, P (UInt8.ofNat n.val)) (a : UInt8) : P a := by
  have := h ⟨a.toNat, a.toNat_lt⟩
  simpa using this

theorem Res.bind_ok {α β : Type} (a : α) (f : α → Res β) : (Res.ok a).bind f = f a := rfl

/-! ### groups -/
namespace Spec

theorem groupsAux_fuel (k : Nat) (hk : 1 ≤ k) : ∀ (f g : Nat) (l : List Nat), l.length ≤ f → l.length ≤ g →
    groupsAux k f l = groupsAux k g l := by
  intro f
  induction f with
  | zero =>
    intro g l hf hg
    have : l = [] := List.eq_nil_of_length_eq_zero (by omega)
    subst this
    cases g <;> rfl
  | succ f ih =>
    intro g l hf hg
    cases l with
    | nil => cases g <;> rfl
    | cons x xs =>
      cases g with
      | zero => simp at hg
      | succ g =>
        simp only [groupsAux]
        rw [ih g _ (by simp at *; omega) (by simp at *; omega)]

theorem groups_nil (k : Nat) : groups k [] = [] := rfl

theorem groups_step (k : Nat) (hk : 1 ≤ k) (l : List Nat) (hl : l ≠ []) :
    groups k l = bitsVal (l.take k ++ List.replicate (k - l.length) 0) :: groups k (l.drop k) := by
  cases l with
  | nil => exact absurd rfl hl
  | cons x xs =>
    unfold groups
    simp only [List.length_cons, groupsAux]
    rw [groupsAux_fuel k hk xs.length ((x :: xs).drop k).length _ (by simp; omega) (Nat.le_refl _)]

end Spec

/-! ### base64 -/

theorem strlen_append (t junk : Bytes) (h : ∀ c ∈ t, c ≠ 0) : strlen (t ++ 0 :: junk) = .ok t.length := by
  induction t with
  | nil => simp [strlen]
  | cons x xs ih =>
    have hx : x ≠ 0 := h x (by simp)
    simp only [List.cons_append, strlen, if_neg hx]
    rw [ih (fun c hc => h c (by simp [hc]))]
    rfl

theorem b64Enc_facts : ∀ n : Fin 64,
    b64Enc (UInt8.ofNat n.val) ≠ 0 ∧ b64Enc (UInt8.ofNat n.val) ≠ 61 ∧ b64Enc (UInt8.ofNat n.val) < 128 ∧
    b64DecTable.getD (b64Enc (UInt8.ofNat n.val)).toNat (-2) = (n.val : Int) ∧
    Spec.charAt Spec.rfc4648 n.val = b64Enc (UInt8.ofNat n.val) := by decide +kernel

theorem b64Enc_facts' (v : UInt8) (hv : v.toNat < 64) :
    b64Enc v ≠ 0 ∧ b64Enc v ≠ 61 ∧ b64Enc v < 128 ∧
    b64DecTable.getD (b64Enc v).toNat (-2) = (v.toNat : Int) ∧
    Spec.charAt Spec.rfc4648 v.toNat = b64Enc v := by
  have := b64Enc_facts ⟨v.toNat, hv⟩
  simpa using this

theorem b64Loop_val (v : UInt8) (hv : v.toNat < 64) (rest : Bytes) (n i j : Nat) (out : Bytes) :
    b64Loop (b64Enc v :: rest) (n + 1) i j out =
      (b64Put v i j out).bind fun (j', out') => b64Loop rest n (i + 1) j' out' := by
  obtain ⟨h0, h1, h2, h3, _⟩ := b64Enc_facts' v hv
  rw [b64Loop.eq_def]
  simp only [Nat.add_sub_cancel]
  rw [if_neg (by simp [h0]), if_neg h1, if_neg (by simpa using h2), h3]
  rw [if_neg (by omega), if_neg (by omega)]
  simp

theorem storeByte_at (done ts : Bytes) (x v : UInt8) :
    storeByte (done ++ x :: ts) done.length v = .ok (done ++ v :: ts) := by
  simp [storeByte, List.set_append_right]

theorem storeByte_at1 (done ts : Bytes) (x y v : UInt8) :
    storeByte (done ++ x :: y :: ts) (done.length + 1) v = .ok (done ++ x :: v :: ts) := by
  have := storeByte_at (done ++ [x]) ts y v
  simpa using this

theorem orByte_at (done ts : Bytes) (x v : UInt8) :
    orByte (done ++ x :: ts) done.length v = .ok (done ++ (x ||| v) :: ts) := by
  simp [orByte, List.set_append_right]

theorem or_hi (a : UInt8) : (a >>> 2) <<< 2 ||| (a &&& 3) = a :=
  forall_u8 (P := fun a => (a >>> 2) <<< 2 ||| (a &&& 3) = a) (by decide +kernel) a
theorem or_mid (a : UInt8) : (a >>> 4) <<< 4 ||| (a &&& 15) = a :=
  forall_u8 (P := fun a => (a >>> 4) <<< 4 ||| (a &&& 15) = a) (by decide +kernel) a
theorem or_lo (a : UInt8) : (a >>> 6) <<< 6 ||| (a &&& 63) = a :=
  forall_u8 (P := fun a => (a >>> 6) <<< 6 ||| (a &&& 63) = a) (by decide +kernel) a

theorem u8_shr (a : UInt8) (k : Nat) (hk : k < 8) : (a >>> UInt8.ofNat k).toNat = a.toNat / 2 ^ k := by
  rw [UInt8.toNat_shiftRight, Nat.shiftRight_eq_div_pow]
  congr 2
  simp; omega

theorem u8_and3 (a : UInt8) : (a &&& 3).toNat = a.toNat % 4 := by
  rw [UInt8.toNat_and]; exact Nat.and_two_pow_sub_one_eq_mod a.toNat 2
theorem u8_and15 (a : UInt8) : (a &&& 15).toNat = a.toNat % 16 := by
  rw [UInt8.toNat_and]; exact Nat.and_two_pow_sub_one_eq_mod a.toNat 4
theorem u8_and63 (a : UInt8) : (a &&& 63).toNat = a.toNat % 64 := by
  rw [UInt8.toNat_and]; exact Nat.and_two_pow_sub_one_eq_mod a.toNat 6

theorem c0_val (a : UInt8) : (a >>> 2).toNat = a.toNat / 4 := u8_shr a 2 (by omega)
theorem sh4_val (a : UInt8) : (a >>> 4).toNat = a.toNat / 16 := u8_shr a 4 (by omega)
theorem sh6_val (a : UInt8) : (a >>> 6).toNat = a.toNat / 64 := u8_shr a 6 (by omega)
theorem shl4_and3 (a : UInt8) : ((a &&& 3) <<< 4).toNat = a.toNat % 4 * 16 := by
  rw [UInt8.toNat_shiftLeft, u8_and3, Nat.shiftLeft_eq]
  have : (4 : UInt8).toNat % 8 = 4 := rfl
  rw [this]; omega
theorem shl2_and15 (a : UInt8) : ((a &&& 15) <<< 2).toNat = a.toNat % 16 * 4 := by
  rw [UInt8.toNat_shiftLeft, u8_and15, Nat.shiftLeft_eq]
  have : (2 : UInt8).toNat % 8 = 2 := rfl
  rw [this]; omega
theorem c1_val (a b : UInt8) : (((a &&& 3) <<< 4) + (b >>> 4)).toNat = a.toNat % 4 * 16 + b.toNat / 16 := by
  rw [UInt8.toNat_add, shl4_and3, sh4_val]
  have := b.toNat_lt; omega
theorem c2_val (a b : UInt8) : (((a &&& 15) <<< 2) + (b >>> 6)).toNat = a.toNat % 16 * 4 + b.toNat / 64 := by
  rw [UInt8.toNat_add, shl2_and15, sh6_val]
  have := b.toNat_lt; omega

theorem byte_a (a b : UInt8) : (a >>> 2) <<< 2 ||| (((a &&& 3) <<< 4) + (b >>> 4)) >>> 4 = a := by
  have : (((a &&& (3 : UInt8)) <<< (4 : UInt8)) + (b >>> (4 : UInt8))) >>> (4 : UInt8) = a &&& (3 : UInt8) := by
    apply UInt8.toNat_inj.1
    rw [sh4_val, c1_val, u8_and3]
    have := b.toNat_lt; omega
  rw [this]; exact or_hi a
theorem byte_b (a b c : UInt8) :
    ((((a &&& 3) <<< 4) + (b >>> 4)) &&& 15) <<< 4 ||| (((b &&& 15) <<< 2) + (c >>> 6)) >>> 2 = b := by
  have e1 : (((a &&& 3) <<< 4) + (b >>> 4)) &&& (15 : UInt8) = b >>> 4 := by
    apply UInt8.toNat_inj.1
    rw [u8_and15, c1_val, sh4_val]
    have := b.toNat_lt; omega
  have e2 : (((b &&& (15 : UInt8)) <<< (2 : UInt8)) + (c >>> (6 : UInt8))) >>> (2 : UInt8) = b &&& (15 : UInt8) := by
    apply UInt8.toNat_inj.1
    rw [c0_val, c2_val, u8_and15]
    have := c.toNat_lt; omega
  rw [e1, e2]; exact or_mid b
theorem byte_c (b c : UInt8) :
    ((((b &&& 15) <<< 2) + (c >>> 6)) &&& 3) <<< 6 ||| (c &&& 63) = c := by
  have e1 : (((b &&& 15) <<< 2) + (c >>> 6)) &&& (3 : UInt8) = c >>> 6 := by
    apply UInt8.toNat_inj.1
    rw [u8_and3, c2_val, sh6_val]
    have := c.toNat_lt; omega
  rw [e1]; exact or_lo c

theorem b64Loop_decode (m : Nat) : ∀ (d : Bytes), d.length ≤ m →
    ∀ (junk done ts : Bytes) (i : Nat), i % 4 = 0 → (b64Text d).length ≤ ts.length →
    ∃ i' ts', b64Loop (b64Text d ++ 0 :: junk) (b64Text d).length i done.length (done ++ ts) =
      .ok ⟨0, i', done.length + d.length, done ++ d ++ ts'⟩ := by
  induction m with
  | zero =>
    intro d hd junk done ts i hi hts
    have : d = [] := List.eq_nil_of_length_eq_zero (by omega)
    subst this
    exact ⟨i, ts, by simp [b64Text, b64Loop]⟩
  | succ m ih =>
    intro d hd junk done ts i hi hts
    match d, hd, hts with
    | [], _, _ => exact ⟨i, ts, by simp [b64Text, b64Loop]⟩
    | [a], _, hts =>
      match ts, hts with
      | t0 :: t1 :: ts, _ =>
        simp only [b64Text, List.cons_append, List.length_cons, List.length_nil, List.nil_append]
        have ha := a.toNat_lt
        rw [b64Loop_val _ (by rw [c0_val]; omega)]
        rw [show b64Put (a >>> 2) i done.length (done ++ t0 :: t1 :: ts) = .ok (done.length, done ++ ((a >>> 2) <<< 2) :: t1 :: ts) by
          simp [b64Put, hi, storeByte_at, Res.bind]]
        simp only [Res.bind_ok]
        rw [b64Loop_val _ (by rw [shl4_and3]; omega)]
        rw [show b64Put ((a &&& 3) <<< 4) (i + 1) done.length (done ++ ((a >>> 2) <<< 2) :: t1 :: ts) =
            .ok (done.length + 1, done ++ a :: ((((a &&& 3) <<< 4) &&& 15) <<< 4) :: ts) by
          have h1 : (i + 1) % 4 = 1 := by omega
          have hb := byte_a a 0
          have hz : (a &&& 3) <<< 4 + (0 : UInt8) >>> 4 = (a &&& 3) <<< 4 := by
            have : (0 : UInt8) >>> 4 = 0 := by decide
            rw [this]; simp
          rw [hz] at hb
          simp [b64Put, h1, orByte_at, Res.bind, hb, storeByte_at1]]
        simp only [Res.bind_ok]
        refine ⟨i + 1 + 1, ((((a &&& 3) <<< 4) &&& 15) <<< 4) :: ts, ?_⟩
        rw [b64Loop.eq_def]
        simp only [Nat.add_sub_cancel]
        have h2 : ¬ (i + 1 + 1) % 4 = 1 := by omega
        simp only [show ¬ ((61 : UInt8) = 0 ∨ 1 + 1 = 0) by decide, if_false, if_true, h2, and_false]
        rw [b64Loop.eq_def]
        simp only [show ¬ ((61 : UInt8) = 0 ∨ 1 = 0) by decide, if_false, if_true, h2, and_false]
        rw [b64Loop.eq_def]
        simp
    | [a, b], _, hts =>
      match ts, hts with
      | t0 :: t1 :: t2 :: ts, _ =>
        simp only [b64Text, List.cons_append, List.length_cons, List.length_nil, List.nil_append]
        have ha := a.toNat_lt
        have hb := b.toNat_lt
        rw [b64Loop_val _ (by rw [c0_val]; omega)]
        rw [show b64Put (a >>> 2) i done.length (done ++ t0 :: t1 :: t2 :: ts) = .ok (done.length, done ++ ((a >>> 2) <<< 2) :: t1 :: t2 :: ts) by
          simp [b64Put, hi, storeByte_at, Res.bind]]
        simp only [Res.bind_ok]
        rw [b64Loop_val _ (by rw [c1_val]; omega)]
        rw [show b64Put (((a &&& 3) <<< 4) + (b >>> 4)) (i + 1) done.length (done ++ ((a >>> 2) <<< 2) :: t1 :: t2 :: ts) =
            .ok (done.length + 1, done ++ a :: (((((a &&& 3) <<< 4) + (b >>> 4)) &&& 15) <<< 4) :: t2 :: ts) by
          have h1 : (i + 1) % 4 = 1 := by omega
          simp [b64Put, h1, orByte_at, Res.bind, byte_a, storeByte_at1]]
        simp only [Res.bind_ok]
        rw [b64Loop_val _ (by rw [shl2_and15]; omega)]
        rw [show b64Put ((b &&& 15) <<< 2) (i + 1 + 1) (done.length + 1) (done ++ a :: (((((a &&& 3) <<< 4) + (b >>> 4)) &&& 15) <<< 4) :: t2 :: ts) =
            .ok (done.length + 2, done ++ a :: b :: ((((b &&& 15) <<< 2) &&& 3) <<< 6) :: ts) by
          have h1 : (i + 1 + 1) % 4 = 2 := by omega
          have hb := byte_b a b 0
          have hz : (b &&& 15) <<< 2 + (0 : UInt8) >>> 6 = (b &&& 15) <<< 2 := by
            have : (0 : UInt8) >>> 6 = 0 := by decide
            rw [this]; simp
          rw [hz] at hb
          have e1 := orByte_at (done ++ [a]) (t2 :: ts) (((((a &&& 3) <<< 4) + (b >>> 4)) &&& 15) <<< 4) (((b &&& 15) <<< 2) >>> 2)
          rw [hb] at e1
          have e2 := storeByte_at1 (done ++ [a]) ts b t2 ((((b &&& 15) <<< 2) &&& 3) <<< 6)
          simp only [List.length_append, List.length_cons, List.length_nil, List.append_assoc, List.cons_append, List.nil_append, Nat.zero_add] at e1 e2
          simp [b64Put, h1, Res.bind, e1, e2]]
        simp only [Res.bind_ok]
        refine ⟨i + 1 + 1 + 1, ((((b &&& 15) <<< 2) &&& 3) <<< 6) :: ts, ?_⟩
        rw [b64Loop.eq_def]
        have h2 : ¬ (i + 1 + 1 + 1) % 4 = 1 := by omega
        simp only [show ¬ ((61 : UInt8) = 0 ∨ 1 = 0) by decide, if_false, if_true, h2, and_false]
        rw [b64Loop.eq_def]
        simp
    | a :: b :: c :: rest, hd, hts =>
      match ts, hts with
      | t0 :: t1 :: t2 :: ts, hts =>
        simp only [b64Text, List.cons_append, List.length_cons] at hts ⊢
        have ha := a.toNat_lt
        have hb := b.toNat_lt
        have hc := c.toNat_lt
        rw [b64Loop_val _ (by rw [c0_val]; omega)]
        rw [show b64Put (a >>> 2) i done.length (done ++ t0 :: t1 :: t2 :: ts) = .ok (done.length, done ++ ((a >>> 2) <<< 2) :: t1 :: t2 :: ts) by
          simp [b64Put, hi, storeByte_at, Res.bind]]
        simp only [Res.bind_ok]
        rw [b64Loop_val _ (by rw [c1_val]; omega)]
        rw [show b64Put (((a &&& 3) <<< 4) + (b >>> 4)) (i + 1) done.length (done ++ ((a >>> 2) <<< 2) :: t1 :: t2 :: ts) =
            .ok (done.length + 1, done ++ a :: (((((a &&& 3) <<< 4) + (b >>> 4)) &&& 15) <<< 4) :: t2 :: ts) by
          have h1 : (i + 1) % 4 = 1 := by omega
          simp [b64Put, h1, orByte_at, Res.bind, byte_a, storeByte_at1]]
        simp only [Res.bind_ok]
        rw [b64Loop_val _ (by rw [c2_val]; omega)]
        rw [show b64Put (((b &&& 15) <<< 2) + (c >>> 6)) (i + 1 + 1) (done.length + 1) (done ++ a :: (((((a &&& 3) <<< 4) + (b >>> 4)) &&& 15) <<< 4) :: t2 :: ts) =
            .ok (done.length + 2, done ++ a :: b :: (((((b &&& 15) <<< 2) + (c >>> 6)) &&& 3) <<< 6) :: ts) by
          have h1 : (i + 1 + 1) % 4 = 2 := by omega
          have e1 := orByte_at (done ++ [a]) (t2 :: ts) (((((a &&& 3) <<< 4) + (b >>> 4)) &&& 15) <<< 4) ((((b &&& 15) <<< 2) + (c >>> 6)) >>> 2)
          rw [byte_b] at e1
          have e2 := storeByte_at1 (done ++ [a]) ts b t2 (((((b &&& 15) <<< 2) + (c >>> 6)) &&& 3) <<< 6)
          simp only [List.length_append, List.length_cons, List.length_nil, List.append_assoc, List.cons_append, List.nil_append, Nat.zero_add] at e1 e2
          simp [b64Put, h1, Res.bind, e1, e2]]
        simp only [Res.bind_ok]
        rw [b64Loop_val _ (by rw [u8_and63]; omega)]
        rw [show b64Put (c &&& 63) (i + 1 + 1 + 1) (done.length + 2) (done ++ a :: b :: (((((b &&& 15) <<< 2) + (c >>> 6)) &&& 3) <<< 6) :: ts) =
            .ok (done.length + 3, done ++ a :: b :: c :: ts) by
          have h1 : (i + 1 + 1 + 1) % 4 = 3 := by omega
          have e1 := orByte_at (done ++ [a, b]) ts (((((b &&& 15) <<< 2) + (c >>> 6)) &&& 3) <<< 6) (c &&& 63)
          rw [byte_c] at e1
          simp only [List.length_append, List.length_cons, List.length_nil, List.append_assoc, List.cons_append, List.nil_append, Nat.zero_add] at e1
          simp [b64Put, h1, Res.bind, e1]]
        simp only [Res.bind_ok]
        obtain ⟨i', ts', h⟩ := ih rest (by simp at hd; omega) junk (done ++ [a, b, c]) ts (i + 1 + 1 + 1 + 1) (by omega) (by omega)
        refine ⟨i', ts', ?_⟩
        simp only [List.length_append, List.length_cons, List.length_nil, List.append_assoc, List.cons_append, List.nil_append] at h
        rw [show done.length + 3 = done.length + (0 + 1 + 1 + 1) by omega, h]
        simp; omega

theorem b64Text_length : ∀ (d : Bytes), (b64Text d).length = (d.length + 2) / 3 * 4
  | [] => rfl
  | [_] => by simp [b64Text]
  | [_, _] => by simp [b64Text]
  | a :: b :: c :: rest => by
    simp only [b64Text, List.length_cons, b64Text_length rest]; omega

theorem b64Text_nonzero : ∀ (d : Bytes), ∀ x ∈ b64Text d, x ≠ 0
  | [] => by simp [b64Text]
  | [a] => by
    have ha := a.toNat_lt
    intro x hx
    simp only [b64Text, List.mem_cons, List.not_mem_nil, or_false] at hx
    rcases hx with rfl | rfl | rfl | rfl
    · exact (b64Enc_facts' _ (by rw [c0_val]; omega)).1
    · exact (b64Enc_facts' _ (by rw [shl4_and3]; omega)).1
    · decide
    · decide
  | [a, b] => by
    have ha := a.toNat_lt
    have hb := b.toNat_lt
    intro x hx
    simp only [b64Text, List.mem_cons, List.not_mem_nil, or_false] at hx
    rcases hx with rfl | rfl | rfl | rfl
    · exact (b64Enc_facts' _ (by rw [c0_val]; omega)).1
    · exact (b64Enc_facts' _ (by rw [c1_val]; omega)).1
    · exact (b64Enc_facts' _ (by rw [shl2_and15]; omega)).1
    · decide
  | a :: b :: c :: rest => by
    have ha := a.toNat_lt
    have hb := b.toNat_lt
    have hc := c.toNat_lt
    intro x hx
    simp only [b64Text, List.mem_cons] at hx
    rcases hx with rfl | rfl | rfl | rfl | hx
    · exact (b64Enc_facts' _ (by rw [c0_val]; omega)).1
    · exact (b64Enc_facts' _ (by rw [c1_val]; omega)).1
    · exact (b64Enc_facts' _ (by rw [c2_val]; omega)).1
    · exact (b64Enc_facts' _ (by rw [u8_and63]; omega)).1
    · exact b64Text_nonzero rest x hx

theorem bits_cons (a : UInt8) (r : Bytes) : Spec.bits (a :: r) = Spec.byteBits a ++ Spec.bits r := by
  simp [Spec.bits]

theorem b64Groups : ∀ (d : Bytes), (Spec.groups 6 (Spec.bits d)).length % 4 = (if d.length % 3 = 0 then 0 else d.length % 3 + 1) ∧
    (Spec.groups 6 (Spec.bits d)).map (Spec.charAt Spec.rfc4648) ++ List.replicate ((4 - (if d.length % 3 = 0 then 0 else d.length % 3 + 1)) % 4) 61 = b64Text d
  | [] => by simp [Spec.bits, Spec.groups, Spec.groupsAux, b64Text]
  | [a] => by
    have ha := a.toNat_lt
    rw [bits_cons]
    simp only [Spec.bits, Spec.byteBits, List.flatMap_nil, List.append_nil]
    rw [Spec.groups_step 6 (by omega) _ (by simp)]
    simp only [List.drop_succ_cons, List.drop_zero]
    rw [Spec.groups_step 6 (by omega) _ (by simp)]
    simp only [List.drop_succ_cons, List.drop_nil, Spec.groups_nil, List.drop_zero]
    refine ⟨by simp, ?_⟩
    simp only [b64Text]
    rw [← (b64Enc_facts' (a >>> 2) (by rw [c0_val]; omega)).2.2.2.2, ← (b64Enc_facts' ((a &&& 3) <<< 4) (by rw [shl4_and3]; omega)).2.2.2.2, c0_val, shl4_and3]
    simp only [List.take_succ_cons, List.take_zero, Spec.bitsVal, List.foldl_cons, List.foldl_nil, List.map_cons, List.map_nil, List.length_cons, List.length_nil, List.cons_append, List.nil_append, List.replicate, List.take_nil]
    congr 1
    · congr 1; simp; omega
    · congr 1
      · congr 1; simp; omega
  | [a, b] => by
    have ha := a.toNat_lt
    have hb := b.toNat_lt
    rw [bits_cons, bits_cons]
    simp only [Spec.bits, Spec.byteBits, List.flatMap_nil, List.append_nil, List.cons_append, List.nil_append]
    rw [Spec.groups_step 6 (by omega) _ (by simp)]
    simp only [List.drop_succ_cons, List.drop_zero]
    rw [Spec.groups_step 6 (by omega) _ (by simp)]
    simp only [List.drop_succ_cons, List.drop_zero]
    rw [Spec.groups_step 6 (by omega) _ (by simp)]
    simp only [List.drop_succ_cons, List.drop_nil, Spec.groups_nil, List.drop_zero]
    refine ⟨by simp, ?_⟩
    simp only [b64Text]
    rw [← (b64Enc_facts' (a >>> 2) (by rw [c0_val]; omega)).2.2.2.2, ← (b64Enc_facts' _ (show (((a &&& 3) <<< 4) + (b >>> 4)).toNat < 64 by rw [c1_val]; omega)).2.2.2.2,
      ← (b64Enc_facts' ((b &&& 15) <<< 2) (by rw [shl2_and15]; omega)).2.2.2.2, c0_val, c1_val, shl2_and15]
    simp only [List.take_succ_cons, List.take_zero, Spec.bitsVal, List.foldl_cons, List.foldl_nil, List.map_cons, List.map_nil, List.length_cons, List.length_nil, List.cons_append, List.nil_append, List.replicate, List.take_nil]
    congr 1
    · congr 1; simp; omega
    · congr 1
      · congr 1; simp; omega
      · congr 1
        · congr 1; simp; omega
  | a :: b :: c :: rest => by
    have ha := a.toNat_lt
    have hb := b.toNat_lt
    have hc := c.toNat_lt
    obtain ⟨ih1, ih2⟩ := b64Groups rest
    rw [bits_cons, bits_cons, bits_cons]
    simp only [Spec.byteBits, List.cons_append, List.nil_append]
    rw [Spec.groups_step 6 (by omega) _ (by simp)]
    simp only [List.drop_succ_cons, List.drop_zero]
    rw [Spec.groups_step 6 (by omega) _ (by simp)]
    simp only [List.drop_succ_cons, List.drop_zero]
    rw [Spec.groups_step 6 (by omega) _ (by simp)]
    simp only [List.drop_succ_cons, List.drop_zero]
    rw [Spec.groups_step 6 (by omega) _ (by simp)]
    simp only [List.drop_succ_cons, List.drop_zero]
    have hl : (a :: b :: c :: rest).length % 3 = rest.length % 3 := by simp only [List.length_cons]; omega
    rw [hl]
    refine ⟨by rw [← ih1]; simp only [List.length_cons]; omega, ?_⟩
    simp only [b64Text]
    rw [← (b64Enc_facts' (a >>> 2) (by rw [c0_val]; omega)).2.2.2.2, ← (b64Enc_facts' _ (show (((a &&& 3) <<< 4) + (b >>> 4)).toNat < 64 by rw [c1_val]; omega)).2.2.2.2,
      ← (b64Enc_facts' _ (show (((b &&& 15) <<< 2) + (c >>> 6)).toNat < 64 by rw [c2_val]; omega)).2.2.2.2,
      ← (b64Enc_facts' (c &&& 63) (by rw [u8_and63]; omega)).2.2.2.2, c0_val, c1_val, c2_val, u8_and63]
    simp only [List.take_succ_cons, List.take_zero, Spec.bitsVal, List.foldl_cons, List.foldl_nil, List.map_cons, List.length_cons, List.length_nil, List.cons_append, List.nil_append]
    rw [ih2]
    have z : ∀ n, 6 - (n + 1 + 1 + 1 + 1 + 1 + 1) = 0 := by intro n; omega
    simp only [z, List.replicate, List.append_nil, List.foldl_cons, List.foldl_nil]
    congr 1
    · congr 1; omega
    · congr 1
      · congr 1; omega
      · congr 1
        · congr 1; omega
        · congr 1
          · congr 1; omega

theorem b64Text_spec (d : Bytes) : b64Text d = Spec.base64 d := by
  obtain ⟨h1, h2⟩ := b64Groups d
  unfold Spec.base64
  simp only [List.length_map, h1]
  exact h2.symm

end Wickr
