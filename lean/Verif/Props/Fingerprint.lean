import Verif.Model.Fingerprint
import Verif.Model.Toy
import Verif.Props.BaseN
import Verif.Lemmas.Identity
import Verif.Props.Engine
set_option linter.unusedSimpArgs false
/-
C45: fingerprints.  C62: their texts as C strings.
-/
namespace Wickr
open Spec

/-! ### Symmetry -/

theorem fpOrder_comm (f1 f2 : Bytes) : ∀ a b : Bytes, fpOrder f1 f2 a b = fpOrder f2 f1 b a
  | [], [] => rfl
  | [], _ :: _ => rfl
  | _ :: _, [] => rfl
  | x :: a, y :: b => by
    simp only [fpOrder]
    by_cases h : x = y
    · simp only [h, if_true, fpOrder_comm f1 f2 a b]
    · have h' : ¬ y = x := fun e => h e.symm
      simp only [h, h', if_false]
      have : x.toNat ≠ y.toNat := fun e => h (UInt8.toNat_inj.1 e)
      by_cases hg : x > y
      · have : ¬ y > x := by simp only [GT.gt, UInt8.lt_iff_toNat_lt] at *; omega
        simp [hg, this]
      · have : y > x := by simp only [GT.gt, UInt8.lt_iff_toNat_lt] at *; omega
        simp [hg, this]

/-- C45.  Whoever computes it, with whatever engine: the bilateral fingerprint of two identities is
the same. -/
theorem C45_bilateral_symmetric (E : Engine) (i j : Identity) : bilateralFp E i j = bilateralFp E j i := by
  have hc : ∀ a b, fpCombine E a b = fpCombine E b a := by
    intro a b
    unfold fpCombine
    rw [fpOrder_comm]
    by_cases h : a.length = b.length
    · simp [h]
    · have : ¬ b.length = a.length := fun e => h e.symm
      simp [h, this]
  unfold bilateralFp
  cases fpGen E i.key i.identifier <;> cases fpGen E j.key j.identifier <;> simp [hc]

/-- The greater of two texts in dictionary order. -/
def Spec.greater (a b : Bytes) : Bytes := if b < a then a else b
/-- The smaller one. -/
def Spec.smaller (a b : Bytes) : Bytes := if b < a then b else a

theorem fpOrder_lex (f1 f2 : Bytes) : ∀ a b : Bytes, a.length = b.length →
    fpOrder f1 f2 a b = if a = b then none else if b < a then concat2 (some f1) (some f2) else concat2 (some f2) (some f1)
  | [], [], _ => rfl
  | [], _ :: _, h => by simp at h
  | _ :: _, [], h => by simp at h
  | x :: a, y :: b, h => by
    have ih := fpOrder_lex f1 f2 a b (by simpa using h)
    simp only [fpOrder]
    by_cases hxy : x = y
    · subst hxy
      simp only [if_true, ih, List.cons.injEq, true_and, List.cons_lt_cons_iff]
      have : ¬ x < x := by simp [UInt8.lt_irrefl]
      simp [this]
    · have hyx : ¬ y = x := fun e => hxy e.symm
      have hlt : (y :: b < x :: a) ↔ y < x := by simp [List.cons_lt_cons_iff, hyx]
      simp only [hxy, if_false, List.cons.injEq, false_and, hlt, GT.gt]

/-- What a key contributes to a fingerprint: its public bytes, filled up with zeros to the largest
size of the curve. -/
def Spec.paddedPub (k : EcKey) : Bytes := k.pub ++ List.replicate (k.curve.maxPub - k.pub.length) 0

theorem ecKeyPubFixed_eq {k : EcKey} (h0 : 0 < k.pub.length) (h : k.pub.length ≤ k.curve.maxPub) :
    ecKeyPubFixed k = some (paddedPub k) ∧ (paddedPub k).length = 134 := by
  have hmb := maxBuffer_val
  have hm : k.curve.maxPub = 134 := by cases k.curve; rfl
  unfold ecKeyPubFixed paddedPub
  constructor
  · by_cases he : k.pub.length = k.curve.maxPub
    · rw [if_pos he, he, Nat.sub_self, dup_of ⟨h0, by omega⟩]; simp
    · rw [if_neg he, if_neg (by omega)]
  · simp only [List.length_append, List.length_replicate]; omega

/-- An identity that can have a fingerprint. -/
def Spec.Printable (i : Identity) : Prop :=
  i.identifier.length < 128 ∧ 0 < i.key.pub.length ∧ i.key.pub.length ≤ i.key.curve.maxPub

/-- C45, the value: SHA-512 of identifier and padded public key. -/
theorem C45_fingerprint_value (E : Engine) (i : Identity) (h : Printable i) :
    identityFp E i = E.digest (i.identifier ++ paddedPub i.key) none .sha512 := by
  have hmb := maxBuffer_val
  obtain ⟨h1, h2, h3⟩ := h
  obtain ⟨h4, h5⟩ := ecKeyPubFixed_eq h2 h3
  have hc : concat2 (some i.identifier) (some (paddedPub i.key)) = some (i.identifier ++ paddedPub i.key) := by
    rw [concat2_some]
    refine ⟨by simp [optBytes], ?_, ?_⟩ <;> simp only [List.length_append] <;> omega
  simp [identityFp, fpGen, h4, hc, fpDigest]

/-- C45, the value: the bilateral fingerprint of two identities with different fingerprints is the
SHA-512 of both, the greater one in dictionary order first. -/
theorem C45_bilateral_value (E : Engine) (hE : E.Lawful) (i j : Identity) (hi : Printable i) (hj : Printable j) :
    ∃ a b, identityFp E i = some a ∧ identityFp E j = some b ∧ a.length = 64 ∧ b.length = 64 ∧
      (a ≠ b → bilateralFp E i j = E.digest (greater a b ++ smaller a b) none .sha512 ∧ (bilateralFp E i j).isSome) ∧
      (a = b → bilateralFp E i j = none) := by
  have hmb := maxBuffer_val
  obtain ⟨a, ha, hal⟩ := hE.digest_len (i.identifier ++ paddedPub i.key) none .sha512
  obtain ⟨b, hb, hbl⟩ := hE.digest_len (j.identifier ++ paddedPub j.key) none .sha512
  have h64 : Digest.sha512.size = 64 := rfl
  rw [h64] at hal hbl
  have e1 := C45_fingerprint_value E i hi
  have e2 := C45_fingerprint_value E j hj
  rw [ha] at e1
  rw [hb] at e2
  have hcat : ∀ x y : Bytes, x.length = 64 → y.length = 64 → concat2 (some x) (some y) = some (x ++ y) := by
    intro x y hx hy
    rw [concat2_some]
    refine ⟨by simp [optBytes], ?_, ?_⟩ <;> simp only [List.length_append] <;> omega
  have hbi : bilateralFp E i j = fpCombine E a b := by
    unfold bilateralFp
    unfold identityFp at e1 e2
    simp [e1, e2]
  have hcmb : fpCombine E a b = (fpOrder a b a b).bind fun c => fpDigest E (some c) := by
    unfold fpCombine
    rw [if_neg (by omega)]
  refine ⟨a, b, e1, e2, hal, hbl, fun hne => ?_, fun he => ?_⟩
  · have : bilateralFp E i j = E.digest (greater a b ++ smaller a b) none .sha512 := by
      rw [hbi, hcmb, fpOrder_lex a b a b (by omega), if_neg hne]
      by_cases hl : b < a
      · simp [hl, hcat a b hal hbl, fpDigest, greater, smaller]
      · simp [hl, hcat b a hbl hal, fpDigest, greater, smaller]
    refine ⟨this, ?_⟩
    rw [this]
    obtain ⟨h, hh, _⟩ := hE.digest_len (greater a b ++ smaller a b) none .sha512
    simp [hh]
  · rw [hbi, hcmb, fpOrder_lex a b a b (by omega), if_pos he]; rfl

/-- C45: there is no bilateral fingerprint of an identity with itself, whatever the engine. -/
theorem C45_no_bilateral_with_itself (E : Engine) (i : Identity) : bilateralFp E i i = none := by
  unfold bilateralFp
  cases h : fpGen E i.key i.identifier with
  | none => rfl
  | some a =>
    simp only [Option.bind_some]
    unfold fpCombine
    rw [if_neg (by simp), fpOrder_lex a a a a rfl, if_pos rfl]; rfl

/-- C45, what a fingerprint vouches for: if SHA-512 does not collide on the two inputs, identities with
the same fingerprint have the same identifier and the same padded public key. -/
theorem C45_fingerprint_binds (E : Engine) (hE : E.Lawful) (i j : Identity) (hi : Printable i) (hj : Printable j)
    (hn : NoCollision E fun x => x = i.identifier ++ paddedPub i.key ∨ x = j.identifier ++ paddedPub j.key)
    (h : identityFp E i = identityFp E j) :
    i.identifier = j.identifier ∧ paddedPub i.key = paddedPub j.key := by
  rw [C45_fingerprint_value E i hi, C45_fingerprint_value E j hj] at h
  obtain ⟨a, ha, _⟩ := hE.digest_len (i.identifier ++ paddedPub i.key) none .sha512
  have := hn _ _ a (Or.inl rfl) (Or.inr rfl) ha (by rw [← h]; exact ha)
  have l1 := (ecKeyPubFixed_eq hi.2.1 hi.2.2).2
  have l2 := (ecKeyPubFixed_eq hj.2.1 hj.2.2).2
  have hl := congrArg List.length this
  simp only [List.length_append] at hl
  exact List.append_inj this (by omega)

/-- C45, the same for the bilateral fingerprint: it determines the unordered pair of fingerprints. -/
theorem C45_bilateral_binds (E : Engine) (hE : E.Lawful) (i j k l : Identity) (hi : Printable i) (hj : Printable j)
    (hk : Printable k) (hl : Printable l) (a b c d : Bytes) (ha : identityFp E i = some a) (hb : identityFp E j = some b)
    (hc : identityFp E k = some c) (hd : identityFp E l = some d) (f : Bytes) (h1 : bilateralFp E i j = some f)
    (h2 : bilateralFp E k l = some f)
    (hn : NoCollision E fun x => x = greater a b ++ smaller a b ∨ x = greater c d ++ smaller c d) :
    (a = c ∧ b = d) ∨ (a = d ∧ b = c) := by
  obtain ⟨a', b', e1, e2, l1, l2, v1, w1⟩ := C45_bilateral_value E hE i j hi hj
  obtain ⟨c', d', e3, e4, l3, l4, v2, w2⟩ := C45_bilateral_value E hE k l hk hl
  rw [ha] at e1; rw [hb] at e2; rw [hc] at e3; rw [hd] at e4
  cases e1; cases e2; cases e3; cases e4
  have n1 : a ≠ b := fun e => by rw [w1 e] at h1; cases h1
  have n2 : c ≠ d := fun e => by rw [w2 e] at h2; cases h2
  have hg := hn _ _ f (Or.inl rfl) (Or.inr rfl) (by rw [← (v1 n1).1]; exact h1) (by rw [← (v2 n2).1]; exact h2)
  have hlen : ∀ x y : Bytes, x.length = 64 → y.length = 64 → (greater x y).length = 64 := by
    intro x y hx hy; unfold greater; split <;> assumption
  obtain ⟨g1, g2⟩ := List.append_inj hg (by rw [hlen a b l1 l2, hlen c d l3 l4])
  unfold greater at g1
  unfold smaller at g2
  by_cases x1 : b < a <;> by_cases x2 : d < c <;> simp only [x1, x2, if_true, if_false] at g1 g2
  · exact Or.inl ⟨g1, g2⟩
  · exact Or.inr ⟨g1, g2⟩
  · exact Or.inr ⟨g2, g1⟩
  · exact Or.inl ⟨g2, g1⟩

/-! ### Texts -/

theorem fpOutput_short {t : CBuf} (h : t.length / 2 < t.mem.length) :
    fpOutput (.ok t) true = .ok ⟨t.mem.take (t.length / 2) ++ [0] ++ t.mem.drop (t.length / 2 + 1), t.length / 2⟩ := by
  simp only [fpOutput, if_true, memWrite, List.length_cons, List.length_nil, Nat.zero_add]
  rw [if_pos (by omega)]; rfl

theorem take_append_zero {m : Bytes} {n : Nat} (h : n ≤ m.length) (r : Bytes) :
    (m.take n ++ [0] ++ r).take n = m.take n := by
  rw [List.append_assoc]
  exact List.take_left' (by simp; omega)

/-- The memory of a buffer continues with a NUL after its content: it can be used as a C string. -/
def Spec.Terminated (t : CBuf) : Prop := t.mem[t.length]? = some 0

theorem fpOutput_prefix {t : CBuf} (h : t.length / 2 < t.mem.length) :
    ∃ s, fpOutput (.ok t) true = .ok s ∧ s.length = t.length / 2 ∧ s.content = t.mem.take (t.length / 2) ∧
      Terminated s := by
  refine ⟨_, fpOutput_short h, rfl, take_append_zero (m := t.mem) (n := t.length / 2) (by omega) _, ?_⟩
  unfold Terminated
  simp only []
  have hl : (t.mem.take (t.length / 2)).length = t.length / 2 := by simp; omega
  rw [List.append_assoc, List.getElem?_append_right (by rw [hl]; exact Nat.le_refl _), hl, Nat.sub_self]; rfl

/-- C45, hexadecimal text: for every fingerprint that fits, the long form is the lower-case hex text
and the short form is its first half. -/
theorem C45_hex_forms (fill : Nat → UInt8) (f : Bytes) (h0 : f ≠ []) (h1 : f.length * 2 + 1 ≤ maxBuffer) :
    ∃ long short, fpHex fill f false = .ok long ∧ fpHex fill f true = .ok short ∧
      long.content = hex f ∧ long.length = 2 * f.length ∧
      short.content = (hex f).take f.length ∧ short.length = f.length := by
  obtain ⟨t, t1, t2, t3, _⟩ := C08_hex_round_trip fill f h0 h1
  have hm : t.length ≤ t.mem.length := by
    have : t.content.length = t.length := by
      have hx : t.content = hexText f := by rw [t2, hexText_spec]
      rw [hx, hexText_length]; omega
    simp only [CBuf.content, List.length_take] at this; omega
  have hpos : 0 < f.length := List.length_pos_iff.2 h0
  obtain ⟨s, s1, s2, s3, _⟩ := fpOutput_prefix (t := t) (by omega)
  have hh : t.length / 2 = f.length := by omega
  refine ⟨t, s, by simp [fpHex, t1, fpOutput], by rw [fpHex, t1]; exact s1, t2, t3, ?_, by omega⟩
  rw [s3, ← t2, CBuf.content, List.take_take, hh]
  congr 1; omega

/-- C45, base32 text: the short form is the first half (rounded down) of the long form. -/
theorem C45_b32_forms (f : Bytes) (h0 : f ≠ []) (h1 : (8 * f.length + 4) / 5 ≤ maxBuffer) :
    ∃ long short, fpB32 f false = .ok long ∧ fpB32 f true = .ok short ∧
      long.content = base32 f ∧ long.length = (8 * f.length + 4) / 5 ∧
      short.content = (base32 f).take (long.length / 2) ∧ short.length = long.length / 2 := by
  obtain ⟨b1, b2, _⟩ := C09_base32_round_trip f h0 h1
  have hpos : 0 < f.length := List.length_pos_iff.2 h0
  obtain ⟨s, s1, s2, s3, _⟩ := fpOutput_prefix (t := ⟨base32 f, (base32 f).length⟩) (by simp only []; omega)
  refine ⟨⟨base32 f, (base32 f).length⟩, s, by simp [fpB32, b1, Res.bind, fpOutput], ?_, ?_, b2, s3, s2⟩
  · rw [fpB32, b1]; exact s1
  · simp [CBuf.content]

/-- C45, both forms of a 64 byte fingerprint: 128 and 64 hex digits, 103 and 51 base32 digits. -/
theorem C45_sha512_text_lengths (fill : Nat → UInt8) (f : Bytes) (h : f.length = 64) :
    ∃ hl hs bl bs, fpHex fill f false = .ok hl ∧ fpHex fill f true = .ok hs ∧ fpB32 f false = .ok bl ∧
      fpB32 f true = .ok bs ∧ hl.length = 128 ∧ hs.length = 64 ∧ bl.length = 103 ∧ bs.length = 51 := by
  have hmb := maxBuffer_val
  have h0 : f ≠ [] := fun e => by simp [e] at h
  obtain ⟨hl, hs, a1, a2, _, a4, _, a6⟩ := C45_hex_forms fill f h0 (by omega)
  obtain ⟨bl, bs, b1, b2, _, b4, _, b6⟩ := C45_b32_forms f h0 (by omega)
  exact ⟨hl, hs, bl, bs, a1, a2, b1, b2, by omega, by omega, by omega, by omega⟩

/-- C45, the texts are faithful: equal long texts come from equal fingerprints. -/
theorem C45_text_injective (f g : Bytes) (hf : f ≠ []) (hg : g ≠ []) (h1 : f.length * 2 + 1 ≤ maxBuffer)
    (h2 : g.length * 2 + 1 ≤ maxBuffer) : (hex f = hex g → f = g) ∧ (base32 f = base32 g → f = g) := by
  constructor
  · intro h
    have e : hexText f = hexText g := by rw [hexText_spec, hexText_spec, h]
    obtain ⟨t, t1, t2, _, t4⟩ := C08_hex_round_trip (fun _ => 0) f hf h1
    obtain ⟨u, u1, u2, _, u4⟩ := C08_hex_round_trip (fun _ => 0) g hg h2
    have hl : f.length = g.length := by
      have := congrArg List.length e
      rw [hexText_length, hexText_length] at this; omega
    have : hexEncode (fun _ => 0) (some f) = hexEncode (fun _ => 0) (some g) := by
      simp only [hexEncode, e, hl]
    rw [t1, u1] at this
    cases this
    rw [t4] at u4; cases u4; rfl
  · intro h
    obtain ⟨_, _, b3⟩ := C09_base32_round_trip f hf (by omega)
    obtain ⟨_, _, c3⟩ := C09_base32_round_trip g hg (by omega)
    rw [h, c3] at b3; cases b3; rfl

/-- C45: a fingerprint whose text cannot be made (here: no data) gives NULL in long form but is
undefined in short form. -/
theorem C45_short_form_undefined : fpB32 [] false = .null ∧ fpB32 [] true = .ub := by decide +kernel

/-! ### C62: the texts as C strings -/

/-- C62 (what holds): hex texts in both forms, and the short base32 text, are NUL terminated.

Missing from C62: the long base32 text, see the next theorem. -/
theorem C62_terminated_partial (fill : Nat → UInt8) (f : Bytes) (h0 : f ≠ []) (h1 : f.length * 2 + 1 ≤ maxBuffer) :
    ∃ hl hs bs, fpHex fill f false = .ok hl ∧ fpHex fill f true = .ok hs ∧ fpB32 f true = .ok bs ∧
      Terminated hl ∧ Terminated hs ∧ Terminated bs := by
  have hlen : 0 < f.length := List.length_pos_iff.2 h0
  have htl := hexText_length f
  have henc : hexEncode fill (some f) = .ok ⟨hexText f ++ [0], f.length * 2⟩ := by
    simp only [hexEncode]
    rw [if_neg (by omega)]
    have : memWrite ((List.range (f.length * 2 + 1)).map fill) 0 (hexText f ++ [0]) = .ok (hexText f ++ [0]) := by
      unfold memWrite
      rw [if_pos (by simp [htl])]
      simp [htl]
    rw [this]; rfl
  obtain ⟨b1, b2, _⟩ := C09_base32_round_trip f h0 (by omega)
  obtain ⟨s, s1, _, _, s4⟩ := fpOutput_prefix (t := ⟨hexText f ++ [0], f.length * 2⟩) (by
    simp only [List.length_append, htl]; omega)
  obtain ⟨r, r1, _, _, r4⟩ := fpOutput_prefix (t := ⟨base32 f, (base32 f).length⟩) (by simp only []; omega)
  refine ⟨_, s, r, by rw [fpHex, henc]; rfl, by rw [fpHex, henc]; exact s1, by rw [fpB32, b1]; exact r1, ?_, s4, r4⟩
  unfold Terminated
  simp only []
  rw [List.getElem?_append_right (by omega), htl]
  have : f.length * 2 - 2 * f.length = 0 := by omega
  simp [this, Nat.mul_comm]

/-- C62 is false: for every fingerprint that fits, the long base32 text fills its object completely;
`strlen` on it reads past the end. -/
theorem C62_long_b32_not_terminated (f : Bytes) (h0 : f ≠ []) (h1 : (8 * f.length + 4) / 5 ≤ maxBuffer)
    (t : CBuf) (h : fpB32 f false = .ok t) : t.mem.length = t.length ∧ ¬ Terminated t := by
  obtain ⟨b1, _, _⟩ := C09_base32_round_trip f h0 h1
  simp only [fpB32, b1, Res.bind, fpOutput, Bool.false_eq_true, if_false, Res.ok.injEq] at h
  subst h
  simp [Terminated]

/-- Two toy identities with different fingerprints have a bilateral one. -/
example : Printable ⟨.root, [1, 2], toyKey 5, none⟩ ∧
    (bilateralFp toyEngine ⟨.root, [1, 2], toyKey 5, none⟩ ⟨.root, [3], toyKey 8, none⟩).isSome = true := by
  exact ⟨⟨by decide, by decide, by decide⟩, by decide +kernel⟩

end Wickr
