import Verif.Lemmas.BaseN2
import Verif.Lemmas.Base32
/-
C06-C09: text encodings.  The reference encodings are in Spec/BaseN.lean.
-/
namespace Wickr

/-- C06.  For every non-empty buffer whose text fits the size limit: encoding produces exactly the
RFC 4648 text (of length 4·⌈n/3⌉), and decoding the produced buffer gives the data back.  `.ok`
also says that no memory access left its object.  The result does not depend on the uninitialised
memory `fill`. -/
theorem C06_base64_round_trip (fill : Nat → UInt8) (d : Bytes) (h0 : d ≠ [])
    (h1 : ((d.length + 2) / 3) * 4 + 1 ≤ maxBuffer) :
    ∃ t, base64Encode fill (some d) = .ok t ∧ t.content = Spec.base64 d ∧
      t.length = 4 * ((d.length + 2) / 3) ∧ base64Decode (some t) = .ok d := by
  have hlen : 0 < d.length := List.length_pos_iff.2 h0
  have htl := b64Text_length d
  have hnz := b64Text_nonzero d
  refine ⟨⟨b64Text d ++ 0 :: [], (b64Text d).length⟩, ?_, ?_, ?_, ?_⟩
  · simp only [base64Encode]
    rw [if_neg (by omega), if_neg (by omega)]
    have : memWrite ((List.range ((d.length + 2) / 3 * 4 + 1)).map fill) 0 (b64Text d ++ [0]) = .ok (b64Text d ++ [0]) := by
      unfold memWrite
      rw [if_pos (by simp [htl])]
      simp [htl]
    rw [this]
    simp only [Res.bind_ok, strlen_append (b64Text d) [] hnz]
  · simp [CBuf.content, b64Text_spec]
  · simp only [htl]; omega
  · simp only [base64Decode, strlen_append (b64Text d) [] hnz, Res.bind_ok]
    have hn : ¬ (b64Text d).length > (b64Text d).length := by omega
    have hc : ¬ ((b64Text d).length = 0 ∨ (b64Text d).length > maxBuffer) := by omega
    simp only [if_neg hn, if_neg hc]
    obtain ⟨i', ts', h⟩ := b64Loop_decode d.length d (Nat.le_refl _) [] [] (List.replicate (b64Text d).length 0) 0 rfl (by simp)
    simp only [List.length_nil, List.nil_append] at h
    rw [h]
    simp [Res.bind_ok, b64Finish]

/-- C06, the refused inputs: NULL, empty, or too large. -/
theorem C06_base64_encode_null (fill : Nat → UInt8) (d : Option Bytes) :
    base64Encode fill d = .null ↔
      d = none ∨ ∃ b, d = some b ∧ (b = [] ∨ ((b.length + 2) / 3) * 4 + 1 > maxBuffer) := by
  cases d with
  | none => simp [base64Encode]
  | some b =>
    by_cases hb : b = []
    · simp [base64Encode, hb]
    · by_cases hs : ((b.length + 2) / 3) * 4 + 1 ≤ maxBuffer
      · obtain ⟨t, ht, _⟩ := C06_base64_round_trip fill b hb hs
        rw [ht]; simp [hb]; omega
      · have : ¬ b.length = 0 := fun h => hb (List.eq_nil_of_length_eq_zero h)
        simp only [base64Encode, if_neg this]
        rw [if_pos (by omega)]
        simp; right; omega

example : ([77, 97, 110, 255] : Bytes) ≠ [] ∧ (4 + 2) / 3 * 4 + 1 ≤ maxBuffer := by decide
/-- "TWFu/w==" -/
example : Spec.base64 [77, 97, 110, 255] = [84, 87, 70, 117, 47, 119, 61, 61] := by decide +kernel

/-- C07, the part that holds.  `t` is the text up to its terminating NUL.  Decoding performs no
out-of-bounds access if a NUL terminator is present, all characters are below 128, and the declared
length is not a two-byte prefix of a longer text.
Missing from the full property: buffers without terminator, characters above 127, and the
two-byte view; the three theorems after this one show that each of these really fails. -/
theorem C07_base64_decode_safe_partial (t junk : Bytes) (length : Nat) (ht : ∀ c ∈ t, c ≠ 0 ∧ c < 128)
    (hlen : t.length ≤ length ∨ length ≠ 2) :
    base64Decode (some ⟨t ++ 0 :: junk, length⟩) ≠ .ub :=
  b64Decode_safe t junk length ht hlen

example : (∀ c ∈ ([81, 81, 61, 61] : Bytes), c ≠ 0 ∧ c < 128) ∧ ([81, 81, 61, 61] : Bytes).length ≤ 4 := by decide
example : base64Decode (some ⟨[81, 81, 61, 61, 0], 4⟩) = .ok [65] := by decide +kernel

/-- C07 is false: a buffer holding base64 text without a NUL after it is read past its end
(`strlen`). -/
theorem C07_base64_decode_unterminated_is_ub : ∃ b : CBuf, b.mem.length = b.length ∧ base64Decode (some b) = .ub :=
  ⟨⟨[81, 81, 61, 61], 4⟩, by decide⟩

/-- C07 is false: a character above 127 indexes the decoding table out of bounds. -/
theorem C07_base64_decode_high_char_is_ub : ∃ b : CBuf, 0 ∈ b.mem ∧ base64Decode (some b) = .ub :=
  ⟨⟨[200, 81, 0], 2⟩, by decide +kernel⟩

/-- C07 is false: with the declared length 2 over the text "QQ==" the clean-up code writes past the
two-byte result buffer. -/
theorem C07_base64_decode_short_view_is_ub : ∃ b : CBuf, 0 ∈ b.mem ∧ (∀ c ∈ b.mem, c < 128) ∧ base64Decode (some b) = .ub :=
  ⟨⟨[81, 81, 61, 61, 0], 2⟩, by decide +kernel⟩

/-- C08.  Hex text is lower-case, of length 2n, and decodes to the original data. -/
theorem C08_hex_round_trip (fill : Nat → UInt8) (d : Bytes) (h0 : d ≠ []) (h1 : d.length * 2 + 1 ≤ maxBuffer) :
    ∃ t, hexEncode fill (some d) = .ok t ∧ t.content = Spec.hex d ∧ t.length = 2 * d.length ∧
      hexDecode (some t) = .ok d := by
  have hlen : 0 < d.length := List.length_pos_iff.2 h0
  have htl := hexText_length d
  refine ⟨⟨hexText d ++ 0 :: [], d.length * 2⟩, ?_, ?_, ?_, ?_⟩
  · simp only [hexEncode]
    rw [if_neg (by omega)]
    have : memWrite ((List.range (d.length * 2 + 1)).map fill) 0 (hexText d ++ [0]) = .ok (hexText d ++ [0]) := by
      unfold memWrite
      rw [if_pos (by simp [htl])]
      simp [htl]
    rw [this]; rfl
  · simp only [CBuf.content, ← htl, List.take_left', hexText_spec]
  · simp only; omega
  · simp only [hexDecode, strlen_append (hexText d) [] (hexText_nonzero d), Res.bind_ok, hexPairs_hexText, htl]
    rw [if_neg (by omega)]
    have : d.length * 2 / 2 = d.length := by omega
    simp [memWrite, this]

/-- C08, decoding of well-formed text: for every NUL-terminated text of an even, positive number of
hexadecimal digits of either case, the result is the list of the numbers the pairs denote. -/
theorem C08_hex_decode_digits (vals : List (UInt8 × UInt8 × Nat × Nat)) (junk : Bytes) (length : Nat)
    (h : ∀ p ∈ vals, hexDigit? p.1 = some p.2.2.1 ∧ hexDigit? p.2.1 = some p.2.2.2)
    (h0 : vals ≠ []) (h1 : vals.length ≤ maxBuffer) :
    hexDecode (some ⟨vals.flatMap (fun p => [p.1, p.2.1]) ++ 0 :: junk, length⟩)
      = .ok (vals.map fun p => UInt8.ofNat (16 * p.2.2.1 + p.2.2.2)) := by
  have hlen : 0 < vals.length := List.length_pos_iff.2 h0
  have hnz : ∀ c ∈ vals.flatMap (fun p => [p.1, p.2.1]), c ≠ 0 := by
    intro c hc
    obtain ⟨p, hp, hc⟩ := List.mem_flatMap.1 hc
    have := h p hp
    simp only [List.mem_cons, List.not_mem_nil, or_false] at hc
    rcases hc with rfl | rfl
    · exact (hexDigit_cases _ this.1).2.2.2.1
    · exact (hexDigit_cases _ this.2).2.2.2.1
  have hl : (vals.flatMap (fun p => [p.1, p.2.1])).length = vals.length * 2 := by
    simp [List.length_flatMap, List.map_const', List.sum_replicate_nat]
  simp only [hexDecode, strlen_append _ junk hnz, Res.bind_ok, hl, hexPairs_digits vals junk h]
  rw [if_neg (by omega)]
  have : vals.length * 2 / 2 = vals.length := by omega
  simp [memWrite, this]

example : ([1, 171] : Bytes) ≠ [] ∧ ([1, 171] : Bytes).length * 2 + 1 ≤ maxBuffer := by decide
/-- "0a" "Fe" -/
example : ∀ p ∈ ([(48, 97, 0, 10), (70, 101, 15, 14)] : List (UInt8 × UInt8 × Nat × Nat)),
    hexDigit? p.1 = some p.2.2.1 ∧ hexDigit? p.2.1 = some p.2.2.2 := by decide

/-- C08, strictness is false: text that is not hexadecimal at all ("zz") is accepted as a zero byte. -/
theorem C08_hex_decode_not_strict : ∃ b : CBuf, (∀ c ∈ b.content, hexDigit? c = none) ∧ hexDecode (some b) = .ok [0] :=
  ⟨⟨[122, 122, 0], 2⟩, by decide +kernel⟩

/-- C08, the declared length is ignored: memory after it is decoded as well. -/
theorem C08_hex_decode_ignores_length : ∃ b : CBuf, b.length = 2 ∧ hexDecode (some b) = .ok [1, 2] :=
  ⟨⟨[48, 49, 48, 50, 0], 2⟩, by decide +kernel⟩

/-- C09.  For every non-empty buffer whose text fits the size limit: the text is Crockford base32,
of length ⌈8n/5⌉, and decodes to the original data. -/
theorem C09_base32_round_trip (d : Bytes) (h0 : d ≠ []) (h1 : (8 * d.length + 4) / 5 ≤ maxBuffer) :
    base32Encode (some d) = .ok (Spec.base32 d) ∧ (Spec.base32 d).length = (8 * d.length + 4) / 5 ∧
      base32Decode (some (Spec.base32 d)) = .ok d := by
  refine ⟨b32Encode_eq d h0 h1, ?_, b32Decode_spec d h0 h1⟩
  rw [Spec.base32, b32Groups, List.length_map, List.length_map, b32Digits_length]

/-- C09, acceptance: decoding a text of `m` characters gives ⌊5m/8⌋ bytes, unless it is longer than
a buffer may be, a character is outside the alphabet, or the result would be empty; then NULL. -/
theorem C09_base32_decode_total (t : Bytes) (hf : t.length < 2 ^ 64) :
    (t.length ≤ maxBuffer ∧ (∀ c ∈ t, c ∈ b32Alphabet) ∧ 0 < 5 * t.length / 8 ∧
        ∃ o, base32Decode (some t) = .ok o ∧ o.length = 5 * t.length / 8) ∨
    (¬ (t.length ≤ maxBuffer ∧ (∀ c ∈ t, c ∈ b32Alphabet) ∧ 0 < 5 * t.length / 8) ∧
        base32Decode (some t) = .null) := by
  simp only [base32Decode, bufCopy, bufCreate_eq hf]
  by_cases hz : 0 < t.length ∧ t.length ≤ maxBuffer
  · rw [if_pos hz]
    rcases b32Unmap_iff t with ⟨h1, u, h2, h3, h4⟩ | ⟨⟨x, hx, hx'⟩, h2⟩
    · simp only [h2]
      have hz2 := hz.2
      rw [maxBuffer_val] at hz2
      have hd := declen u.length (by omega)
      rw [h3] at hd ⊢
      by_cases h0 : b32DecodeLength (UInt64.ofNat t.length) = 0
      · right
        rw [if_pos h0]
        rw [h0] at hd
        exact ⟨fun h => by have := h.2.2; simp at hd; omega, rfl⟩
      · left
        have hpos : 0 < 5 * t.length / 8 := by
          rw [← hd]
          exact Nat.pos_of_ne_zero (fun h => h0 (UInt64.toNat_inj.1 h))
        rw [if_neg h0]
        have hp1 : (b32DecodeLength (UInt64.ofNat t.length) + 1).toNat = 5 * t.length / 8 + 1 := by
          rw [UInt64.toNat_add, hd]; have : (1 : UInt64).toNat = 1 := rfl
          rw [this, Nat.mod_eq_of_lt (by omega)]
        have hcan : canAlloc (b32DecodeLength (UInt64.ofNat t.length) + 1) = true := by
          rw [canAlloc_iff, hp1, maxBuffer_val]; omega
        obtain ⟨o, ho, hol⟩ := b32DecodeAll_some u.length u (Nat.le_refl _) h4
        rw [h3] at hol
        refine ⟨hz.2, h1, hpos, o, ?_, hol⟩
        simp only [hcan, Bool.not_true, Bool.false_eq_true, if_false, ho, hp1, hd]
        have : memWrite (List.replicate (5 * t.length / 8 + 1) 0) 0 o = .ok (o ++ [0]) := by
          unfold memWrite
          rw [if_pos (by simp [hol])]
          simp [hol]
        rw [this, Res.bind_ok, ← hol]
        simp
    · right
      simp only [h2]
      exact ⟨fun h => hx' (h.2.1 x hx), trivial⟩
  · right
    rw [if_neg hz]
    refine ⟨fun h => hz ⟨?_, h.1⟩, rfl⟩
    have := h.2.2; omega

example : ([1, 2, 3] : Bytes) ≠ [] ∧ (8 * ([1, 2, 3] : Bytes).length + 4) / 5 ≤ maxBuffer := by decide

/-- The alphabet of C09 is Crockford's. -/
theorem C09_alphabet : b32Alphabet = Spec.crockford.toList.map (fun c => c.toNat.toUInt8) := by decide +kernel

/-- C09 note: decoding is not injective, the unused low bits of the last character are ignored. -/
theorem C09_base32_decode_not_injective : ∃ a b : Bytes, a ≠ b ∧ base32Decode (some a) = .ok [0] ∧ base32Decode (some b) = .ok [0] :=
  ⟨[48, 48], [48, 49], by decide +kernel⟩

end Wickr
