import Verif.Lemmas.Buffer
import Verif.Model.Cipher
import Verif.Model.Kdf
import Verif.Model.TransportPacket
set_option linter.unusedSimpArgs false
namespace Wickr

theorem Bytes.Valid.fits {b : Bytes} (h : ValidBuf b) : Fits b := by
  have := h.2; rw [maxBuffer_val] at this; unfold Fits; omega

/-- `dup` agrees with the `UInt64` model of `wickr_buffer_create`. -/
theorem dup_eq_bufCreate {b : Bytes} (h : Fits b) : dup b = bufCreate b := by
  rw [bufCreate_eq h]; unfold dup ValidBuf
  by_cases hc : 0 < b.length ∧ b.length ≤ maxBuffer <;> simp [hc]

theorem dup_of {b : Bytes} (h : ValidBuf b) : dup b = some b := by simp [dup, h]

theorem dup_eq_some {b c : Bytes} : dup b = some c ↔ ValidBuf b ∧ c = b := by
  unfold dup; split <;> simp_all [eq_comm]

theorem dupOpt_of {b : Option Bytes} (h : ∀ x, b = some x → ValidBuf x) : dupOpt b = some b := by
  cases b with
  | none => rfl
  | some x => simp [dupOpt, dup_of (h x rfl)]

theorem dupOpt_eq_some {b c : Option Bytes} :
    dupOpt b = some c ↔ c = b ∧ ∀ x, b = some x → ValidBuf x := by
  cases b with
  | none => simp [dupOpt, eq_comm]
  | some x =>
    simp only [dupOpt, Option.map_eq_some_iff, dup_eq_some]
    constructor
    · rintro ⟨a, ⟨hv, rfl⟩, rfl⟩; exact ⟨rfl, by rintro _ ⟨⟩; exact hv⟩
    · rintro ⟨rfl, h⟩; exact ⟨x, ⟨h x rfl, rfl⟩, rfl⟩

/-- The middle of a three-part string. -/
theorem copySection_mid (a b c : Bytes) (hb : 0 < b.length) (h : (a ++ b ++ c).length ≤ maxBuffer)
    (hb2 : b.length < maxBuffer) (s l : Nat) (hs : s = a.length) (hl : l = b.length) :
    copySection (a ++ b ++ c) s l = some b := by
  subst hs hl
  simp only [List.length_append] at h
  unfold copySection
  rw [if_pos (by simp only [List.length_append]; omega)]
  simp

theorem copySection_some {b r : Bytes} {s l : Nat} (h : copySection b s l = some r) :
    s + l ≤ b.length ∧ 0 < l ∧ r = (b.drop s).take l ∧ r.length = l := by
  unfold copySection at h
  split at h
  · rename_i hc
    simp only [Option.some.injEq] at h
    subst h
    refine ⟨hc.2.2.2.2, hc.2.1, rfl, ?_⟩
    simp; omega
  · simp at h

theorem copySection_of {b : Bytes} {s l : Nat} (hb : b.length ≤ maxBuffer) (hl : 0 < l)
    (h : s + l ≤ b.length) (hlt : l < maxBuffer) : copySection b s l = some ((b.drop s).take l) := by
  unfold copySection; rw [if_pos (by omega)]

theorem concatMulti_some {bs : List (Option Bytes)} {r : Bytes} :
    concatMulti bs = some r ↔ r = bs.flatMap optBytes ∧ ValidBuf r := by
  unfold concatMulti ValidBuf
  simp only
  split
  · constructor
    · simp
    · rintro ⟨rfl, h⟩; omega
  · simp only [Option.some.injEq]
    constructor
    · rintro rfl; exact ⟨rfl, by omega⟩
    · rintro ⟨rfl, h⟩; rfl

theorem concat2_some {a b r : Bytes} :
    concat2 (some a) (some b) = some r ↔ r = a ++ b ∧ ValidBuf r := by
  unfold concat2 ValidBuf
  simp only
  split
  · constructor
    · simp
    · rintro ⟨rfl, h⟩; simp only [List.length_append] at h; omega
  · simp only [Option.some.injEq]
    constructor
    · rintro rfl; exact ⟨rfl, by simp only [List.length_append]; omega⟩
    · rintro ⟨rfl, h⟩; rfl

theorem Cipher.find_id (c : Cipher) : Cipher.find c.id = some c := by cases c <;> rfl
theorem Cipher.find_some {i : UInt8} {c : Cipher} (h : Cipher.find i = some c) : i = c.id := by
  unfold Cipher.find at h
  split at h
  · cases h; assumption
  · split at h
    · cases h; assumption
    · simp at h
theorem Digest.find_id (c : Digest) : Digest.find c.id = some c := by cases c <;> rfl
theorem Digest.find_some {i : UInt8} {c : Digest} (h : Digest.find i = some c) : i = c.id := by
  unfold Digest.find at h
  split at h
  · cases h; assumption
  · split at h
    · cases h; assumption
    · split at h
      · cases h; assumption
      · simp at h
theorem Curve.find_id (c : Curve) : Curve.find c.id = some c := by cases c <;> rfl
theorem Curve.find_some {i : UInt8} {c : Curve} (h : Curve.find i = some c) : i = c.id := by
  unfold Curve.find at h
  split at h
  · cases h; assumption
  · simp at h

theorem le64_length (n : UInt64) : (le64 n).length = 8 := rfl

theorem shl_or (b x : Nat) (hb : b < 256) : b ||| x <<< 8 = x * 256 + b := by
  rw [Nat.or_comm, ← Nat.shiftLeft_add_eq_or_of_lt (by simpa using hb), Nat.shiftLeft_eq]

theorem fromLe64_toNat : ∀ (bs : Bytes), bs.length ≤ 8 →
    (fromLe64 bs).toNat < 256 ^ bs.length ∧
    (fromLe64 bs).toNat = bs.foldr (fun b acc => acc * 256 + b.toNat) 0
  | [], _ => by simp [fromLe64]
  | b :: bs, h => by
    have hl : bs.length ≤ 7 := by simpa using h
    have ih := fromLe64_toNat bs (by omega)
    have hb := b.toNat_lt
    have hp : 256 ^ bs.length ≤ 256 ^ 7 := Nat.pow_le_pow_right (by omega) hl
    have e : (fromLe64 (b :: bs)).toNat = (fromLe64 bs).toNat * 256 + b.toNat := by
      simp only [fromLe64, UInt64.toNat_or, UInt64.toNat_shiftLeft, UInt8.toNat_toUInt64]
      have e8 : (8 : UInt64).toNat % 64 = 8 := rfl
      have hs : (fromLe64 bs).toNat <<< 8 % 2 ^ 64 = (fromLe64 bs).toNat <<< 8 := by
        apply Nat.mod_eq_of_lt; rw [Nat.shiftLeft_eq]; omega
      rw [e8, hs, shl_or _ _ hb]
    rw [e]
    constructor
    · rw [List.length_cons, Nat.pow_succ]; omega
    · rw [List.foldr_cons, ih.2]

theorem u64_byte (n : UInt64) (k : Nat) (hk : k < 8) :
    (n >>> UInt64.ofNat (8 * k)).toUInt8.toNat = n.toNat / 256 ^ k % 256 := by
  rw [UInt64.toNat_toUInt8, UInt64.toNat_shiftRight]
  have : (UInt64.ofNat (8 * k)).toNat % 64 = 8 * k := by
    rw [UInt64.toNat_ofNat']; omega
  rw [this, Nat.shiftRight_eq_div_pow, Nat.pow_mul]

theorem fromLe64_le64 (n : UInt64) : fromLe64 (le64 n) = n := by
  apply UInt64.toNat_inj.1
  rw [(fromLe64_toNat (le64 n) (by simp [le64_length])).2]
  have h0 : n.toUInt8.toNat = n.toNat % 256 := by rw [UInt64.toNat_toUInt8]
  have h1 := u64_byte n 1 (by omega)
  have h2 := u64_byte n 2 (by omega)
  have h3 := u64_byte n 3 (by omega)
  have h4 := u64_byte n 4 (by omega)
  have h5 := u64_byte n 5 (by omega)
  have h6 := u64_byte n 6 (by omega)
  have h7 := u64_byte n 7 (by omega)
  have hn := n.toNat_lt
  simp only [Nat.reduceMul] at h1 h2 h3 h4 h5 h6 h7
  simp only [le64, List.foldr_cons, List.foldr_nil]
  change (UInt64.toUInt8 (n >>> 8)).toNat = _ at h1
  change (UInt64.toUInt8 (n >>> 16)).toNat = _ at h2
  change (UInt64.toUInt8 (n >>> 24)).toNat = _ at h3
  change (UInt64.toUInt8 (n >>> 32)).toNat = _ at h4
  change (UInt64.toUInt8 (n >>> 40)).toNat = _ at h5
  change (UInt64.toUInt8 (n >>> 48)).toNat = _ at h6
  change (UInt64.toUInt8 (n >>> 56)).toNat = _ at h7
  rw [h0, h1, h2, h3, h4, h5, h6, h7]
  omega

theorem le64_inj {a b : UInt64} (h : le64 a = le64 b) : a = b := by
  rw [← fromLe64_le64 a, h, fromLe64_le64]

theorem foldr_digit : ∀ (bs : Bytes) (i : Nat) (h : i < bs.length),
    bs.foldr (fun b acc => acc * 256 + b.toNat) 0 / 256 ^ i % 256 = bs[i].toNat
  | [], i, h => by simp at h
  | b :: bs, 0, _ => by
    have := b.toNat_lt
    simp only [List.foldr_cons, List.getElem_cons_zero, Nat.pow_zero, Nat.div_one]; omega
  | b :: bs, i + 1, h => by
    have := b.toNat_lt
    rw [List.foldr_cons, Nat.pow_succ', ← Nat.div_div_eq_div_mul]
    have e : ∀ x, (x * 256 + b.toNat) / 256 = x := by intro x; omega
    rw [e, foldr_digit bs i (by simpa using h)]
    simp

theorem le64_fromLe64 (bs : Bytes) (h : bs.length = 8) : le64 (fromLe64 bs) = bs := by
  match bs, h with
  | [a, b, c, d, e, f, g, i], _ =>
    have hd := fun k hk => foldr_digit [a, b, c, d, e, f, g, i] k hk
    rw [← (fromLe64_toNat [a, b, c, d, e, f, g, i] (by simp)).2] at hd
    generalize hn : fromLe64 [a, b, c, d, e, f, g, i] = n at hd
    have h0 : n.toUInt8.toNat = n.toNat % 256 := by rw [UInt64.toNat_toUInt8]
    have g0 := hd 0 (by simp)
    simp only [Nat.pow_zero, Nat.div_one] at g0
    simp only [le64, List.cons.injEq, and_true]
    refine ⟨?_, ?_, ?_, ?_, ?_, ?_, ?_, ?_⟩ <;> apply UInt8.toNat_inj.1
    · rw [h0, g0]; rfl
    · exact (u64_byte n 1 (by omega)).trans (hd 1 (by simp))
    · exact (u64_byte n 2 (by omega)).trans (hd 2 (by simp))
    · exact (u64_byte n 3 (by omega)).trans (hd 3 (by simp))
    · exact (u64_byte n 4 (by omega)).trans (hd 4 (by simp))
    · exact (u64_byte n 5 (by omega)).trans (hd 5 (by simp))
    · exact (u64_byte n 6 (by omega)).trans (hd 6 (by simp))
    · exact (u64_byte n 7 (by omega)).trans (hd 7 (by simp))

end Wickr
