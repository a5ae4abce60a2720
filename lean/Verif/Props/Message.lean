import Verif.Model.Message
import Verif.Model.Toy
import Verif.Props.KeyExchange
import Verif.Props.Payload
import Verif.Props.Ecdh
import Verif.Props.Identity
set_option linter.unusedSimpArgs false
/-
C16: the codec of message packets.
-/
namespace Wickr
open Spec

/-- protocol.h:194-215: `| VERSION | CURVE | CONTENT | SIGNATURE |`. -/
def Spec.msgLayout (m : Msg) : Bytes := [m.version, m.sig.curve.id] ++ m.content ++ ecdsaLayout m.sig

/-- A packet the library can produce: a known version, some content, a SHA-512 signature that fits. -/
structure Spec.WfMsg (m : Msg) : Prop where
  version : 2 ≤ m.version.toNat ∧ m.version.toNat ≤ 4
  content : m.content ≠ []
  digest : m.sig.digest = .sha512
  sig : m.sig.sig ≠ [] ∧ m.sig.sig.length + 2 ≤ m.sig.curve.sigSize

theorem version_range (v : UInt8) : ¬ (v > 4 ∨ v < 2) ↔ 2 ≤ v.toNat ∧ v.toNat ≤ 4 := by
  have h1 : (v > 4) ↔ v.toNat > 4 := UInt8.lt_iff_toNat_lt
  have h2 : (v < 2) ↔ v.toNat < 2 := UInt8.lt_iff_toNat_lt
  rw [h1, h2]; omega

/-- C16, acceptance.  A byte string is accepted as a packet exactly if it starts with a version
from 2 to 4 and the curve id 0 (of which version 2 only looks at the low four bits), ends in a P-521 /
SHA-512 signature trailer of 143 bytes, and has at least one byte in between; version, content and
signature are then the ones at these places. -/
theorem C16_accepts_iff (b : Bytes) (hb : b.length ≤ maxBuffer) (m : Msg) : msgFromBuffer b = some m ↔
    ∃ v c hd pad : UInt8, b[0]? = some v ∧ b[1]? = some c ∧ 2 ≤ v.toNat ∧ v.toNat ≤ 4 ∧
      (if v = 2 then c.toNat % 16 = 0 else c = 0) ∧ 145 < b.length ∧
      b[b.length - 143]? = some hd ∧ hd = 3 ∧ b[b.length - 142]? = some pad ∧ pad.toNat < 141 ∧
      m = ⟨v, (b.drop 2).take (b.length - 145), ⟨.p521, .sha512, b.drop (b.length - 141 + pad.toNat)⟩⟩ := by
  match b with
  | [] => simp [msgFromBuffer]
  | [x] => simp [msgFromBuffer]
  | v :: c :: tl =>
    obtain ⟨b, hbe⟩ : ∃ b, b = v :: c :: tl := ⟨_, rfl⟩
    rw [← hbe] at hb ⊢
    have h0 : b[0]? = some v := by rw [hbe]; rfl
    have h1 : b[1]? = some c := by rw [hbe]; rfl
    have hfind : ∀ cv, Curve.find (msgSigType v c) = some cv ↔ cv = .p521 ∧ (if v = 2 then c.toNat % 16 = 0 else c = 0) := by
      intro cv
      cases cv
      unfold Curve.find msgSigType
      by_cases hv : v = 2
      · simp only [hv, if_true]
        have : (c &&& 0xF).toNat = c.toNat % 16 := forall_u8 (P := fun x => (x &&& 0xF).toNat = x.toNat % 16) (by decide +kernel) c
        have h3 : (c &&& 0xF) = 0 ↔ c.toNat % 16 = 0 := by
          rw [← UInt8.toNat_inj, this]; rfl
        by_cases hz : c.toNat % 16 = 0 <;> simp [h3, hz]
      · by_cases hz : c = 0 <;> simp [hv, hz]
    have hs : ∀ cv : Curve, cv.sigSize = 143 := fun cv => by cases cv; rfl
    have hmb := maxBuffer_val
    constructor
    · intro h
      unfold msgFromBuffer at h
      rw [hbe] at h
      simp only [] at h
      rw [← hbe] at h
      split at h
      · simp at h
      · split at h
        · simp at h
        · next hver =>
          cases hcv : Curve.find (msgSigType v c) with
          | none => simp [hcv] at h
          | some cv =>
            simp only [hcv, hs] at h
            split at h
            · simp at h
            · next hlen =>
              cases he : ecdsaFromBuffer (List.take 143 (List.drop (b.length - 143) b)) with
              | none => simp [he] at h
              | some s =>
                simp only [he] at h
                split at h
                · simp at h
                · next hid =>
                  simp only [Option.map_eq_some_iff] at h
                  obtain ⟨ct, hct, rfl⟩ := h
                  have htl : (List.drop (b.length - 143) b).length = 143 := by simp; omega
                  have htk : List.take 143 (List.drop (b.length - 143) b) = List.drop (b.length - 143) b :=
                    List.take_of_length_le (by omega)
                  rw [htk] at he
                  obtain ⟨e0, e1, p0, p1, p2, p3, p4, p5⟩ := (C13_ecdsa_accepts_iff _ (by omega) s).1 he
                  rw [htl] at p4
                  have hcvid := ((hfind cv).1 hcv)
                  obtain ⟨sc, sd, ss⟩ := s
                  have hsd : sd = .sha512 := by
                    simp only [digestMatchingCurve] at hid
                    cases sd <;> simp [Digest.id] at hid ⊢
                  subst hsd
                  cases sc
                  have hv := (version_range v).1 hver
                  refine ⟨v, c, e0, e1, h0, h1, hv.1, hv.2, hcvid.2, by omega, ?_, ?_, ?_, by omega, ?_⟩
                  · rw [List.getElem?_drop] at p0; simpa using p0
                  · apply UInt8.toNat_inj.1
                    simp only [Curve.id, Digest.id] at p2 p3
                    have a : (0 : UInt8).toNat = 0 := rfl
                    have a' : (3 : UInt8).toNat = 3 := rfl
                    omega
                  · rw [List.getElem?_drop] at p1
                    rw [show b.length - 142 = b.length - 143 + 1 by omega]; exact p1
                  · have := copySection_some hct
                    simp only at p5
                    rw [this.2.2.1, p5, List.drop_drop, show b.length - 143 - 2 = b.length - 145 by omega,
                      show b.length - 143 + (2 + e1.toNat) = b.length - 141 + e1.toNat by omega]
    · rintro ⟨v', c', hd, pad, g0, g1, g2, g3, g4, g5, g6, rfl, g7, g8, rfl⟩
      rw [h0] at g0; rw [h1] at g1
      cases g0; cases g1
      have hcv := (hfind .p521).2 ⟨rfl, g4⟩
      have hver := (version_range v).2 ⟨g2, g3⟩
      have htl : (List.drop (b.length - 143) b).length = 143 := by simp; omega
      have htk : List.take 143 (List.drop (b.length - 143) b) = List.drop (b.length - 143) b :=
        List.take_of_length_le (by omega)
      have he : ecdsaFromBuffer (List.drop (b.length - 143) b) =
          some ⟨.p521, .sha512, b.drop (b.length - 141 + pad.toNat)⟩ := by
        refine (C13_ecdsa_accepts_iff _ (by omega) _).2 ⟨3, pad, ?_, ?_, rfl, rfl, by rw [htl]; omega, ?_⟩
        · rw [List.getElem?_drop, Nat.add_zero]; exact g6
        · have e : b.length - 143 + 1 = b.length - 142 := by omega
          rw [List.getElem?_drop]; exact (congrArg (fun i => b[i]?) e).trans g7
        · simp only []
          rw [List.drop_drop, show b.length - 143 + (2 + pad.toNat) = b.length - 141 + pad.toNat by omega]
      have hc : copySection b 2 (b.length - 143 - 2) = some ((b.drop 2).take (b.length - 145)) := by
        rw [copySection_of hb (by omega) (by omega) (by omega), show b.length - 143 - 2 = b.length - 145 by omega]
      have hl1 : ¬ b.length ≤ 2 := by omega
      have hl2 : ¬ b.length ≤ 2 + 143 := by omega
      unfold msgFromBuffer
      rw [hbe]
      simp only []
      rw [← hbe]
      simp only [if_neg hl1, if_neg hver, hcv, hs, if_neg hl2, htk, he, digestMatchingCurve, ne_eq,
        not_true_eq_false, or_self, if_false, hc, Option.map_some]

/-- C16.  Every packet the library can produce and that fits a buffer serializes to the documented
layout and is read back unchanged. -/
theorem C16_round_trip (m : Msg) (h : WfMsg m) (hs : m.content.length + 145 ≤ maxBuffer) :
    msgSerialize m = some (msgLayout m) ∧ (msgLayout m).length = m.content.length + 145 ∧
    msgFromBuffer (msgLayout m) = some m := by
  have hmb := maxBuffer_val
  obtain ⟨e1, e2, e3⟩ := (C13_ecdsa_round_trip m.sig h.sig.1).1 h.sig.2
  obtain ⟨v, ct, s⟩ := m
  have hcs : s.curve.sigSize = 143 := by cases s.curve; rfl
  have hsl := h.sig
  have hdg := h.digest
  have hve := h.version
  have hct := List.length_pos_iff.2 h.content
  simp only [hcs] at hsl hdg hve hct hs e1 e2 e3
  have hl : (msgLayout ⟨v, ct, s⟩).length = ct.length + 145 := by simp [msgLayout, e2]
  refine ⟨?_, hl, ?_⟩
  · simp only [msgSerialize, e1, Option.bind_some, hcs, e2, ne_eq, not_true_eq_false, if_false]
    rw [concatMulti_some]
    refine ⟨by simp [msgLayout, optBytes], by omega, by omega⟩
  · rw [C16_accepts_iff _ (by omega), hl]
    have hL : msgLayout ⟨v, ct, s⟩ = [v, s.curve.id] ++ ct ++ ecdsaLayout s := rfl
    have hp : (UInt8.ofNat (s.curve.sigSize - 2 - s.sig.length)).toNat = 141 - s.sig.length := by
      rw [UInt8.toNat_ofNat', hcs]; omega
    refine ⟨v, s.curve.id, s.curve.id * 16 + s.digest.id, UInt8.ofNat (s.curve.sigSize - 2 - s.sig.length), ?_, ?_,
      hve.1, hve.2, ?_, by omega, ?_, ?_, ?_, ?_, ?_⟩
    · rw [hL]; rfl
    · rw [hL]; rfl
    · cases s.curve; simp [Curve.id]
    · rw [hL, List.getElem?_append_right (by simp only [List.length_append, List.length_cons, List.length_nil]; omega)]
      simp only [List.length_append, List.length_cons, List.length_nil]
      have e : ct.length + 145 - 143 - (0 + 1 + 1 + ct.length) = 0 := by omega
      rw [e]; simp [ecdsaLayout]
    · rw [hdg]; cases s.curve; rfl
    · rw [hL, List.getElem?_append_right (by simp only [List.length_append, List.length_cons, List.length_nil]; omega)]
      simp only [List.length_append, List.length_cons, List.length_nil]
      have e : ct.length + 145 - 142 - (0 + 1 + 1 + ct.length) = 1 := by omega
      rw [e]; simp [ecdsaLayout]
    · rw [hp]; have := List.length_pos_iff.2 hsl.1; omega
    · have h1 : (List.drop 2 (msgLayout ⟨v, ct, s⟩)).take (ct.length + 145 - 145) = ct := by
        rw [hL]; simp
      have h2 : List.drop (ct.length + 145 - 141 + (UInt8.ofNat (s.curve.sigSize - 2 - s.sig.length)).toNat)
          (msgLayout ⟨v, ct, s⟩) = s.sig := by
        rw [hp]
        have : msgLayout ⟨v, ct, s⟩ = ([v, s.curve.id] ++ ct ++ [s.curve.id * 16 + s.digest.id,
            UInt8.ofNat (143 - 2 - s.sig.length)] ++ List.replicate (143 - 2 - s.sig.length) 0) ++ s.sig := by
          rw [hL]; simp [ecdsaLayout, hcs]
        rw [this]
        apply List.drop_left'
        simp; omega
      rw [h1, h2, ← hdg]

/-- C16: what is accepted is a packet the library could have produced. -/
theorem C16_accepted_is_wellformed (b : Bytes) (hb : b.length ≤ maxBuffer) (m : Msg)
    (h : msgFromBuffer b = some m) : WfMsg m ∧ m.content.length + 145 = b.length := by
  obtain ⟨v, c, hd, pad, h0, h1, h2, h3, h4, h5, h6, h7, h8, h9, rfl⟩ := (C16_accepts_iff b hb m).1 h
  refine ⟨⟨⟨h2, h3⟩, ?_, rfl, ?_, ?_⟩, ?_⟩
  · simp only [ne_eq, ← List.length_eq_zero_iff, List.length_take, List.length_drop]; omega
  · simp only [ne_eq, ← List.length_eq_zero_iff, List.length_drop]; omega
  · simp only [List.length_drop, Curve.sigSize]; omega
  · simp only [List.length_take, List.length_drop]; omega

theorem cons2_drop {b : Bytes} {v c : UInt8} (h0 : b[0]? = some v) (h1 : b[1]? = some c) :
    [v, c] ++ b.drop 2 = b := by
  match b with
  | [] => simp at h0
  | [x] => simp at h1
  | x :: y :: tl =>
    simp only [List.getElem?_cons_zero, Option.some.injEq] at h0
    have : y = c := by simpa using h1
    simp [h0, this]

/-- C16: reading and writing again gives the same bytes except for what the reader ignores: the
second byte becomes the curve id and the padding becomes zero. -/
theorem C16_reserialize (b : Bytes) (hb : b.length ≤ maxBuffer) (m : Msg) (h : msgFromBuffer b = some m) :
    ∃ c pad : UInt8, ∃ content padding sig : Bytes, padding.length = pad.toNat ∧
      b = [m.version, c] ++ content ++ ([3, pad] ++ padding ++ sig) ∧
      msgSerialize m = some ([m.version, 0] ++ content ++ ([3, pad] ++ List.replicate pad.toNat 0 ++ sig)) := by
  obtain ⟨hw, hl⟩ := C16_accepted_is_wellformed b hb m h
  have hmb := maxBuffer_val
  have hser := (C16_round_trip m hw (by omega)).1
  obtain ⟨v, c, hd, pad, h0, h1, h2, h3, h4, h5, h6, rfl, h8, h9, rfl⟩ := (C16_accepts_iff b hb m).1 h
  refine ⟨c, pad, (b.drop 2).take (b.length - 145), (b.drop (b.length - 141)).take pad.toNat,
    b.drop (b.length - 141 + pad.toNat), ?_, ?_, ?_⟩
  · simp only [List.length_take, List.length_drop]; omega
  · have e1 : (b.drop (b.length - 141)).take pad.toNat ++ b.drop (b.length - 141 + pad.toNat) =
        b.drop (b.length - 141) := by
      rw [← List.drop_drop]; exact List.take_append_drop _ _
    have e2 : [3, pad] ++ b.drop (b.length - 141) = b.drop (b.length - 143) := by
      have a1 : b.length - 143 < b.length := by omega
      have a2 : b.length - 142 < b.length := by omega
      have q1 : b.length - 143 + 1 = b.length - 142 := by omega
      have q2 : b.length - 142 + 1 = b.length - 141 := by omega
      rw [List.getElem?_eq_getElem a1] at h6
      rw [List.getElem?_eq_getElem a2] at h8
      have d1 := List.drop_eq_getElem_cons a1
      have d2 := List.drop_eq_getElem_cons a2
      rw [q1] at d1; rw [q2] at d2
      rw [d1, d2, Option.some.inj h6, Option.some.inj h8]
      simp only [List.cons_append, List.nil_append]
    have e3 : (b.drop 2).take (b.length - 145) ++ b.drop (b.length - 143) = b.drop 2 := by
      have q : 2 + (b.length - 145) = b.length - 143 := by omega
      have d := List.take_append_drop (b.length - 145) (b.drop 2)
      rw [List.drop_drop, q] at d
      exact d
    have e4 : [v, c] ++ b.drop 2 = b := cons2_drop h0 h1
    simp only []
    rw [List.append_assoc [3, pad], e1, e2, List.append_assoc, e3, e4]
  · rw [hser]
    have hp : (b.drop (b.length - 141 + pad.toNat)).length = 141 - pad.toNat := by
      simp only [List.length_drop]; omega
    simp only [msgLayout, ecdsaLayout, Curve.sigSize, hp, Curve.id, Digest.id]
    have : 143 - 2 - (141 - pad.toNat) = pad.toNat := by omega
    rw [this, UInt8.ofNat_toNat]
    rfl

/-- C16: a copy equals its original. -/
theorem C16_copy (m : Msg) (h : WfMsg m) (hs : m.content.length ≤ maxBuffer) : msgCopy m = some m := by
  have hmb := maxBuffer_val
  have hcs : m.sig.curve.sigSize = 143 := by cases m.sig.curve; rfl
  have h1 := h.sig
  have h2 : dup m.sig.sig = some m.sig.sig := dup_of ⟨List.length_pos_iff.2 h1.1, by omega⟩
  simp [msgCopy, dup_of ⟨List.length_pos_iff.2 h.content, hs⟩, ecdsaCopy, h2]

set_option maxRecDepth 8192 in
/-- A small packet; versions 1 and 5 and a packet without content are refused; version 2 ignores the
high half of the second byte, version 3 does not. -/
example : let m : Msg := ⟨4, [9, 8], ⟨.p521, .sha512, [1, 2, 3]⟩⟩
    let t := [3, 138] ++ List.replicate 138 (0 : UInt8) ++ [1, 2, 3]
    msgSerialize m = some ([4, 0, 9, 8] ++ t) ∧ msgFromBuffer ([4, 0, 9, 8] ++ t) = some m ∧
    msgFromBuffer ([1, 0, 9, 8] ++ t) = none ∧ msgFromBuffer ([5, 0, 9, 8] ++ t) = none ∧
    msgFromBuffer ([4, 0] ++ t) = none ∧ msgFromBuffer ([2, 240, 9, 8] ++ t) = some { m with version := 2 } ∧
    msgFromBuffer ([3, 240, 9, 8] ++ t) = none ∧
    msgFromBuffer ([4, 0, 9, 8] ++ [2, 138] ++ List.replicate 138 0 ++ [1, 2, 3]) = none := by decide +kernel

end Wickr
