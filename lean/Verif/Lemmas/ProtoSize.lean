import Verif.Lemmas.Proto
set_option linter.unusedSimpArgs false
namespace Wickr

theorem varintEncAux_len : ∀ k n : Nat, (varintEncAux k n).length ≤ k
  | 0, _ => by simp [varintEncAux]
  | k + 1, n => by
    unfold varintEncAux
    split
    · simp
    · have := varintEncAux_len k (n / 128)
      simp only [List.length_cons]; omega

theorem varintEnc_len (n : Nat) : (varintEnc n).length ≤ 10 := varintEncAux_len 10 n

theorem fieldsEnc_append (a b : List Field) : fieldsEnc (a ++ b) = fieldsEnc a ++ fieldsEnc b := by
  simp [fieldsEnc]

theorem fieldsEnc_pos {fs : List Field} (h : fs ≠ []) : 0 < (fieldsEnc fs).length := by
  cases fs with
  | nil => exact absurd rfl h
  | cons f fs =>
    have := List.length_pos_iff.2 (varintEnc_ne_nil (f.num * 8 + f.val.wireType))
    simp only [fieldsEnc, List.flatMap_cons, List.length_append, Field.enc]; omega

theorem protoPack_ok {fs : List Field} (h : fs ≠ []) (hs : (fieldsEnc fs).length ≤ maxBuffer) :
    protoPack fs = some (fieldsEnc fs) := dup_of ⟨fieldsEnc_pos h, hs⟩

theorem size_putBytes (n : Nat) (v : Option Bytes) :
    (fieldsEnc (putBytes n v)).length ≤ 20 + (optBytes v).length := by
  cases v with
  | none => simp [putBytes, fieldsEnc]
  | some b =>
    have h1 := varintEnc_len (n * 8 + 2)
    have h2 := varintEnc_len b.length
    simp [putBytes, fieldsEnc, Field.enc, WireVal.payload, WireVal.wireType, optBytes]; omega

theorem size_putU64 (n : Nat) (v : Option UInt64) : (fieldsEnc (putU64 n v)).length ≤ 20 := by
  cases v with
  | none => simp [putU64, fieldsEnc]
  | some b =>
    have h1 := varintEnc_len (n * 8 + 0)
    have h2 := varintEnc_len b.toNat
    simp [putU64, fieldsEnc, Field.enc, WireVal.payload, WireVal.wireType] at *; omega

theorem size_putU32 (n : Nat) (v : Option UInt32) : (fieldsEnc (putU32 n v)).length ≤ 20 := by
  cases v with
  | none => simp [putU32, fieldsEnc]
  | some b => exact size_putU64 n (some b.toUInt64)

theorem size_putBool (n : Nat) (v : Option Bool) : (fieldsEnc (putBool n v)).length ≤ 20 := by
  cases v with
  | none => simp [putBool, fieldsEnc]
  | some b => exact size_putU64 n (some (if b then 1 else 0))

theorem size_putMsg {α : Type} (pack : α → List Field) (n : Nat) (v : Option α) :
    (fieldsEnc (putMsg pack n v)).length ≤ 20 + match v with
      | none => 0
      | some m => (fieldsEnc (pack m)).length := by
  cases v with
  | none => simp [putMsg, fieldsEnc]
  | some m => exact size_putBytes n (some (fieldsEnc (pack m)))

theorem PIdentity.size (m : PIdentity) : (fieldsEnc m.pack).length ≤
    100 + (optBytes m.identifier).length + (optBytes m.sigKey).length + (optBytes m.signature).length := by
  have h1 := size_putBytes 1 m.identifier
  have h2 := size_putBytes 2 m.sigKey
  have h3 := size_putBytes 3 m.signature
  have h4 := size_putU32 4 m.type
  have h5 := size_putBool 5 m.isPrivate
  simp only [PIdentity.pack, fieldsEnc_append, List.length_append]; omega

theorem PEphKey.size (m : PEphKey) : (fieldsEnc m.pack).length ≤
    60 + (optBytes m.ecKey).length + (optBytes m.keySig).length := by
  have h1 := size_putU64 1 m.identifier
  have h2 := size_putBytes 2 m.ecKey
  have h3 := size_putBytes 3 m.keySig
  simp only [PEphKey.pack, fieldsEnc_append, List.length_append]; omega

theorem PChain.size (r n : PIdentity) : (fieldsEnc (PChain.pack ⟨some r, some n⟩)).length ≤
    40 + (fieldsEnc r.pack).length + (fieldsEnc n.pack).length := by
  have h1 := size_putMsg PIdentity.pack 1 (some r)
  have h2 := size_putMsg PIdentity.pack 2 (some n)
  simp only [PChain.pack, fieldsEnc_append, List.length_append] at *; omega

theorem PNode.size (d : Bytes) (c : PChain) (k : Option PEphKey) :
    (fieldsEnc (PNode.pack ⟨some d, some c, k⟩)).length ≤
    60 + d.length + (fieldsEnc c.pack).length + match k with
      | none => 0
      | some k => (fieldsEnc k.pack).length := by
  have h1 := size_putBytes 1 (some d)
  have h2 := size_putMsg PChain.pack 2 (some c)
  have h3 := size_putMsg PEphKey.pack 3 k
  cases k <;> simp only [PNode.pack, fieldsEnc_append, List.length_append, optBytes] at * <;> omega

end Wickr
