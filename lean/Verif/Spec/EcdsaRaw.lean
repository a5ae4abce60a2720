import Verif.Model.EcdsaRaw
/-
What is assumed of the DER functions, and DER signatures written out.
-/
namespace Wickr

/-- Reading inverts writing for integers of up to 66 bytes; the encoding has at most 141 bytes. -/
structure DerSig.Lawful (D : DerSig) : Prop where
  round : ∀ r s : Nat, r < 2 ^ 528 → s < 2 ^ 528 → D.d2i (D.i2d r s) = some ((r : Int), (s : Int))
  size : ∀ r s : Nat, r < 2 ^ 528 → s < 2 ^ 528 → 0 < (D.i2d r s).length ∧ (D.i2d r s).length ≤ 141

namespace Spec

/-- The number that bytes stand for, most significant first. -/
def num : Bytes → Nat
  | [] => 0
  | x :: r => x.toNat * 256 ^ r.length + num r

/-- A raw signature: two numbers of 66 bytes each. -/
def IsRaw (raw : Bytes) (r s : Nat) : Prop :=
  raw.length = 132 ∧ num (raw.take 66) = r ∧ num (raw.drop 66) = s

/-- Octets of a DER INTEGER: as few as leave the sign bit clear. -/
def derIntLen (n : Nat) : Nat := (n.log2 + 1) / 8 + 1
def derInt (n : Nat) : Bytes := 2 :: UInt8.ofNat (derIntLen n) :: natToBe (derIntLen n) n
/-- DER length octets, for lengths below 65536. -/
def derLen (n : Nat) : Bytes :=
  if n < 128 then [UInt8.ofNat n] else if n < 256 then [0x81, UInt8.ofNat n] else 0x82 :: natToBe 2 n
/-- `SEQUENCE { r INTEGER, s INTEGER }`. -/
def derSig (r s : Nat) : Bytes := 0x30 :: derLen (derInt r ++ derInt s).length ++ (derInt r ++ derInt s)

def derGetLen : Bytes → Option (Nat × Bytes)
  | [] => none
  | b :: rest =>
    if b.toNat < 128 then some (b.toNat, rest)
    else if b = 0x81 then
      match rest with
      | x :: rest => some (x.toNat, rest)
      | _ => none
    else if b = 0x82 then
      match rest with
      | x :: y :: rest => some (x.toNat * 256 + y.toNat, rest)
      | _ => none
    else none

/-- Two's complement, minimal octets. -/
def derIntVal (c : Bytes) : Option Int :=
  match c with
  | [] => none
  | [x] => some (if x.toNat < 128 then x.toNat else (x.toNat : Int) - 256)
  | x :: y :: r =>
    if (x = 0 ∧ y.toNat < 128) ∨ (x = 0xFF ∧ 128 ≤ y.toNat) then none
    else if x.toNat < 128 then some (beToNat (x :: y :: r))
    else some ((beToNat (x :: y :: r) : Int) - 256 ^ (r.length + 2))

def derGetInt : Bytes → Option (Int × Bytes)
  | 2 :: b => (derGetLen b).bind fun (n, b) =>
      if b.length < n then none else (derIntVal (b.take n)).map fun z => (z, b.drop n)
  | _ => none

/-- Bytes after the sequence are not looked at, as `d2i` does. -/
def derRead : Bytes → Option (Int × Int)
  | 0x30 :: b => (derGetLen b).bind fun (n, b) =>
      if b.length < n then none
      else (derGetInt (b.take n)).bind fun (r, b) => (derGetInt b).bind fun (s, b) =>
        if b = [] then some (r, s) else none
  | _ => none

end Spec

/-- DER itself. -/
def der : DerSig := ⟨Spec.derRead, Spec.derSig⟩

end Wickr
