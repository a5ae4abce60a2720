import Verif.Model.Basic
/-
Specification of base-2^k text encodings: write the bytes as one string of bits, most significant
bit first, cut it into groups of k bits (the last one padded with zero bits) and write each group
as a character of the alphabet.
-/
namespace Wickr.Spec

/-- The bits of a byte (0 or 1), most significant first. -/
def byteBits (b : UInt8) : List Nat :=
  [b.toNat / 128 % 2, b.toNat / 64 % 2, b.toNat / 32 % 2, b.toNat / 16 % 2,
   b.toNat / 8 % 2, b.toNat / 4 % 2, b.toNat / 2 % 2, b.toNat % 2]

/-- All bits of a byte string. -/
def bits (bs : Bytes) : List Nat := bs.flatMap byteBits

/-- The number with the given binary digits. -/
def bitsVal (l : List Nat) : Nat := l.foldl (fun acc b => 2 * acc + b) 0

/-- Cut into groups of `k` bits, the last one padded with zero bits (`fuel` is the number of bits,
enough for any `k ≥ 1`). -/
def groupsAux (k : Nat) : Nat → List Nat → List Nat
  | 0, _ => []
  | _, [] => []
  | fuel + 1, l => bitsVal (l.take k ++ List.replicate (k - l.length) 0) :: groupsAux k fuel (l.drop k)

/-- The groups of `k` bits of a bit string. -/
def groups (k : Nat) (l : List Nat) : List Nat := groupsAux k l.length l

/-- The base64 alphabet of RFC 4648. -/
def rfc4648 : String := "ABCDEFGHIJKLMNOPQRSTUVWXYZabcdefghijklmnopqrstuvwxyz0123456789+/"

/-- Crockford's base32 alphabet. -/
def crockford : String := "0123456789ABCDEFGHJKMNPQRSTVWXYZ"

/-- The lower-case hexadecimal alphabet. -/
def lowerHex : String := "0123456789abcdef"

/-- The ASCII code of the `i`-th character of an alphabet. -/
def charAt (alphabet : String) (i : Nat) : UInt8 := (alphabet.toList.getD i '\x00').toNat.toUInt8

/-- RFC 4648 base64 with padding to a multiple of four characters. -/
def base64 (b : Bytes) : Bytes :=
  let t := (groups 6 (bits b)).map (charAt rfc4648)
  t ++ List.replicate ((4 - t.length % 4) % 4) 61

/-- Crockford base32 without padding. -/
def base32 (b : Bytes) : Bytes := (groups 5 (bits b)).map (charAt crockford)

/-- Lower-case hexadecimal. -/
def hex (b : Bytes) : Bytes := (groups 4 (bits b)).map (charAt lowerHex)

end Wickr.Spec
