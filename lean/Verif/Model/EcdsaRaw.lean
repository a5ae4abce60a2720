import Verif.Model.Ecdsa
/-
Model of the raw signature conversion of openssl_suite.c (the build against OpenSSL 1.1.0 or later).
-/
namespace Wickr

/-- `d2i_ECDSA_SIG` and `i2d_ECDSA_SIG`: a signature is a pair of integers; reading may give negative ones. -/
structure DerSig where
  d2i : Bytes → Option (Int × Int)
  i2d : Nat → Nat → Bytes

/-- The big-endian bytes of `n`, `len` of them. -/
def natToBe : Nat → Nat → Bytes
  | 0, _ => []
  | k + 1, n => natToBe k (n / 256) ++ [UInt8.ofNat (n % 256)]

/-- The number that big-endian bytes stand for. -/
def beToNat (b : Bytes) : Nat := b.foldl (fun a x => a * 256 + x.toNat) 0

/-- `BN_bn2binpad`: the absolute value, padded; `none` stands for the return value -1 of a number that
does not fit, which leaves the buffer alone. -/
def bn2binpad (z : Int) (len : Nat) : Option Bytes :=
  if z.natAbs < 256 ^ len then some (natToBe len z.natAbs) else none

/-- openssl_suite.c:948-953 `__openssl_ecdsa_bn_to_bin` on a zeroed buffer of `size` bytes: -1 counts as true,
so that the function never fails. -/
def bnToBin (size : Nat) (r s : Int) : Bytes :=
  (bn2binpad r (size / 2)).getD (List.replicate (size / 2) 0) ++
    (bn2binpad s (size / 2)).getD (List.replicate (size / 2) 0)

/-- openssl_suite.c:942-946, the AWS-LC build: `BN_bn2bin_padded` gives 0 for a number that does not fit. -/
def bnToBinAws (size : Nat) (r s : Int) : Option Bytes :=
  (bn2binpad r (size / 2)).bind fun a => (bn2binpad s (size / 2)).map fun b => a ++ b

/-- `BN_num_bytes`. -/
def bnNumBytes (z : Int) : Nat := if z.natAbs = 0 then 0 else z.natAbs.log2 / 8 + 1

/-- openssl_suite.c:954-970, the build against OpenSSL before 1.1.0: each number is written so that it ends
at the end of its half; a number too long for what is in front of it is written before the buffer. -/
def bnToBinOld (size : Nat) (r s : Int) : Res Bytes :=
  let w := size / 2
  let buf := List.replicate size (0 : UInt8)
  if w < bnNumBytes r then .ub
  else
    let buf := buf.take (w - bnNumBytes r) ++ natToBe (bnNumBytes r) r.natAbs ++ buf.drop w
    if w * 2 < bnNumBytes s then .ub
    else .ok (buf.take (w * 2 - bnNumBytes s) ++ natToBe (bnNumBytes s) s.natAbs ++ buf.drop (w * 2))

/-- openssl_suite.c:973-1003 `openssl_ecdsa_to_raw` (non-NULL input). -/
def ecdsaToRaw (D : DerSig) (x : EcdsaResult) : Option Bytes :=
  match D.d2i x.sig with
  | none => none
  | some (r, s) => (zeroBuf x.curve.rawSize).map fun _ => bnToBin x.curve.rawSize r s

/-- `openssl_ecdsa_to_raw` in the AWS-LC build. -/
def ecdsaToRawAws (D : DerSig) (x : EcdsaResult) : Option Bytes :=
  match D.d2i x.sig with
  | none => none
  | some (r, s) => (zeroBuf x.curve.rawSize).bind fun _ => bnToBinAws x.curve.rawSize r s

/-- `openssl_ecdsa_to_raw` in the build against OpenSSL before 1.1.0. -/
def ecdsaToRawOld (D : DerSig) (x : EcdsaResult) : Res Bytes :=
  match D.d2i x.sig with
  | none => .null
  | some (r, s) => if (zeroBuf x.curve.rawSize).isSome then bnToBinOld x.curve.rawSize r s else .null

/-- openssl_suite.c:1005-1091 `openssl_ecdsa_from_raw` (non-NULL input). -/
def ecdsaFromRaw (D : DerSig) (c : Curve) (d : Digest) (raw : Bytes) : Option EcdsaResult :=
  if raw.length ≠ c.rawSize then none
  else
    let r := beToNat (raw.take (raw.length / 2))
    let s := beToNat ((raw.drop (raw.length / 2)).take (raw.length / 2))
    let out := D.i2d r s
    (zeroBuf out.length).map fun _ => ⟨c, d, out⟩

end Wickr
