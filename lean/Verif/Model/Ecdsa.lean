import Verif.Model.Algo
/-
Model of ecdsa.c (signature objects) and eckey.c (key objects).
-/
namespace Wickr

/-- ecdsa.h `wickr_ecdsa_result_t`. -/
structure EcdsaResult where
  curve : Curve
  digest : Digest
  sig : Bytes
deriving Repr, DecidableEq

/-- ecdsa.c:22-49 `wickr_ecdsa_result_create_from_buffer`. -/
def ecdsaFromBuffer (buffer : Bytes) : Option EcdsaResult :=
  if buffer.length < 2 then none
  else match buffer with
    | b0 :: b1 :: _ =>
      match Curve.find ((b0 &&& 0xF0) >>> 4), Digest.find (b0 &&& 0xF) with
      | some curve, some digest =>
        if buffer.length ≤ 2 + b1.toNat then none
        else
          let start := 2 + b1.toNat
          (copySection buffer start (buffer.length - start)).map fun k => ⟨curve, digest, k⟩
      | _, _ => none
    | _ => none

/-- buffer.c:27-59 `wickr_buffer_create_empty_zero`: zero-filled, NULL for length 0. -/
def zeroBuf (n : Nat) : Option Bytes :=
  if 0 < n ∧ n ≤ maxBuffer then some (List.replicate n 0) else none

/-- ecdsa.c:51-77 `wickr_ecdsa_result_serialize`. -/
def ecdsaSerialize (r : EcdsaResult) : Option Bytes :=
  if r.curve.sigSize < r.sig.length + 2 then none
  else
    let hdr : UInt8 := (r.curve.id <<< 4) ||| r.digest.id
    let pad := UInt8.ofNat (r.curve.sigSize - r.sig.length - 2)
    concatMulti [some [hdr], some [pad], zeroBuf pad.toNat, some r.sig]

/-- ecdsa.c:79-88 `wickr_ecdsa_result_copy`. -/
def ecdsaCopy (r : EcdsaResult) : Option EcdsaResult := (dup r.sig).map fun s => { r with sig := s }

/-- eckey.h `wickr_ec_key_t`: the public part is always present. -/
structure EcKey where
  curve : Curve
  pub : Bytes
  pri : Option Bytes
deriving Repr, DecidableEq

/-- eckey.c:20-44 `wickr_ec_key_copy`. -/
def ecKeyCopy (k : EcKey) : Option EcKey :=
  (dup k.pub).bind fun p => (dupOpt k.pri).map fun q => ⟨k.curve, p, q⟩

/-- eckey.c:46-68 `wickr_ec_key_get_pubdata_fixed_len` (the key is dereferenced before the NULL
test, so only non-NULL keys are modelled). -/
def ecKeyPubFixed (k : EcKey) : Option Bytes :=
  if k.pub.length = k.curve.maxPub then dup k.pub
  else if k.pub.length > k.curve.maxPub then none
  else some (k.pub ++ List.replicate (k.curve.maxPub - k.pub.length) 0)

end Wickr
