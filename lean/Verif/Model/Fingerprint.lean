import Verif.Model.Identity
import Verif.Model.Hex
import Verif.Model.Base32
/-
Model of fingerprint.c and of the fingerprint functions of identity.c.

There is one fingerprint type (fingerprint.h:61), so a fingerprint is its data.  Fingerprints are
non-NULL with non-NULL data (fingerprint.c:122-138).
-/
namespace Wickr

/-- fingerprint.c:7-27 `__wickr_fingerprint_sha512_create`. -/
def fpDigest (E : Engine) (input : Option Bytes) : Option Bytes :=
  input.bind fun b => E.digest b none .sha512

/-- fingerprint.c:88-107 `wickr_fingerprint_gen` with `__wickr_fingerprint_sha512_encode` (29-43). -/
def fpGen (E : Engine) (key : EcKey) (identifier : Bytes) : Option Bytes :=
  (ecKeyPubFixed key).bind fun p => fpDigest E (concat2 (some identifier) (some p))

/-- fingerprint.c:57-74: the loop over two fingerprints of the same length; the one with the greater
first differing byte comes first, equal ones leave NULL. -/
def fpOrder (f1 f2 : Bytes) : Bytes → Bytes → Option Bytes
  | a :: as, b :: bs =>
    if a = b then fpOrder f1 f2 as bs
    else if a > b then concat2 (some f1) (some f2) else concat2 (some f2) (some f1)
  | _, _ => none

/-- fingerprint.c:45-86 `__wickr_fingerprint_sha512_combine`; also
`wickr_fingerprint_gen_bilateral` (109-120). -/
def fpCombine (E : Engine) (f1 f2 : Bytes) : Option Bytes :=
  if f1.length ≠ f2.length then none
  else (fpOrder f1 f2 f1 f2).bind fun c => fpDigest E (some c)

/-- fingerprint.c:140-159 `wickr_fingerprint_copy`. -/
def fpCopy (f : Bytes) : Option Bytes := dup f

/-- identity.c:163-172 `wickr_identity_get_fingerprint`. -/
def identityFp (E : Engine) (i : Identity) : Option Bytes := fpGen E i.key i.identifier

/-- identity.c:174-210 `wickr_identity_get_bilateral_fingerprint`. -/
def bilateralFp (E : Engine) (i j : Identity) : Option Bytes :=
  (fpGen E i.key i.identifier).bind fun a => (fpGen E j.key j.identifier).bind fun b => fpCombine E a b

/-- fingerprint.c:174-194 `__wickr_fingerprint_encode_for_output_mode`: in short mode the text is
dereferenced without a NULL test. -/
def fpOutput (text : Res CBuf) (short : Bool) : Res CBuf :=
  match text with
  | .ub => .ub
  | .null => if short then .ub else .null
  | .ok t =>
    if short then (memWrite t.mem (t.length / 2) [0]).bind fun m => .ok ⟨m, t.length / 2⟩
    else .ok t

/-- fingerprint.c:196-199 `wickr_fingerprint_get_b32`; the object base32_encode allocates has exactly
the length of the text. -/
def fpB32 (f : Bytes) (short : Bool) : Res CBuf :=
  fpOutput ((base32Encode (some f)).bind fun t => .ok ⟨t, t.length⟩) short

/-- fingerprint.c:201-204 `wickr_fingerprint_get_hex`; `fill` is the fresh memory. -/
def fpHex (fill : Nat → UInt8) (f : Bytes) (short : Bool) : Res CBuf := fpOutput (hexEncode fill (some f)) short

end Wickr
