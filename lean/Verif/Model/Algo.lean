import Verif.Model.Buffer
/-
The constant tables of cipher.h, digest.h, eckey.h and the lookup functions over them.

Simplification: in C the descriptors are structs passed by value; the library only ever creates
the ones in these tables, so they are inductive types here.
-/
namespace Wickr

/-- cipher.h:35-67: the two ciphers. -/
inductive Cipher where
  | gcm
  | ctr
deriving Repr, DecidableEq

namespace Cipher
/-- cipher.h:35 `cipher_id` of the tables cipher.h:66-67. -/
def id : Cipher → UInt8
  | gcm => 0
  | ctr => 1
/-- cipher.h:66-67 `key_len`. -/
def keyLen : Cipher → Nat
  | gcm => 32
  | ctr => 32
/-- cipher.h:66-67 `iv_len`. -/
def ivLen : Cipher → Nat
  | gcm => 12
  | ctr => 16
/-- cipher.h:66-67 `auth_tag_len`. -/
def tagLen : Cipher → Nat
  | gcm => 16
  | ctr => 0
/-- cipher.h:66-67 `is_authenticated`. -/
def isAuth : Cipher → Bool
  | gcm => true
  | ctr => false
/-- cipher.c:5-14 `wickr_cipher_find`. -/
def find (i : UInt8) : Option Cipher :=
  if i = 0 then some gcm else if i = 1 then some ctr else none
end Cipher

/-- digest.h:33, 66-68. -/
inductive Digest where
  | sha256
  | sha384
  | sha512
deriving Repr, DecidableEq

namespace Digest
/-- digest.h:33 `wickr_digest_id`. -/
def id : Digest → UInt8
  | sha256 => 1
  | sha384 => 2
  | sha512 => 3
/-- digest.h:62-68 `size`. -/
def size : Digest → Nat
  | sha256 => 32
  | sha384 => 48
  | sha512 => 64
/-- digest.c:4-16 `wickr_digest_find_with_id`. -/
def find (i : UInt8) : Option Digest :=
  if i = 1 then some sha256 else if i = 2 then some sha384 else if i = 3 then some sha512 else none
end Digest

/-- eckey.h:49, 79: the only curve. -/
inductive Curve where
  | p521
deriving Repr, DecidableEq

namespace Curve
/-- eckey.h:49 `wickr_ec_curve_id`. -/
def id : Curve → UInt8
  | p521 => 0
/-- eckey.h:79 `signature_size`: 143. -/
def sigSize : Curve → Nat
  | p521 => 143
/-- eckey.h:79 `raw_signature_size`: 132. -/
def rawSize : Curve → Nat
  | p521 => 132
/-- eckey.h:79 `max_pub_size`: 134. -/
def maxPub : Curve → Nat
  | p521 => 134
/-- eckey.c:70-78 `wickr_ec_curve_find`. -/
def find (i : UInt8) : Option Curve := if i = 0 then some p521 else none
end Curve

/-- Which byte strings can be the content of a heap `wickr_buffer_t` (buffer.c:27-59: an
allocation of 0 bytes or of more than `MAX_BUFFER_SIZE` bytes is refused). -/
def ValidBuf (b : Bytes) : Prop := 0 < b.length ∧ b.length ≤ maxBuffer

instance (b : Bytes) : Decidable (ValidBuf b) := inferInstanceAs (Decidable (_ ∧ _))

/-- buffer.c:61-84 `wickr_buffer_create` / `wickr_buffer_copy` as a plain partial function;
`bufCreate_eq` proves that it agrees with `bufCreate`. -/
def dup (b : Bytes) : Option Bytes := if ValidBuf b then some b else none

/-- Copy of a NULL-able buffer that the caller treats as optional: `none` outside means the
caller gives up (the pattern `copy = wickr_buffer_copy(x); if (x && !copy) return NULL`,
e.g. stream_key.c:83-89). -/
def dupOpt : Option Bytes → Option (Option Bytes)
  | none => some none
  | some b => (dup b).map some

end Wickr
