/-
Basic vocabulary shared by all model files.
-/
namespace Wickr

/-- Contents of a `wickr_buffer_t` (buffer.h:45-70 `struct wickr_buffer { size_t length; uint8_t *bytes; }`).
A `wickr_buffer_t *` is modelled as `Option Bytes`, `none` being `NULL`. -/
abbrev Bytes := List UInt8

/-- Outcome of a C function returning a pointer: a value, `NULL`, or undefined behaviour
(an access outside an object, a NULL dereference, ...). -/
inductive Res (α : Type) where
  | ok (a : α)
  | null
  | ub
deriving Repr, DecidableEq

namespace Res
/-- Sequencing: `NULL` and undefined behaviour propagate. -/
def bind {α β : Type} (x : Res α) (f : α → Res β) : Res β :=
  match x with
  | ok a => f a
  | null => null
  | ub => ub

/-- A NULL-able value seen as an outcome. -/
def ofOption {α : Type} : Option α → Res α
  | some a => ok a
  | none => null
end Res

/-- `MAX_BUFFER_SIZE = INT32_MAX - sizeof(wickr_buffer_t)` (buffer.h:74); the struct has
16 bytes on a 64-bit target (the only one modelled). -/
def maxBuffer : Nat := 2147483647 - 16

/-- `MAX_BUFFER_SIZE` as a `size_t`. -/
def maxBuffer64 : UInt64 := UInt64.ofNat maxBuffer

/-- Little-endian image of a `uint64_t` as produced by `memcpy` from the variable
(transport_packet.c:57, 69; stream_iv.c:74-91).  A little-endian target is assumed. -/
def le64 (n : UInt64) : Bytes :=
  [n.toUInt8, (n >>> 8).toUInt8, (n >>> 16).toUInt8, (n >>> 24).toUInt8,
   (n >>> 32).toUInt8, (n >>> 40).toUInt8, (n >>> 48).toUInt8, (n >>> 56).toUInt8]

/-- Reading a `uint64_t` by `memcpy` from 8 bytes (transport_packet.c:105, 117). -/
def fromLe64 : Bytes → UInt64
  | [] => 0
  | b :: bs => b.toUInt64 ||| (fromLe64 bs <<< 8)

end Wickr
