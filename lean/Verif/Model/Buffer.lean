import Verif.Model.Basic
/-
Model of buffer.c.
-/
namespace Wickr

/-- `buffer->length` as the `size_t` the C code computes with.  A C object is smaller than
2^64 bytes, see `Fits`. -/
def len64 (b : Bytes) : UInt64 := UInt64.ofNat b.length

/-- Every C object has a size that fits `size_t`. -/
def Fits (b : Bytes) : Prop := b.length < 2 ^ 64

/-- buffer.c:6-25 `__validate_buffer_range` (the NULL test is done by the callers below). -/
def validateRange (length start len : UInt64) : Bool :=
  if start ≥ maxBuffer64 || len ≥ maxBuffer64 || len == 0 then false
  else if len > maxBuffer64 - start then false
  else if length < start + len then false
  else true

/-- buffer.c:27-59 `__wickr_buffer_create_empty`: which lengths can be allocated. -/
def canAlloc (len : UInt64) : Bool := !(len > maxBuffer64 || len == 0)

/-- buffer.c:61-76 `wickr_buffer_create` for a non-NULL source of `b.length` bytes. -/
def bufCreate (b : Bytes) : Option Bytes :=
  if canAlloc (len64 b) then some b else none

/-- buffer.c:78-84 `wickr_buffer_copy`. -/
def bufCopy : Option Bytes → Option Bytes
  | none => none
  | some b => bufCreate b

/-- Reading `len` bytes at offset `start` of an object; `ub` when the range leaves it. -/
def memRead (b : Bytes) (start len : Nat) : Res Bytes :=
  if start + len ≤ b.length then .ok ((b.drop start).take len) else .ub

/-- Writing `src` at offset `start` of an object; `ub` when the range leaves it. -/
def memWrite (b : Bytes) (start : Nat) (src : Bytes) : Res Bytes :=
  if start + src.length ≤ b.length then
    .ok (b.take start ++ src ++ b.drop (start + src.length))
  else .ub

/-- buffer.c:86-97 `wickr_buffer_copy_section`, with the memory access made explicit. -/
def copySectionC (source : Option Bytes) (start len : UInt64) : Res Bytes :=
  match source with
  | none => .null
  | some b =>
    if !validateRange (len64 b) start len then .null
    else if !canAlloc len then .null
    else memRead b start.toNat len.toNat

/-- buffer.c:86-97 again, as a plain partial function: the form used by the other modules.
`copySectionC_eq` proves that it agrees with `copySectionC`. -/
def copySection (b : Bytes) (start len : Nat) : Option Bytes :=
  if start < maxBuffer ∧ 0 < len ∧ len < maxBuffer ∧ start + len ≤ maxBuffer
      ∧ start + len ≤ b.length then
    some ((b.drop start).take len)
  else none

/-- buffer.c:99-123 `wickr_buffer_concat`; `fill` is the uninitialised content of the freshly
allocated buffer. -/
def concatC (fill : Nat → UInt8) (b1 b2 : Option Bytes) : Res Bytes :=
  match b1, b2 with
  | some b1, some b2 =>
    if len64 b1 > maxBuffer64 || len64 b2 > maxBuffer64 then .null
    else if maxBuffer64 - len64 b1 < len64 b2 then .null
    else if !canAlloc (len64 b1 + len64 b2) then .null
    else
      let fresh := (List.range (len64 b1 + len64 b2).toNat).map fill
      (memWrite fresh 0 b1).bind fun m => memWrite m b1.length b2
  | _, _ => .null

/-- buffer.c:134-146: first pass of `wickr_buffer_concat_multi`, computing the total size;
`none` is the early `return NULL`. -/
def concatCount : List (Option Bytes) → UInt64 → Option UInt64
  | [], count => some count
  | none :: bs, count => concatCount bs count
  | some b :: bs, count =>
    if len64 b == 0 then concatCount bs count
    else if len64 b > maxBuffer64 || maxBuffer64 - count < len64 b then none
    else concatCount bs (count + len64 b)

/-- buffer.c:158-167: second pass of `wickr_buffer_concat_multi`, copying the pieces. -/
def concatFill : List (Option Bytes) → UInt64 → Bytes → Res Bytes
  | [], _, m => .ok m
  | none :: bs, count, m => concatFill bs count m
  | some b :: bs, count, m =>
    if len64 b == 0 then concatFill bs count m
    else (memWrite m count.toNat b).bind fun m' => concatFill bs (count + len64 b) m'

/-- buffer.c:125-170 `wickr_buffer_concat_multi` for a non-NULL array.  `n_buffers` is the
length of the list; being a `uint8_t` it is at most 255, which no theorem needs. -/
def concatMultiC (fill : Nat → UInt8) (bs : List (Option Bytes)) : Res Bytes :=
  if bs.length = 0 then .null
  else match concatCount bs 0 with
    | none => .null
    | some count =>
      if !canAlloc count then .null
      else concatFill bs 0 ((List.range count.toNat).map fill)

/-- The bytes a NULL-able buffer contributes to a concatenation. -/
def optBytes : Option Bytes → Bytes
  | none => []
  | some b => b

/-- buffer.c:125-170 as a plain partial function, the form used by the other modules.
`concatMultiC_eq` proves that it agrees with `concatMultiC`. -/
def concatMulti (bs : List (Option Bytes)) : Option Bytes :=
  let all := bs.flatMap optBytes
  if all.length = 0 ∨ all.length > maxBuffer then none else some all

/-- buffer.c:99-123 as a plain partial function, the form used by the other modules. -/
def concat2 (b1 b2 : Option Bytes) : Option Bytes :=
  match b1, b2 with
  | some b1, some b2 =>
    if b1.length + b2.length = 0 ∨ b1.length + b2.length > maxBuffer then none
    else some (b1 ++ b2)
  | _, _ => none

/-- buffer.c:172-185 `wickr_buffer_modify_section` applied to a non-NULL buffer and source.
`src` is the memory readable at `bytes`; reading `len` bytes of it is undefined when it is
shorter.  Result: return value and new content of the buffer. -/
def modifySectionC (b : Bytes) (src : Bytes) (start len : UInt64) : Res (Bool × Bytes) :=
  if !validateRange (len64 b) start len then .ok (false, b)
  else (memRead src 0 len.toNat).bind fun s =>
    (memWrite b start.toNat s).bind fun b' => .ok (true, b')

/-- buffer.c:187-210 `wickr_buffer_is_equal`.  `cmp` is the supplied comparison function
(`none` for NULL, in which case `memcmp` is used), returning an `int`. -/
def bufIsEqual (b1 b2 : Option Bytes) (cmp : Option (Bytes → Bytes → Int)) : Bool :=
  match b1, b2 with
  | some b1, some b2 =>
    if len64 b1 ≠ len64 b2 then false
    else match cmp with
      | none => if b1 ≠ b2 then false else true
      | some f => if f b1 b2 ≠ 0 then false else true
  | _, _ => false

end Wickr
