import Verif.Model.Buffer
/-
Model of the base64 part of util.c.
-/
namespace Wickr

/-- A `wickr_buffer_t` together with the whole object its `bytes` pointer points to: `mem` may be
longer than `length` (util.c hands out NUL-terminated texts whose `length` excludes the NUL). -/
structure CBuf where
  mem : Bytes
  length : Nat
deriving DecidableEq, Repr

/-- The declared content of the buffer. -/
def CBuf.content (b : CBuf) : Bytes := b.mem.take b.length

/-- libc `strlen`: undefined when there is no NUL in the object. -/
def strlen : Bytes → Res Nat
  | [] => .ub
  | c :: cs => if c = 0 then .ok 0 else (strlen cs).bind fun n => .ok (n + 1)

/-- util.c:16 `_base64EncodingTable`. -/
def b64Table : Bytes :=
  [65, 66, 67, 68, 69, 70, 71, 72, 73, 74, 75, 76, 77, 78, 79, 80,
   81, 82, 83, 84, 85, 86, 87, 88, 89, 90, 97, 98, 99, 100, 101, 102,
   103, 104, 105, 106, 107, 108, 109, 110, 111, 112, 113, 114, 115, 116, 117, 118,
   119, 120, 121, 122, 48, 49, 50, 51, 52, 53, 54, 55, 56, 57, 43, 47]

/-- util.c:17-34 `_base64DecodingTable`. -/
def b64DecTable : List Int :=
  [-2, -2, -2, -2, -2, -2, -2, -2, -2, -1, -1, -2, -1, -1, -2, -2,
   -2, -2, -2, -2, -2, -2, -2, -2, -2, -2, -2, -2, -2, -2, -2, -2,
   -1, -2, -2, -2, -2, -2, -2, -2, -2, -2, -2, 62, -2, -2, -2, 63,
   52, 53, 54, 55, 56, 57, 58, 59, 60, 61, -2, -2, -2, -2, -2, -2,
   -2, 0, 1, 2, 3, 4, 5, 6, 7, 8, 9, 10, 11, 12, 13, 14,
   15, 16, 17, 18, 19, 20, 21, 22, 23, 24, 25, -2, -2, -2, -2, -2,
   -2, 26, 27, 28, 29, 30, 31, 32, 33, 34, 35, 36, 37, 38, 39, 40,
   41, 42, 43, 44, 45, 46, 47, 48, 49, 50, 51, -2, -2, -2, -2, -2,
   -2, -2, -2, -2, -2, -2, -2, -2, -2, -2, -2, -2, -2, -2, -2, -2,
   -2, -2, -2, -2, -2, -2, -2, -2, -2, -2, -2, -2, -2, -2, -2, -2,
   -2, -2, -2, -2, -2, -2, -2, -2, -2, -2, -2, -2, -2, -2, -2, -2,
   -2, -2, -2, -2, -2, -2, -2, -2, -2, -2, -2, -2, -2, -2, -2, -2,
   -2, -2, -2, -2, -2, -2, -2, -2, -2, -2, -2, -2, -2, -2, -2, -2,
   -2, -2, -2, -2, -2, -2, -2, -2, -2, -2, -2, -2, -2, -2, -2, -2,
   -2, -2, -2, -2, -2, -2, -2, -2, -2, -2, -2, -2, -2, -2, -2, -2,
   -2, -2, -2, -2, -2, -2, -2, -2, -2, -2, -2, -2, -2, -2, -2, -2]

/-- A read of `_base64EncodingTable`.  0 stands for a read outside the table; C06 proves that all
characters produced are from the alphabet, so this never happens. -/
def b64Enc (i : UInt8) : UInt8 := b64Table.getD i.toNat 0

/-- util.c:58-82: the text written for the remaining bytes (the `while` loop, then the tail). -/
def b64Text : Bytes → Bytes
  | a :: b :: c :: rest =>
    b64Enc (a >>> 2) :: b64Enc (((a &&& 0x03) <<< 4) + (b >>> 4)) ::
    b64Enc (((b &&& 0x0f) <<< 2) + (c >>> 6)) :: b64Enc (c &&& 0x3f) :: b64Text rest
  | [a, b] => [b64Enc (a >>> 2), b64Enc (((a &&& 0x03) <<< 4) + (b >>> 4)), b64Enc ((b &&& 0x0f) <<< 2), 61]
  | [a] => [b64Enc (a >>> 2), b64Enc ((a &&& 0x03) <<< 4), 61, 61]
  | [] => []

/-- util.c:36-88 `getBase64FromData`.  `fill` is the uninitialised content of the new buffer.
The `size_t` expression of line 53 cannot wrap for an object that fits in memory, so it is
written over `Nat`. -/
def base64Encode (fill : Nat → UInt8) (data : Option Bytes) : Res CBuf :=
  match data with
  | none => .null
  | some d =>
    if d.length = 0 then .null
    else
      let cap := ((d.length + 2) / 3) * 4 + 1
      if cap > maxBuffer then .null
      else
        (memWrite ((List.range cap).map fill) 0 (b64Text d ++ [0])).bind fun mem =>
          (strlen mem).bind fun n => .ok ⟨mem, n⟩

/-- Store one byte into an object. -/
def storeByte (m : Bytes) (i : Nat) (v : UInt8) : Res Bytes :=
  if i < m.length then .ok (m.set i v) else .ub

/-- `m[i] |= v`. -/
def orByte (m : Bytes) (i : Nat) (v : UInt8) : Res Bytes :=
  match m[i]? with
  | none => .ub
  | some x => .ok (m.set i (x ||| v))

/-- Locals of `getDataFromBase64` when the loop ends: the last character read, `i`, `j`, and the
result object. -/
structure B64State where
  cur : UInt8
  i : Nat
  j : Nat
  out : Bytes
deriving DecidableEq

/-- util.c:133-152: one value character. -/
def b64Put (v : UInt8) (i j : Nat) (out : Bytes) : Res (Nat × Bytes) :=
  if i % 4 = 0 then (storeByte out j (v <<< 2)).bind fun o => .ok (j, o)
  else if i % 4 = 1 then
    (orByte out j (v >>> 4)).bind fun o => (storeByte o (j + 1) ((v &&& 0x0f) <<< 4)).bind fun o => .ok (j + 1, o)
  else if i % 4 = 2 then
    (orByte out j (v >>> 2)).bind fun o => (storeByte o (j + 1) ((v &&& 0x03) <<< 6)).bind fun o => .ok (j + 1, o)
  else (orByte out j v).bind fun o => .ok (j + 1, o)

/-- util.c:113-153: the main loop.  The first argument is the memory from `objPointer` on, `n` is
`intLength`.  `char` is taken to be signed (x86, Apple ARM): a byte above 127 indexes the table
with a negative number, which is undefined. -/
def b64Loop : Bytes → Nat → Nat → Nat → Bytes → Res B64State
  | [], _, _, _, _ => .ub
  | c :: rest, n, i, j, out =>
    if c = 0 ∨ n = 0 then .ok ⟨c, i, j, out⟩
    else if c = 61 then
      match rest with
      | [] => .ub
      | d :: _ => if d ≠ 61 ∧ i % 4 = 1 then .null else b64Loop rest (n - 1) i j out
    else if c ≥ 128 then .ub
    else
      let v := b64DecTable.getD c.toNat (-2)
      if v = -1 then b64Loop rest (n - 1) i j out
      else if v = -2 then .null
      else (b64Put (UInt8.ofNat v.toNat) i j out).bind fun (j', out') => b64Loop rest (n - 1) (i + 1) j' out'

/-- util.c:155-170: mopping up. -/
def b64Finish (s : B64State) : Res Bytes :=
  if s.cur = 61 then
    if s.i % 4 = 1 then .null
    else if s.i % 4 = 2 then storeByte s.out (s.j + 1) 0
    else if s.i % 4 = 3 then storeByte s.out s.j 0
    else .ok s.out
  else .ok s.out

/-- util.c:90-174 `getDataFromBase64`.  The result is the buffer content `bytes[0..length)`. -/
def base64Decode (text : Option CBuf) : Res Bytes :=
  match text with
  | none => .null
  | some t =>
    (strlen t.mem).bind fun n0 =>
      let n := if n0 > t.length then t.length else n0
      if n = 0 ∨ n > maxBuffer then .null
      else (b64Loop t.mem n 0 0 (List.replicate n 0)).bind fun s =>
        (b64Finish s).bind fun out => .ok (out.take s.j)

end Wickr
