import Verif.Model.Base64
/-
Model of the hex part of util.c.
-/
namespace Wickr

/-- util.c:177 `byteMap`. -/
def hexMap : Bytes := [48, 49, 50, 51, 52, 53, 54, 55, 56, 57, 97, 98, 99, 100, 101, 102]

/-- util.c:180-186 `nibbleToChar`. -/
def nibbleToChar (n : UInt8) : UInt8 := if n.toNat < hexMap.length then hexMap.getD n.toNat 42 else 42

/-- util.c:202-205: the text written for the bytes. -/
def hexText : Bytes → Bytes
  | [] => []
  | b :: bs => nibbleToChar (b >>> 4) :: nibbleToChar (b &&& 0x0f) :: hexText bs

/-- util.c:191-212 `getHexStringFromData` (the `size_t` product does not wrap for an object that
fits in memory, and `unsigned int i` counts to at most MAX_BUFFER_SIZE). -/
def hexEncode (fill : Nat → UInt8) (data : Option Bytes) : Res CBuf :=
  match data with
  | none => .null
  | some d =>
    let cap := d.length * 2 + 1
    if cap > maxBuffer then .null
    else (memWrite ((List.range cap).map fill) 0 (hexText d ++ [0])).bind fun mem => .ok ⟨mem, cap - 1⟩

/-- The C-locale `isspace`, as used by `strtol`. -/
def isSpaceC (c : UInt8) : Bool := c = 32 || (9 ≤ c && c ≤ 13)

/-- Value of a hexadecimal digit. -/
def hexDigit? (c : UInt8) : Option Nat :=
  if 48 ≤ c ∧ c ≤ 57 then some (c.toNat - 48)
  else if 97 ≤ c ∧ c ≤ 102 then some (c.toNat - 87)
  else if 65 ≤ c ∧ c ≤ 70 then some (c.toNat - 55)
  else none

/-- Accumulate hexadecimal digits until the first other character. -/
def hexDigits : Bytes → Nat → Nat
  | [], acc => acc
  | c :: cs, acc => match hexDigit? c with | none => acc | some d => hexDigits cs (acc * 16 + d)

/-- libc `strtol(s, NULL, 16)` (no overflow at the lengths used here): leading white space, an
optional sign, an optional `0x` prefix, then digits; 0 when there are none. -/
def strtol16 (s : Bytes) : Int :=
  let s := s.dropWhile isSpaceC
  let (neg, s) : Bool × Bytes := match s with
    | [] => (false, [])
    | c :: t => if c = 45 then (true, t) else if c = 43 then (false, t) else (false, c :: t)
  let s := match s with
    | 48 :: x :: h :: t => if (x = 120 ∨ x = 88) ∧ (hexDigit? h).isSome then h :: t else s
    | _ => s
  if neg then - (hexDigits s 0 : Int) else (hexDigits s 0 : Int)

/-- util.c:215-221 `strToChar`: the low 8 bits of the number. -/
def strToChar (a b : UInt8) : UInt8 := UInt8.ofNat ((strtol16 [a, b]) % 256).toNat

/-- util.c:240-244: convert pairs of characters until a NUL is met at either position. -/
def hexPairs : Bytes → Bytes
  | a :: b :: rest => if a = 0 ∨ b = 0 then [] else strToChar a b :: hexPairs rest
  | _ => []

/-- util.c:223-250 `getDataFromHexString`.  The declared `length` of the input is not used, only
`strlen` of the memory.  The result buffer has `strlen / 2` bytes. -/
def hexDecode (text : Option CBuf) : Res Bytes :=
  match text with
  | none => .null
  | some t =>
    (strlen t.mem).bind fun n =>
      if n / 2 = 0 ∨ n / 2 > maxBuffer then .null
      else memWrite (List.replicate (n / 2) 0) 0 (hexPairs t.mem)

end Wickr
