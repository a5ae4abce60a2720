import Verif.Model.Buffer
/-
Model of b32.c.
-/
namespace Wickr

/-- b32.c:6 `alphabet` (Crockford). -/
def b32Alphabet : Bytes :=
  [48, 49, 50, 51, 52, 53, 54, 55, 56, 57, 65, 66, 67, 68, 69, 70,
   71, 72, 74, 75, 77, 78, 80, 81, 82, 83, 84, 86, 87, 88, 89, 90]

/-- b32.c:8-23 `__base32_encode_length`. -/
def b32EncodeLength (bytes : UInt64) : UInt64 :=
  if bytes ≥ 18446744073709551615 / 8 then 0
  else
    let bits := bytes * 8
    let length := bits / 5
    if bits % 5 > 0 then length + 1 else length

/-- b32.c:25-36 `__base32_decode_length`. -/
def b32DecodeLength (bytes : UInt64) : UInt64 :=
  if bytes ≥ 18446744073709551615 / 5 then 0
  else (bytes * 5) / 8

/-- b32.c:38-57 `__base32_encode_map`. -/
def b32EncodeMap : Bytes → Option Bytes
  | [] => some []
  | c :: cs => if c ≥ 32 then none else (b32EncodeMap cs).map (b32Alphabet.getD c.toNat 0 :: ·)

/-- b32.c:64-66: the assignments `out_map[alphabet[i]] = i`, in order. -/
def b32FillMap : List UInt8 → Nat → Bytes → Bytes
  | [], _, m => m
  | c :: cs, i, m => b32FillMap cs (i + 1) (m.set c.toNat (UInt8.ofNat i))

/-- b32.c:59-67 `__base32_decode_reverse_map`. -/
def b32ReverseMap : Bytes := b32FillMap b32Alphabet 0 (List.replicate 256 255)

/-- b32.c:69-90 `__base32_decode_unmap`.  (An `unsigned char` index never leaves the 256 entry map.) -/
def b32Unmap : Bytes → Option Bytes
  | [] => some []
  | c :: cs =>
    let m := b32ReverseMap.getD c.toNat 255
    if m = 255 then none else (b32Unmap cs).map (m :: ·)

/-- b32.c:94-104: packing 5 bytes. -/
def b32Pack5 : Bytes → UInt64 → UInt64
  | [], buffer => buffer
  | c :: cs, buffer => b32Pack5 cs ((buffer <<< 8) ||| c.toUInt64)

/-- b32.c:107-120: the output loop, `j` counting down from `k - 1`. -/
def b32Out8 : Nat → UInt64 → Option Bytes
  | 0, _ => some []
  | j + 1, buffer =>
    let s : UInt64 := UInt64.ofNat (24 + (7 - j) * 5)
    let buffer := (buffer <<< s) >>> s
    let c := (buffer >>> UInt64.ofNat (j * 5)).toUInt8
    if c ≥ 32 then none else (b32Out8 j buffer).map (c :: ·)

/-- b32.c:92-123 `__base32_encode_block` (the shift before the first byte acts on 0). -/
def b32EncodeBlock (in5 : Bytes) : Option Bytes := b32Out8 8 (b32Pack5 in5 0)

/-- b32.c:130-142: packing 8 digits. -/
def b32Pack8 : Bytes → UInt64 → Option UInt64
  | [], buffer => some buffer
  | c :: cs, buffer => if c ≥ 32 then none else b32Pack8 cs ((buffer <<< 5) ||| c.toUInt64)

/-- b32.c:145-147: the output loop. -/
def b32Out5 : Nat → UInt64 → Bytes
  | 0, _ => []
  | j + 1, buffer => (buffer >>> UInt64.ofNat (j * 8)).toUInt8 :: b32Out5 j buffer

/-- b32.c:125-150 `__base32_decode_block`. -/
def b32DecodeBlock (in8 : Bytes) : Option Bytes := (b32Pack8 in8 0).map (b32Out5 5)

/-- b32.c:153-187 `__base32_encode_base32`: whole blocks of 5, then the zero-padded rest of which
`__base32_encode_length(r)` digits are kept.  The loop over blocks is written as recursion on the
input, and the output pointer as the returned list. -/
def b32EncodeAll : Bytes → Option Bytes
  | a :: b :: c :: d :: e :: rest =>
    match b32EncodeBlock [a, b, c, d, e] with
    | none => none
    | some o => (b32EncodeAll rest).map (o ++ ·)
  | r =>
    (b32EncodeBlock (r ++ List.replicate (5 - r.length) 0)).map
      (List.take (b32EncodeLength (UInt64.ofNat r.length)).toNat)

/-- b32.c:189-221 `__base32_decode_base32`. -/
def b32DecodeAll : Bytes → Option Bytes
  | a :: b :: c :: d :: e :: f :: g :: h :: rest =>
    match b32DecodeBlock [a, b, c, d, e, f, g, h] with
    | none => none
    | some o => (b32DecodeAll rest).map (o ++ ·)
  | r =>
    (b32DecodeBlock (r ++ List.replicate (8 - r.length) 0)).map
      (List.take (b32DecodeLength (UInt64.ofNat r.length)).toNat)

/-- b32.c:223-247 `base32_encode`.  The digits are written to a zeroed buffer of
`__base32_encode_length` bytes; writing more is undefined. -/
def base32Encode (buffer : Option Bytes) : Res Bytes :=
  match buffer with
  | none => .null
  | some b =>
    let len := b32EncodeLength (UInt64.ofNat b.length)
    if !canAlloc len then .null
    else match b32EncodeAll b with
      | none => .null
      | some o =>
        (memWrite (List.replicate len.toNat 0) 0 o).bind fun m =>
          match b32EncodeMap m with
          | none => .null
          | some t => .ok t

/-- b32.c:249-292 `base32_decode`.  The object has one spare byte, `length` excludes it. -/
def base32Decode (buffer : Option Bytes) : Res Bytes :=
  match bufCopy buffer with
  | none => .null
  | some b =>
    match b32Unmap b with
    | none => .null
    | some u =>
      let len := b32DecodeLength (UInt64.ofNat u.length)
      if len = 0 then .null
      else if !canAlloc (len + 1) then .null
      else match b32DecodeAll u with
        | none => .null
        | some o =>
          (memWrite (List.replicate (len + 1).toNat 0) 0 o).bind fun m => .ok (m.take len.toNat)

end Wickr
