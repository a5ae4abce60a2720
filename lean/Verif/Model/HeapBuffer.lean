import Verif.Model.Heap
/-
buffer.c on the heap: allocation, copying and release of `wickr_buffer_t`.  Bounds and contents are the subject
of C01-C04; copies into a new buffer are made at once here.
-/
namespace Wickr

/-- buffer.c:27-49 `__wickr_buffer_create_empty`. -/
def hBufNew (n : Nat) (zeroed : Bool) : H Ptr :=
  if n > maxBuffer ∨ n = 0 then pure none
  else do
    let p ← alloc (.obj (.len 0) [none])
    match p with
    | none => pure none
    | some _ => do
      let q ← alloc (if zeroed then .bytes (List.replicate n 0) else .raw n)
      match q with
      | none => do
        free p
        pure none
      | some _ => do
        store p (.obj (.len n) [q])
        pure p

/-- buffer.c:61-76 `wickr_buffer_create`. -/
def hBufCreate (b : Bytes) : H Ptr := do
  let p ← hBufNew b.length false
  match p with
  | none => pure none
  | some _ => do
    let q ← field p 0
    fill q b
    pure p

/-- Reading the bytes of a buffer; a length field larger than the block is undefined. -/
def readBuf (p : Ptr) : H Bytes := do
  let o ← loadObj p
  match o with
  | (.len n, [q]) => do
    let b ← loadBytes q
    if n ≤ b.length then pure (b.take n) else undefined
  | _ => undefined

/-- buffer.c:78-84 `wickr_buffer_copy`. -/
def hBufCopy (p : Ptr) : H Ptr :=
  match p with
  | none => pure none
  | some _ => do
    let b ← readBuf p
    hBufCreate b

/-- buffer.c:86-97 `wickr_buffer_copy_section`. -/
def hBufSection (p : Ptr) (start len : Nat) : H Ptr :=
  match p with
  | none => pure none
  | some _ => do
    let b ← readBuf p
    match copySection b start len with
    | none => pure none
    | some d => hBufCreate d

/-- buffer.c:221-231 `wickr_buffer_destroy`. -/
def hBufDestroy (p : Ptr) : H Ptr :=
  match p with
  | none => pure none
  | some _ => do
    let q ← field p 0
    free q
    free p
    pure none

/-- buffer.c:211-219 `wickr_buffer_destroy_zero`. -/
def hBufDestroyZero (p : Ptr) : H Ptr :=
  match p with
  | none => pure none
  | some _ => do
    let o ← loadObj p
    match o with
    | (.len n, [q]) => do
      zero q n
      hBufDestroy p
    | _ => undefined

end Wickr
