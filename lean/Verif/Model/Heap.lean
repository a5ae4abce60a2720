import Verif.Model.Storage
import Verif.Model.Message
import Verif.Model.Stream
import Verif.Model.Kdf
import Verif.Model.TransportCtx
/-
The heap of a C program, and the operations of memory.c on it.

Allocation may fail at any time: a program runs under an arbitrary allocator, which picks the address of each
block or refuses.  There are three outcomes: the program returns; it dereferences NULL (`crash`); it does
something worse (`ub`: use after free, double free, reading memory that was never written).  The content of
every block of bytes is noted when the block is released, so that wiping can be stated.
-/
namespace Wickr

abbrev Addr := Nat
/-- A pointer; `none` is NULL. -/
abbrev Ptr := Option Addr

/-- The fields of a structure that are not pointers. -/
inductive Scal where
  | plain
  | len (n : Nat)
  | curve (c : Curve)
  | sig (c : Curve) (d : Digest)
  | cipher (c : Cipher)
  | idType (t : IdType)
  | status (s : Status)
  | num (n : UInt64)
  | info (ttl bor : UInt64) (contentType : UInt16)
  | ver (v : UInt8)
  | parse (e : DecodeErr) (s : SigStatus)
  | err (e : DecodeErr)
  | kdf (a : KdfAlgo)
  | ppe (n : UInt32)
  | iv (c : Cipher) (n : UInt64)
  | stream (seq : UInt64) (d : Dir) (ref : UInt64)
  | root (c : Cipher) (send recv : UInt32)
  | tpkt (m : PktMeta)
  | hs (s : HsStatus) (isInitiator : Bool) (evo : UInt32)
  | tctx (s : TStatus) (evo : UInt32) (e : TErr)
deriving Repr, DecidableEq

/-- A block: uninitialised bytes, bytes, or a structure (its plain fields and its pointers, in order). -/
inductive Cell where
  | raw (n : Nat)
  | bytes (b : Bytes)
  | obj (s : Scal) (ps : List Ptr)
deriving Repr, DecidableEq

abbrev Heap := Addr → Option Cell

structure St where
  heap : Heap
  /-- how many allocations were asked for -/
  count : Nat
  /-- whether one of them failed -/
  oom : Bool
  /-- what the released blocks of bytes contained -/
  log : List Bytes

/-- `malloc`: picks an address that is not in use, or fails. -/
structure Alloc where
  pick : Heap → Nat → Option Addr
  fresh : ∀ h n a, pick h n = some a → h a = none

inductive Out (α : Type) where
  | ret (a : α) (s : St)
  | crash (s : St)
  | ub

/-- Programs. -/
def H (α : Type) := Alloc → St → Out α

namespace H

def bind (m : H α) (k : α → H β) : H β := fun A s =>
  match m A s with
  | .ret a s => k a A s
  | .crash s => .crash s
  | .ub => .ub

instance : Monad H where
  pure a := fun _ s => .ret a s
  bind := bind

end H

def Heap.set (h : Heap) (a : Addr) (c : Cell) : Heap := fun x => if x = a then some c else h x
def Heap.del (h : Heap) (a : Addr) : Heap := fun x => if x = a then none else h x

/-- memory.c:10-24 `wickr_alloc`, `wickr_alloc_zero` (length not 0): `c` is what the new block holds. -/
def alloc (c : Cell) : H Ptr := fun A s =>
  match A.pick s.heap s.count with
  | none => .ret none { s with count := s.count + 1, oom := true }
  | some a => .ret (some a) { s with heap := s.heap.set a c, count := s.count + 1 }

/-- memory.c:26-32 `wickr_free`. -/
def free (p : Ptr) : H Unit := fun _ s =>
  match p with
  | none => .ret () s
  | some a =>
    match s.heap a with
    | none => .ub
    | some (.bytes b) => .ret () { s with heap := s.heap.del a, log := b :: s.log }
    | some _ => .ret () { s with heap := s.heap.del a }

/-- Reading a structure. -/
def loadObj (p : Ptr) : H (Scal × List Ptr) := fun _ s =>
  match p with
  | none => .crash s
  | some a =>
    match s.heap a with
    | some (.obj x ps) => .ret (x, ps) s
    | _ => .ub

/-- Reading bytes; reading uninitialised bytes is undefined. -/
def loadBytes (p : Ptr) : H Bytes := fun _ s =>
  match p with
  | none => .crash s
  | some a =>
    match s.heap a with
    | some (.bytes b) => .ret b s
    | _ => .ub

/-- Overwriting a block. -/
def store (p : Ptr) (c : Cell) : H Unit := fun _ s =>
  match p with
  | none => .crash s
  | some a =>
    match s.heap a with
    | some _ => .ret () { s with heap := s.heap.set a c }
    | none => .ub

/-- memory.c:34-55 `wickr_zero` over the first `n` bytes of a block of bytes; more than there are is undefined. -/
def zero (p : Ptr) (n : Nat) : H Unit := fun _ s =>
  match p with
  | none => .ret () s
  | some a =>
    match s.heap a with
    | some (.bytes b) =>
      if n ≤ b.length then .ret () { s with heap := s.heap.set a (.bytes (List.replicate n 0 ++ b.drop n)) } else .ub
    | _ => .ub

/-- Undefined behaviour. -/
def undefined {α : Type} : H α := fun _ _ => .ub

/-- `memcpy` of `b` over a whole block of the same size. -/
def fill (p : Ptr) (b : Bytes) : H Unit := fun _ s =>
  match p with
  | none => .crash s
  | some a =>
    match s.heap a with
    | some (.bytes d) => if d.length = b.length then .ret () { s with heap := s.heap.set a (.bytes b) } else .ub
    | some (.raw n) => if n = b.length then .ret () { s with heap := s.heap.set a (.bytes b) } else .ub
    | _ => .ub

/-- The pointer in field `i` of a structure. -/
def field (p : Ptr) (i : Nat) : H Ptr := do
  let (_, ps) ← loadObj p
  match ps[i]? with
  | some q => pure q
  | none => undefined

/-- The plain fields of a structure. -/
def scal (p : Ptr) : H Scal := do
  let (x, _) ← loadObj p
  pure x

/-- Writes the plain fields. -/
def setScal (p : Ptr) (x : Scal) : H Unit := do
  let (_, ps) ← loadObj p
  store p (.obj x ps)

/-- `p = m; if (!p) { bad } k`. -/
def onNull {β : Type} (m : H Ptr) (bad : H β) (k : Ptr → H β) : H β := do
  let p ← m
  match p with
  | none => bad
  | some _ => k p

/-- `p->field = q`. -/
def setField (p : Ptr) (i : Nat) (q : Ptr) : H Unit := do
  let (x, ps) ← loadObj p
  if i < ps.length then store p (.obj x (ps.set i q)) else undefined

/-- `destroy(&p->field)`: the destroy functions of the library set the pointer they are given to NULL. -/
def destroyField (d : Ptr → H Ptr) (p : Ptr) (i : Nat) : H Unit := do
  let q ← field p i
  let q ← d q
  setField p i q

end Wickr
