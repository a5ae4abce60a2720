import Verif.Model.Buffer
/-
Model of array.c: arrays of pointers to heap-allocated items.

The world has a heap of items (address 0 is NULL, a freed or never allocated address holds
`none`) and a table of the array handles the program has created.  Items are abstract values `V`
and `cp` is the array's `item_copy_func`.  Array headers and the `item_store` block are not
heap objects of the model; a destroyed handle is `none` because `wickr_array_destroy` stores NULL
through the caller's pointer (array.c:157).
-/
namespace Wickr.Arr

variable {V : Type}

structure World (V : Type) where
  /-- live items by address -/
  heap : Nat → Option V
  /-- next address the allocator hands out -/
  next : Nat
  /-- array handles: `none` is a NULL handle, otherwise the pointers in the item store -/
  arrays : List (Option (List Nat))

/-- An empty program state. -/
def World.init : World V := ⟨fun _ => none, 1, []⟩

/-- Allocate an item on the heap. -/
def World.alloc (w : World V) (v : V) : World V × Nat :=
  ({ w with heap := fun p => if p = w.next then some v else w.heap p, next := w.next + 1 }, w.next)

/-- `item_destroy_func(&one_item)`: freeing an address that is not live is undefined. -/
def World.free (w : World V) (p : Nat) : Res (World V) :=
  match w.heap p with
  | none => .ub
  | some _ => .ok { w with heap := fun q => if q = p then none else w.heap q }

/-- The handle table lookup: out-of-table handles are NULL pointers. -/
def World.get (w : World V) (a : Nat) : Option (List Nat) := (w.arrays[a]?).join

/-- array.c:15-48 `wickr_array_new` with non-NULL item functions.  Result: the new handle, `none` for NULL. -/
def World.new (w : World V) (count : UInt32) : World V × Option Nat :=
  if count.toNat ≠ 0 ∧ ¬ canAlloc (UInt64.ofNat (8 * count.toNat)) then (w, none)
  else ({ w with arrays := w.arrays ++ [some (List.replicate count.toNat 0)] }, some w.arrays.length)

/-- array.c:50-57 `wickr_array_get_item_count`. -/
def World.count (w : World V) (a : Nat) : Nat :=
  match w.get a with
  | none => 0
  | some slots => slots.length

/-- array.c:68-75 `__wickr_array_pointer_to_index` (with the bounds test of 59-66). -/
def World.ptrAt (w : World V) (a : Nat) (i : Nat) : Nat :=
  match w.get a with
  | none => 0
  | some slots => if slots.length ≤ i then 0 else slots.getD i 0

/-- array.c:99-100: store the pointer with `wickr_buffer_modify_section` on the item store. -/
def World.store (w : World V) (a i p : Nat) : World V × Bool :=
  match w.get a with
  | none => (w, false)
  | some slots =>
    if validateRange (UInt64.ofNat (8 * slots.length)) (UInt64.ofNat (8 * i)) 8 then
      ({ w with arrays := w.arrays.set a (some (slots.set i p)) }, true)
    else (w, false)

/-- array.c:77-101 `wickr_array_set_item`.  `item` is the value of the object the caller passes
(`none` for a NULL item).  With `copy` the array allocates its own copy and destroys the previous
item; without, the caller's freshly allocated object is handed over to the array. -/
def World.set (cp : V → Option V) (w : World V) (a i : Nat) (item : Option V) (copy : Bool) :
    Res (World V × Bool) :=
  match w.get a with
  | none => .ok (w, false)
  | some slots =>
    if slots.length ≤ i then .ok (w, false)
    else
      let written : Option (World V × Nat) :=
        match item with
        | none => some (w, 0)
        | some v =>
          if copy then
            match cp v with
            | none => none
            | some v' => some (w.alloc v')
          else some (w.alloc v)
      match written with
      | none => .ok (w, false)
      | some (w1, p) =>
        let old := w1.ptrAt a i
        if old ≠ 0 ∧ copy then
          (w1.free old).bind fun w2 => .ok (w2.store a i p)
        else .ok (w1.store a i p)

/-- Reading the item behind a pointer (the copy function or the caller dereferences it). -/
def World.deref (w : World V) (p : Nat) : Res (Option V) :=
  if p = 0 then .ok none
  else match w.heap p with
    | none => .ub
    | some v => .ok (some v)

/-- array.c:103-117 `wickr_array_fetch_item`, returning the value of the item. -/
def World.fetch (cp : V → Option V) (w : World V) (a i : Nat) (copy : Bool) : Res (Option V) :=
  (w.deref (w.ptrAt a i)).bind fun
    | none => .ok none
    | some v => if copy then .ok (cp v) else .ok (some v)

/-- array.c:145-153: destroying all items of an array. -/
def World.freeAll : List Nat → World V → Res (World V)
  | [], w => .ok w
  | p :: ps, w => if p = 0 then World.freeAll ps w else (w.free p).bind (World.freeAll ps)

/-- array.c:139-159 `wickr_array_destroy`. -/
def World.destroy (w : World V) (a : Nat) (items : Bool) : Res (World V) :=
  match w.get a with
  | none => .ok w
  | some slots =>
    let w' : Res (World V) := if items then World.freeAll slots w else .ok w
    w'.bind fun w' => .ok { w' with arrays := w'.arrays.set a none }

/-- array.c:127-134: the copy loop of `wickr_array_copy` with `deep_copy`, from index `i` on, over
the remaining source pointers. -/
def World.copyLoop (cp : V → Option V) (dst : Nat) : List Nat → Nat → World V → Res (World V × Option Nat)
  | [], _, w => .ok (w, some dst)
  | p :: ps, i, w =>
    (w.deref p).bind fun item =>
      (w.set cp dst i item true).bind fun
        | (w', true) => World.copyLoop cp dst ps (i + 1) w'
        | (w', false) => (w'.destroy dst true).bind fun w'' => .ok (w'', none)

/-- array.c:119-137 `wickr_array_copy` with `deep_copy = true`.  When `wickr_array_new` fails the loop
runs on a NULL array, whose first `set_item` fails, so NULL is returned. -/
def World.copy (cp : V → Option V) (w : World V) (a : Nat) : Res (World V × Option Nat) :=
  match w.get a with
  | none => .ok (w, none)
  | some slots =>
    match w.new (UInt32.ofNat slots.length) with
    | (w', none) => .ok (w', none)
    | (w', some dst) => World.copyLoop cp dst slots 0 w'

/-- One API call on arrays. -/
inductive Op (V : Type) where
  | new (count : UInt32)
  | count (a : Nat)
  | set (a : Nat) (i : UInt32) (item : Option V) (copy : Bool)
  | fetch (a : Nat) (i : UInt32) (copy : Bool)
  | copy (a : Nat)
  | destroy (a : Nat)

/-- What the caller observes. -/
inductive Out (V : Type) where
  | handle (h : Option Nat)
  | num (n : Nat)
  | bool (b : Bool)
  | item (v : Option V)
  | unit
deriving DecidableEq

/-- Run one API call. -/
def step (cp : V → Option V) (w : World V) : Op V → Res (World V × Out V)
  | .new c => let (w', h) := w.new c; .ok (w', .handle h)
  | .count a => .ok (w, .num (w.count a))
  | .set a i v c => (w.set cp a i.toNat v c).bind fun (w', b) => .ok (w', .bool b)
  | .fetch a i c => (w.fetch cp a i.toNat c).bind fun v => .ok (w, .item v)
  | .copy a => (w.copy cp a).bind fun (w', h) => .ok (w', .handle h)
  | .destroy a => (w.destroy a true).bind fun w' => .ok (w', .unit)

/-- Run a history, collecting the observations. -/
def run (cp : V → Option V) : World V → List (Op V) → Res (World V × List (Out V))
  | w, [] => .ok (w, [])
  | w, op :: ops =>
    (step cp w op).bind fun (w', o) =>
      (run cp w' ops).bind fun (w'', os) => .ok (w'', o :: os)

end Wickr.Arr
