import Verif.Model.HeapMsg
/-
array.c on the heap.  An array is a block with its size and a pointer to its item store, a buffer whose bytes are the
pointers to the items; the store is a block of pointers here.  The functions stored in the array are parameters of
the programs that call them.
-/
namespace Wickr

/-- array.c:26-32 with buffer.c:27-49: the item store for `n` items, all NULL. -/
def hStoreNew (n : Nat) : H Ptr :=
  if 8 * n > maxBuffer ∨ n = 0 then pure none
  else do
    let p ← alloc (.obj (.len 0) [none])
    match p with
    | none => pure none
    | some _ => do
      let q ← alloc (.obj .plain (List.replicate n none))
      match q with
      | none => do
        free p
        pure none
      | some _ => do
        store p (.obj (.len (8 * n)) [q])
        pure p

/-- buffer.c:221-231 `wickr_buffer_destroy` on an item store. -/
def hStoreDestroy (p : Ptr) : H Ptr :=
  match p with
  | none => pure none
  | some _ => do
    let q ← field p 0
    free q
    free p
    pure none

/-- array.c:15-48 `wickr_array_new` with non-NULL functions.  Field: `item_store`. -/
def hArrNew (n : Nat) : H Ptr := do
  let last (st : Ptr) : H Ptr :=
    onNull (alloc (.obj .plain [none])) (do let _ ← hStoreDestroy st; pure none) fun p => do
      store p (.obj (.len n) [st])
      pure p
  if n = 0 then last none
  else onNull (hStoreNew n) (pure none) last

/-- array.c:50-57 `wickr_array_get_item_count`. -/
def hArrCount (p : Ptr) : H Nat :=
  match p with
  | none => pure 0
  | some _ => hBufLen p

/-- array.c:59-75 `__wickr_array_index_in_bounds`, `__wickr_array_pointer_to_index`. -/
def hArrSlot (p : Ptr) (i : Nat) : H Ptr := do
  let n ← hArrCount p
  if n ≤ i then pure none
  else do
    let st ← field p 0
    let b ← field st 0
    field b i

/-- array.c:93-100: what was there before is released if the array makes its own copies. -/
def hArrPut (destroy : Ptr → H Ptr) (p : Ptr) (i : Nat) (x : Ptr) (copy : Bool) : H Bool := do
  let old ← hArrSlot p i
  if copy && old.isSome then do
    let _ ← destroy old
    let st ← field p 0
    let b ← field st 0
    setField b i x
    pure true
  else do
    let st ← field p 0
    let b ← field st 0
    setField b i x
    pure true

/-- array.c:77-101 `wickr_array_set_item`. -/
def hArrSet (itemCopy destroy : Ptr → H Ptr) (p : Ptr) (i : Nat) (x : Ptr) (copy : Bool) : H Bool := do
  let n ← hArrCount p
  if n ≤ i then pure false
  else match x with
    | none => hArrPut destroy p i none copy
    | some _ =>
      if copy then onNull (itemCopy x) (pure false) fun y => hArrPut destroy p i y copy
      else hArrPut destroy p i x copy

/-- array.c:103-117 `wickr_array_fetch_item`. -/
def hArrFetch (itemCopy : Ptr → H Ptr) (p : Ptr) (i : Nat) (copy : Bool) : H Ptr := do
  let x ← hArrSlot p i
  match x with
  | none => pure none
  | some _ => if copy then itemCopy x else pure x

/-- array.c:145-153: releasing `k` items from index `i` on. -/
def hArrDestroyItems (destroy : Ptr → H Ptr) (p : Ptr) (i : Nat) : Nat → H Unit
  | 0 => pure ()
  | k + 1 => do
    let x ← hArrSlot p i
    match x with
    | none => hArrDestroyItems destroy p (i + 1) k
    | some _ => do
      let _ ← destroy x
      hArrDestroyItems destroy p (i + 1) k

/-- array.c:139-159 `wickr_array_destroy`. -/
def hArrDestroy (destroy : Ptr → H Ptr) (p : Ptr) (items : Bool) : H Ptr :=
  match p with
  | none => pure none
  | some _ => do
    let n ← hArrCount p
    if items then do
      hArrDestroyItems destroy p 0 n
      destroyField hStoreDestroy p 0
      free p
      pure none
    else do
      destroyField hStoreDestroy p 0
      free p
      pure none

/-- array.c:127-134: copying `k` items from index `i` on. -/
def hArrCopyItems (itemCopy destroy : Ptr → H Ptr) (p q : Ptr) (deep : Bool) (i : Nat) : Nat → H Ptr
  | 0 => pure q
  | k + 1 => do
    let x ← hArrSlot p i
    let ok ← hArrSet itemCopy destroy q i x deep
    if ok then hArrCopyItems itemCopy destroy p q deep (i + 1) k
    else do
      let _ ← hArrDestroy destroy q deep
      pure none

/-- array.c:119-137 `wickr_array_copy`; a new array that is NULL goes into the loop as well. -/
def hArrCopy (itemCopy destroy : Ptr → H Ptr) (p : Ptr) (deep : Bool) : H Ptr :=
  match p with
  | none => pure none
  | some _ => do
    let n ← hArrCount p
    let q ← hArrNew n
    hArrCopyItems itemCopy destroy p q deep 0 n

/-! ### node.c, key_exchange.c, protocol.c -/

/-- node.c:161-164 `wickr_node_array_copy`. -/
def hNodesCopy (p : Ptr) : H Ptr := hArrCopy hNodeCopy hNodeDestroy p true

/-- node.c:166-173 `wickr_node_array_destroy`: the nodes are not released. -/
def hNodesDestroy (p : Ptr) : H Ptr := hArrDestroy hNodeDestroy p false

/-- key_exchange.c:164-167 `wickr_exchange_array_copy`. -/
def hExsCopy (p : Ptr) : H Ptr := hArrCopy hExCopy hExDestroy p true

/-- key_exchange.c:169-176 `wickr_exchange_array_destroy`. -/
def hExsDestroy (p : Ptr) : H Ptr := hArrDestroy hExDestroy p true

/-- key_exchange.c:178-194 `wickr_key_exchange_set_create`.  Fields: `sender_pub`, `exchanges`. -/
def hSetCreate (key exs : Ptr) : H Ptr :=
  match key, exs with
  | some _, some _ =>
    onNull (alloc (.obj .plain [none, none])) (pure none) fun p => do
      store p (.obj .plain [key, exs])
      pure p
  | _, _ => pure none

/-- key_exchange.c:242-252 `wickr_key_exchange_set_destroy`. -/
def hSetDestroy (p : Ptr) : H Ptr :=
  match p with
  | none => pure none
  | some _ => do
    destroyField hKeyDestroy p 0
    destroyField hExsDestroy p 1
    free p
    pure none

/-- key_exchange.c:213-240 `wickr_key_exchange_set_copy`. -/
def hSetCopy (p : Ptr) : H Ptr :=
  match p with
  | none => pure none
  | some _ => do
    let s ← field p 0
    onNull (hKeyCopy s) (pure none) fun key => do
      let s ← field p 1
      onNull (hExsCopy s) (do let _ ← hKeyDestroy key; pure none) fun exs =>
        onNull (hSetCreate key exs)
          (do
            let _ ← hKeyDestroy key
            let _ ← hExsDestroy exs
            pure none)
          fun copy => pure copy

/-- protocol.c:453-472 `__wickr_parse_result_create`.  Fields: `key_exchange_set`, `enc_payload`, `key_exchange`. -/
def hParseCreate (set ex payload : Ptr) (s : SigStatus) (e : DecodeErr) : H Ptr :=
  onNull (alloc (.obj .plain [none, none, none])) (pure none) fun p => do
    store p (.obj (.parse e s) [set, payload, ex])
    pure p

/-- protocol.c:505-516 `wickr_parse_result_destroy`. -/
def hParseDestroy (p : Ptr) : H Ptr :=
  match p with
  | none => pure none
  | some _ => do
    destroyField hSetDestroy p 0
    destroyField hCResDestroy p 1
    destroyField hExDestroy p 2
    free p
    pure none

/-- protocol.c:484-503 `wickr_parse_result_copy`: the copies are not tested. -/
def hParseCopy (p : Ptr) : H Ptr :=
  match p with
  | none => pure none
  | some _ => do
    let s ← field p 0
    let set ← hSetCopy s
    let s ← field p 1
    let payload ← hCResCopy s
    let s ← field p 2
    let ex ← hExCopy s
    let .parse e st ← scal p | undefined
    onNull (hParseCreate set ex payload st e)
      (do
        let _ ← hSetDestroy set
        let _ ← hCResDestroy payload
        let _ ← hExDestroy ex
        pure none)
      fun copy => pure copy

end Wickr
