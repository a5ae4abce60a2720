import Verif.Model.HeapEngine
import Verif.Model.Proto
/-
The memory of the protobuf library: what `unpack` allocates and `free_unpacked` releases.

A message is one block with a pointer per field of bytes; submessages are part of that block.  A field that is not empty has a
block of its own; an empty one is NULL.  Numbers and presence flags are taken from the value of the message.  What the library
allocates for a message it refuses, for unknown fields and for fields that appear twice is not modelled.
-/
namespace Wickr

/-- protobuf-c `parse_required_member`, bytes: a copy of each field, one after the other.  If one cannot be made, those that were
made are released. -/
def hParts : List Bytes → H (Option (List Ptr))
  | [] => pure (some [])
  | [] :: bs => do
    let r ← hParts bs
    match r with
    | none => pure none
    | some ps => pure (some (none :: ps))
  | (x :: b) :: bs => do
    let q ← alloc (.raw (x :: b).length)
    match q with
    | none => pure none
    | some _ => do
      fill q (x :: b)
      let r ← hParts bs
      match r with
      | none => do
        free q
        pure none
      | some ps => pure (some (q :: ps))

/-- protobuf-c `protobuf_c_message_unpack` of a message with these fields, with `malloc`. -/
def hUnpack (bs : List Bytes) : H Ptr := do
  let x ← alloc (.obj .plain [])
  match x with
  | none => pure none
  | some _ => do
    let r ← hParts bs
    match r with
    | none => do
      free x
      pure none
    | some ps => do
      store x (.obj .plain ps)
      pure x

/-- The bytes of field `i`, as they are read through `data` and `len`. -/
def hPart (x : Ptr) (i : Nat) : H Bytes := do
  let q ← field x i
  match q with
  | none => pure []
  | some _ => loadBytes q

def hFreeParts : List Ptr → H Unit
  | [] => pure ()
  | p :: ps => do
    free p
    hFreeParts ps

/-- protobuf-c `protobuf_c_message_free_unpacked`, with `free`: nothing is wiped. -/
def hFreeUnpacked (x : Ptr) : H Ptr :=
  match x with
  | none => pure none
  | some _ => do
    let (_, ps) ← loadObj x
    hFreeParts ps
    free x
    pure none

/-! ### Fields of the messages -/

/-- storage.proto `root_keys`. -/
def PRootKeys.parts (k : PRootKeys) : List Bytes :=
  [optBytes k.nodeStorageRoot, optBytes k.remoteStorageRoot, optBytes k.nodeSignatureRoot]

/-- stream.proto `StreamKey`. -/
def PStreamKey.parts (k : PStreamKey) : List Bytes := [optBytes k.cipherKey, optBytes k.evoKey, optBytes k.userData]

/-- message.proto `payload`. -/
def PPayload.parts (m : PPayload) : List Bytes := [optBytes m.hdr.channelTag, m.body]

/-- message.proto `packet`. -/
def PPacket.parts (m : PPacket) : List Bytes := [m.encHeader, m.encPayload]

/-- key_exchange.proto `key_exchange_set`. -/
def PExchangeSet.parts (m : PExchangeSet) : List Bytes :=
  m.senderPub :: m.exchanges.flatMap fun x => [x.identifier, x.data]

end Wickr
