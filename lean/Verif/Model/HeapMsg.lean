import Verif.Model.HeapObj
import Verif.Model.Ctx
/-
Messages on the heap: payloads, arrays, key exchanges, packets, and the results of reading and writing packets.
-/
namespace Wickr

/-! ### packet_meta.c, payload.c -/

/-- packet_meta.c:5-17 `wickr_packet_meta_create`; the new block is not tested for NULL.  Field: `channel_tag`. -/
def hInfoCreate (ttl bor : UInt64) (tag : Ptr) (ct : UInt16) : H Ptr :=
  match tag with
  | none => pure none
  | some _ => do
    let p ← alloc (.obj .plain [none])
    store p (.obj (.info ttl bor ct) [tag])
    pure p

/-- packet_meta.c:19-38 `wickr_packet_meta_copy`. -/
def hInfoCopy (p : Ptr) : H Ptr :=
  match p with
  | none => pure none
  | some _ => do
    let s ← field p 0
    onNull (hBufCopy s) (pure none) fun tag => do
      let .info ttl bor ct ← scal p | undefined
      onNull (hInfoCreate ttl bor tag ct) (do let _ ← hBufDestroy tag; pure none) fun copy => pure copy

/-- packet_meta.c:40-49 `wickr_packet_meta_destroy`. -/
def hInfoDestroy (p : Ptr) : H Ptr :=
  match p with
  | none => pure none
  | some _ => do
    destroyField hBufDestroy p 0
    free p
    pure none

/-- payload.c:6-22 `wickr_payload_create`.  Fields: `meta`, `body`. -/
def hPayloadCreate (info body : Ptr) : H Ptr :=
  match info, body with
  | some _, some _ =>
    onNull (alloc (.obj .plain [none, none])) (pure none) fun p => do
      store p (.obj .plain [info, body])
      pure p
  | _, _ => pure none

/-- payload.c:53-63 `wickr_payload_destroy`. -/
def hPayloadDestroy (p : Ptr) : H Ptr :=
  match p with
  | none => pure none
  | some _ => do
    destroyField hInfoDestroy p 0
    destroyField hBufDestroyZero p 1
    free p
    pure none

/-- payload.c:24-51 `wickr_payload_copy`. -/
def hPayloadCopy (p : Ptr) : H Ptr :=
  match p with
  | none => pure none
  | some _ => do
    let s ← field p 0
    onNull (hInfoCopy s) (pure none) fun info => do
      let s ← field p 1
      onNull (hBufCopy s) (do let _ ← hInfoDestroy info; pure none) fun body =>
        onNull (hPayloadCreate info body)
          (do
            let _ ← hInfoDestroy info
            let _ ← hBufDestroyZero body
            pure none)
          fun copy => pure copy

/-! ### key_exchange.c -/

/-- key_exchange.c:10-24 `wickr_key_exchange_create`; the new block is not tested for NULL.  Fields: `exchange_id`,
`exchange_ciphertext`. -/
def hExCreate (i : Ptr) (n : UInt64) (ct : Ptr) : H Ptr :=
  match i, ct with
  | some _, some _ => do
    let p ← alloc (.obj .plain [none, none])
    store p (.obj (.num n) [i, ct])
    pure p
  | _, _ => pure none

/-- key_exchange.c:55-65 `wickr_key_exchange_destroy`. -/
def hExDestroy (p : Ptr) : H Ptr :=
  match p with
  | none => pure none
  | some _ => do
    destroyField hCResDestroy p 1
    destroyField hBufDestroy p 0
    free p
    pure none

/-- key_exchange.c:26-53 `wickr_key_exchange_copy`. -/
def hExCopy (p : Ptr) : H Ptr :=
  match p with
  | none => pure none
  | some _ => do
    let s ← field p 1
    onNull (hCResCopy s) (pure none) fun ct => do
      let s ← field p 0
      onNull (hBufCopy s) (do let _ ← hCResDestroy ct; pure none) fun i => do
        let .num n ← scal p | undefined
        onNull (hExCreate i n ct)
          (do
            let _ ← hCResDestroy ct
            let _ ← hBufDestroy i
            pure none)
          fun copy => pure copy

/-! ### protocol.c -/

/-- protocol.c:239-256 `wickr_packet_create`.  Fields: `content`, `signature`. -/
def hPacketCreate (v : UInt8) (content sig : Ptr) : H Ptr :=
  match content, sig with
  | some _, some _ =>
    onNull (alloc (.obj .plain [none, none])) (pure none) fun p => do
      store p (.obj (.ver v) [content, sig])
      pure p
  | _, _ => pure none

/-- protocol.c:441-451 `wickr_packet_destroy`. -/
def hPacketDestroy (p : Ptr) : H Ptr :=
  match p with
  | none => pure none
  | some _ => do
    destroyField hBufDestroy p 0
    destroyField hSigDestroy p 1
    free p
    pure none

/-- protocol.c:412-439 `wickr_packet_copy`. -/
def hPacketCopy (p : Ptr) : H Ptr :=
  match p with
  | none => pure none
  | some _ => do
    let s ← field p 0
    onNull (hBufCopy s) (pure none) fun content => do
      let s ← field p 1
      onNull (hSigCopy s) (do let _ ← hBufDestroy content; pure none) fun sig => do
        let .ver v ← scal p | undefined
        onNull (hPacketCreate v content sig)
          (do
            let _ ← hBufDestroy content
            let _ ← hSigDestroy sig
            pure none)
          fun copy => pure copy

/-- encoder_result.c:4-21 `wickr_encoder_result_create`.  Fields: `packet_key`, `packet`. -/
def hEncCreate (key packet : Ptr) : H Ptr :=
  match key, packet with
  | some _, some _ =>
    onNull (alloc (.obj .plain [none, none])) (pure none) fun p => do
      store p (.obj .plain [key, packet])
      pure p
  | _, _ => pure none

/-- encoder_result.c:52-62 `wickr_encoder_result_destroy`. -/
def hEncDestroy (p : Ptr) : H Ptr :=
  match p with
  | none => pure none
  | some _ => do
    destroyField hCKeyDestroy p 0
    destroyField hPacketDestroy p 1
    free p
    pure none

/-- encoder_result.c:23-50 `wickr_encoder_result_copy`. -/
def hEncCopy (p : Ptr) : H Ptr :=
  match p with
  | none => pure none
  | some _ => do
    let s ← field p 0
    onNull (hCKeyCopy s) (pure none) fun key => do
      let s ← field p 1
      onNull (hPacketCopy s) (do let _ ← hCKeyDestroy key; pure none) fun packet =>
        onNull (hEncCreate key packet)
          (do
            let _ ← hCKeyDestroy key
            let _ ← hPacketDestroy packet
            pure none)
          fun copy => pure copy

/-- protocol.c:518-531 `__wickr_decode_result_create`.  Fields: `decrypted_payload`, `payload_key`. -/
def hDecCreate (e : DecodeErr) (payload key : Ptr) : H Ptr :=
  onNull (alloc (.obj .plain [none, none])) (pure none) fun p => do
    store p (.obj (.err e) [payload, key])
    pure p

/-- protocol.c:562-571 `wickr_decode_result_destroy`. -/
def hDecDestroy (p : Ptr) : H Ptr :=
  match p with
  | none => pure none
  | some _ => do
    destroyField hCKeyDestroy p 1
    destroyField hPayloadDestroy p 0
    free p
    pure none

/-- protocol.c:544-560 `wickr_decode_result_copy`: the copies are not tested, and the copy of the key is not released. -/
def hDecCopy (p : Ptr) : H Ptr :=
  match p with
  | none => pure none
  | some _ => do
    let s ← field p 0
    let payload ← hPayloadCopy s
    let s ← field p 1
    let key ← hCKeyCopy s
    let .err e ← scal p | undefined
    onNull (hDecCreate e payload key) (do let _ ← hPayloadDestroy payload; pure none) fun copy => pure copy

end Wickr
