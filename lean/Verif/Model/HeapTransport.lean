import Verif.Model.HeapProto
import Verif.Model.TransportSign
/-
Model of transport_packet.c on the heap.

Simplification: the bytes of the header are written at once (lines 25-81 overwrite the sections of a zeroed buffer one after the
other; the sections always fit).
-/
namespace Wickr

/-- transport_packet.c:25-81 `wickr_transport_packet_meta_serialize`. -/
def hMetaSerialize (m : PktMeta) : H Ptr := hOut (pktMetaSerialize m)

/-- transport_packet.c:128-144 `wickr_transport_packet_create`.  Fields: `body`, `mac`, `network_buffer`. -/
def hTPktCreate (m : PktMeta) (body : Ptr) : H Ptr :=
  match body with
  | none => pure none
  | some _ =>
    onNull (alloc (.obj .plain [none, none, none])) (pure none) fun p => do
      store p (.obj (.tpkt m) [body, none, none])
      pure p

/-- transport_packet.c:179-190 `wickr_transport_packet_destroy`. -/
def hTPktDestroy (p : Ptr) : H Ptr :=
  match p with
  | none => pure none
  | some _ => do
    destroyField hBufDestroy p 2
    destroyField hBufDestroy p 0
    destroyField hBufDestroy p 1
    free p
    pure none

/-- transport_packet.c:166-176: the end of `wickr_transport_packet_copy`. -/
def hTPktAssemble (m : PktMeta) (body mac : Ptr) : H Ptr :=
  onNull (hTPktCreate m body)
    (do
      let _ ← hBufDestroy body
      let _ ← hBufDestroy mac
      pure none)
    fun x => do
      setField x 1 mac
      pure x

/-- transport_packet.c:146-177 `wickr_transport_packet_copy`: the network buffer is not copied. -/
def hTPktCopy (p : Ptr) : H Ptr :=
  match p with
  | none => pure none
  | some _ => do
    let q ← field p 0
    onNull (hBufCopy q) (pure none) fun body => do
      let m ← field p 1
      let .tpkt hdr ← scal p | undefined
      match m with
      | none => hTPktAssemble hdr body none
      | some _ => onNull (hBufCopy m) (do let _ ← hBufDestroy body; pure none) fun mac => hTPktAssemble hdr body mac

/-- transport_packet.c:192-209 `wickr_transport_packet_serialize`. -/
def hTPktSerialize (p : Ptr) : H Ptr :=
  match p with
  | none => pure none
  | some _ => do
    let .tpkt hdr ← scal p | undefined
    onNull (hMetaSerialize hdr) (pure none) fun mb => do
      let hb ← readBuf mb
      let q ← field p 0
      let b ← readBuf q
      let m ← field p 1
      let s ← readOpt m
      let o ← hConcatMulti [some hb, some b, s]
      let _ ← hBufDestroy mb
      pure o

/-- transport_packet.c:250-275: the packet is made and the buffer it was read from is copied. -/
def hTPktReceive (hdr : PktMeta) (body mac p : Ptr) : H Ptr :=
  onNull (hTPktCreate hdr body)
    (do
      let _ ← hBufDestroy mac
      let _ ← hBufDestroy body
      pure none)
    fun x => do
      setField x 1 mac
      let n ← hBufCopy p
      setField x 2 n
      match n with
      | none => do
        let _ ← hTPktDestroy x
        pure none
      | some _ => pure x

/-- transport_packet.c:211-276 `wickr_transport_packet_create_from_buffer`. -/
def hTPktFromBuffer (p : Ptr) : H Ptr :=
  match p with
  | none => pure none
  | some _ => do
    let b ← readBuf p
    match pktMetaParse b with
    | none => pure none
    | some (hdr, start) =>
      let macSize := pktMacSize hdr.mac
      if b.length ≤ start + macSize then pure none
      else
        let rest (mac : Ptr) : H Ptr :=
          onNull (hSection b start (b.length - macSize - start)) (do let _ ← hBufDestroy mac; pure none) fun body =>
            hTPktReceive hdr body mac p
        if macSize ≠ 0 then onNull (hSection b (b.length - macSize) macSize) (pure none) rest
        else rest none

/-- transport_packet.c:286-300: what is to be signed, with the type of signature it will get. -/
def hTPktToSign (p : Ptr) (mac : UInt8) : H Ptr := do
  let .tpkt hdr ← scal p | undefined
  setScal p (.tpkt { hdr with mac := mac })
  let d ← hTPktSerialize p
  setScal p (.tpkt hdr)
  pure d

/-- transport_packet.c:306-314: a signature, serialized. -/
def hTPktSignature (E : Engine) (node data : Ptr) (nonce : Bytes) : H Ptr := do
  let s ← hIdentitySign E node data nonce
  let _ ← hBufDestroy data
  onNull (pure s) (pure none) fun s => do
    let b ← hSigSerialize s
    let _ ← hSigDestroy s
    pure b

/-- transport_packet.c:320-323: the signature goes into the packet; what was there before is not released. -/
def hTPktAttach (p sig : Ptr) (mac : UInt8) : H Bool := do
  setField p 1 sig
  let .tpkt hdr ← scal p | undefined
  setScal p (.tpkt { hdr with mac := mac })
  let n ← hTPktSerialize p
  setField p 2 n
  pure n.isSome

/-- transport_packet.c:278-324 `wickr_transport_packet_sign`. -/
def hTPktSign (E : Engine) (p chain : Ptr) (nonce : Bytes) : H Bool :=
  match p, chain with
  | some _, some _ => do
    let node ← field chain 1
    let k ← field node 1
    let .curve .p521 ← scal k | undefined
    onNull (hTPktToSign p macP521) (pure false) fun d =>
      onNull (hTPktSignature E node d nonce) (pure false) fun s => hTPktAttach p s macP521
  | _, _ => pure false

/-- transport_packet.c:332-338: the bytes of a packet that was not received are filled in. -/
def hTPktNetwork (p : Ptr) : H Bool := do
  let n ← field p 2
  match n with
  | some _ => pure true
  | none => onNull (hTPktSerialize p) (pure false) fun n => do
    setField p 2 n
    pure true

/-- transport_packet.c:344-363: the signature is checked against the bytes before it, which are read in place. -/
def hTPktCheck (E : Engine) (p chain : Ptr) : H Bool := do
  let n ← field p 2
  let net ← readBuf n
  let m ← field p 1
  let mac ← readBuf m
  if net.length ≤ mac.length then pure false
  else
    onNull (hSigFromBytes mac) (pure false) fun s => do
      let sg ← readSig s
      let node ← field chain 1
      let k ← field node 1
      let key ← readKey k
      let _ ← hSigDestroy s
      pure (E.verify sg key (net.take (net.length - mac.length)))

/-- transport_packet.c:326-364 `wickr_transport_packet_verify`. -/
def hTPktVerify (E : Engine) (p chain : Ptr) : H Bool :=
  match p, chain with
  | some _, some _ => do
    let m ← field p 1
    match m with
    | none => pure false
    | some _ => do
      let .tpkt hdr ← scal p | undefined
      if hdr.mac ≠ macP521 then pure false
      else do
        let n ← hTPktNetwork p
        if n then do
          let v ← hChainValidate E chain
          if v then hTPktCheck E p chain
          else pure false
        else pure false
  | _, _ => pure false

end Wickr
