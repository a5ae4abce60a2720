import Verif.Model.Ecdsa
/-
Model of transport_packet.c (the codec; signing and verification are in `Model/Identity.lean`'s
importers, see `Model/TransportSign.lean`).
-/
namespace Wickr

/-- transport_packet.h:103-110, the union `body_meta` selected by `body_type`.  Only the two
declared body types exist; `create_from_buffer` refuses any other value. -/
inductive BodyMeta where
  | handshake (version : UInt8) (flags : UInt64)
  | data (seq : UInt64)
deriving Repr, DecidableEq

/-- transport_packet.h:36-45: `TRANSPORT_PAYLOAD_TYPE_HANDSHAKE = 0`, `..._CIPHERTEXT = 1`. -/
def BodyMeta.typeId : BodyMeta → UInt8
  | .handshake _ _ => 0
  | .data _ => 1

/-- transport_packet.h:103-110 `wickr_transport_packet_meta_t`.  `mac` is the enum value
`mac_type` (NONE 0, AUTH_CIPHER 1, EC_P521 2; parsing can produce any value up to 15). -/
structure PktMeta where
  body : BodyMeta
  mac : UInt8
deriving Repr, DecidableEq

/-- transport_packet.h:42 -/
def macNone : UInt8 := 0
/-- transport_packet.h:43 -/
def macAuthCipher : UInt8 := 1
/-- transport_packet.h:44 -/
def macP521 : UInt8 := 2

/-- transport_packet.c:6-14 `wickr_transport_packet_meta_initialize_handshake`. -/
def metaInitHandshake (version mac : UInt8) : PktMeta := ⟨.handshake version 0, mac⟩
/-- transport_packet.c:16-23 `wickr_transport_packet_meta_initialize_data`. -/
def metaInitData (seq : UInt64) (mac : UInt8) : PktMeta := ⟨.data seq, mac⟩

/-- transport_packet.c:25-81 `wickr_transport_packet_meta_serialize`: a zeroed buffer of the
right length whose sections are overwritten in turn (the overwrites always fit, see the lengths
in lines 33-41, so the section calls are plain concatenation here). -/
def pktMetaSerialize (m : PktMeta) : Bytes :=
  let type := (m.body.typeId <<< 4) ||| m.mac
  match m.body with
  | .data seq => type :: le64 seq
  | .handshake version flags => type :: version :: le64 flags

/-- transport_packet.c:83-126 `wickr_transport_packet_meta_initialize_buffer`: metadata and number
of bytes consumed; `none` stands for a negative return value. -/
def pktMetaParse (buffer : Bytes) : Option (PktMeta × Nat) :=
  if buffer.length ≤ 1 then none
  else match buffer with
    | [] => none
    | type :: rest =>
      let mac := type &&& 0xF
      if (type &&& 0xF0) >>> 4 = 1 then
        if buffer.length < 1 + 8 then none
        else some (⟨.data (fromLe64 (rest.take 8)), mac⟩, 9)
      else if (type &&& 0xF0) >>> 4 = 0 then
        if buffer.length < 2 + 8 then none
        else match rest with
          | [] => none
          | version :: rest' => some (⟨.handshake version (fromLe64 (rest'.take 8)), mac⟩, 10)
      else none

/-- transport_packet.h `wickr_transport_packet_t`. -/
structure Packet where
  hdr : PktMeta
  body : Bytes
  mac : Option Bytes
  network : Option Bytes
deriving Repr, DecidableEq

/-- transport_packet.c:128-144 `wickr_transport_packet_create` (non-NULL body). -/
def pktCreate (m : PktMeta) (body : Bytes) : Packet := ⟨m, body, none, none⟩

/-- transport_packet.c:146-177 `wickr_transport_packet_copy`: the network buffer is not copied. -/
def pktCopy (p : Packet) : Option Packet :=
  (dup p.body).bind fun b => (dupOpt p.mac).map fun m => ⟨p.hdr, b, m, none⟩

/-- transport_packet.c:192-209 `wickr_transport_packet_serialize`. -/
def pktSerialize (p : Packet) : Option Bytes :=
  concatMulti [some (pktMetaSerialize p.hdr), some p.body, p.mac]

/-- transport_packet.c:225-233: size of the trailing MAC. -/
def pktMacSize (mac : UInt8) : Nat := if mac = macP521 then Curve.p521.sigSize else 0

/-- transport_packet.c:211-276 `wickr_transport_packet_create_from_buffer`. -/
def pktFromBuffer (buffer : Bytes) : Option Packet :=
  match pktMetaParse buffer with
  | none => none
  | some (m, start) =>
    let macSize := pktMacSize m.mac
    if buffer.length ≤ start + macSize then none
    else
      let finish := fun (mac : Option Bytes) =>
        (copySection buffer start (buffer.length - macSize - start)).bind fun body =>
          (dup buffer).map fun net => (⟨m, body, mac, some net⟩ : Packet)
      if macSize ≠ 0 then
        (copySection buffer (buffer.length - macSize) macSize).bind fun mac => finish (some mac)
      else finish none

end Wickr
