import Verif.Model.Engine
import Verif.Model.Proto
/-
Model of packet_meta.c and payload.c.
-/
namespace Wickr

/-- packet_meta.h:44-66 `wickr_packet_meta_t` with its `wickr_ephemeral_info_t`. -/
structure PktInfo where
  ttl : UInt64
  bor : UInt64
  channelTag : Bytes
  contentType : UInt16
deriving Repr, DecidableEq

/-- payload.h `wickr_payload_t`. -/
structure Payload where
  hdr : PktInfo
  body : Bytes
deriving Repr, DecidableEq

/-- packet_meta.c:19-38 `wickr_packet_meta_copy` (with `create`, 5-17). -/
def pktInfoCopy (m : PktInfo) : Option PktInfo := (dup m.channelTag).map fun t => { m with channelTag := t }

/-- payload.c:24-51 `wickr_payload_copy` (with `create`, 6-22). -/
def payloadCopy (p : Payload) : Option Payload :=
  (pktInfoCopy p.hdr).bind fun h => (dup p.body).map fun b => ⟨h, b⟩

/-- payload.c:71-94: the message filled in by `wickr_payload_serialize`. -/
def payloadToProto (p : Payload) : PPayload :=
  ⟨⟨⟨p.hdr.ttl, if p.hdr.bor ≠ 0 then some p.hdr.bor else none⟩, some p.hdr.channelTag,
    some p.hdr.contentType.toUInt32⟩, p.body⟩

/-- payload.c:65-107 `wickr_payload_serialize`. -/
def payloadSerialize (p : Payload) : Option Bytes := protoPack (payloadToProto p).pack

/-- payload.c:121-160: an absent tag has length 0, for which `wickr_buffer_create` is NULL; the
content type is narrowed to the `uint16_t` parameter of `wickr_packet_meta_create`. -/
def payloadFromProto (m : PPayload) : Option Payload :=
  (dup (optBytes m.hdr.channelTag)).bind fun tag => (dup m.body).map fun body =>
    ⟨⟨m.hdr.eph.ttl, m.hdr.eph.bor.getD 0, tag, (m.hdr.contentType.getD 0).toUInt16⟩, body⟩

/-- payload.c:109-163 `wickr_payload_create_from_buffer`. -/
def payloadFromBuffer (b : Bytes) : Option Payload :=
  ((fieldsDec b).bind PPayload.unpack).bind payloadFromProto

/-- payload.c:166-182 `wickr_payload_encrypt`; `iv` is the random IV. -/
def payloadEncrypt (E : Engine) (p : Payload) (k : CipherKey) (iv : Bytes) : Option CipherResult :=
  (payloadSerialize p).bind fun b => E.encrypt b none k iv

/-- payload.c:185-203 `wickr_payload_create_from_cipher` (NULL cipher text or key: NULL). -/
def payloadFromCipher (E : Engine) (r : Option CipherResult) (k : CipherKey) : Option Payload :=
  r.bind fun r => (E.decrypt r none k true).bind payloadFromBuffer

end Wickr
