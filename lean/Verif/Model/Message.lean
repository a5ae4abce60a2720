import Verif.Model.KeyExchange
import Verif.Model.Payload
import Verif.Model.Node
import Verif.Model.Ecdh
/-
Model of protocol.c.

Simplifications
* random values are arguments: the IVs and the signing nonce are collected in `MsgRand`;
* recipients are values, so two slots of the recipient array never share a node object;
* the loops use `int` counters (protocol.c:577, 616); lists of 2^31 or more recipients are outside
  the model (the exchange array cannot be allocated for them anyway).
-/
namespace Wickr

/-- protocol.c:11-32 `__wickr_key_exchange_get_kdf_info`. -/
def kxInfo (sender : Chain) (receiver : Node) (version : UInt8) : Option Bytes :=
  if version = 2 then dup receiver.devId
  else if version = 3 ∨ version = 4 then
    concatMulti [some sender.root.key.pub, some receiver.chain.root.key.pub, some receiver.devId]
  else none

/-- protocol.c:34-81 `__wickr_key_exchange_get_kdf_meta`. -/
def kxMeta (sender : Chain) (receiver : Node) (psk : Option Bytes) (version : UInt8) : Option KdfMeta :=
  if receiver.eph.isNone then none
  else
    let algo : Option KdfAlgo :=
      if version = 2 ∨ version = 3 then some hkdfSha256 else if version = 4 then some hkdfSha512 else none
    algo.bind fun a => (kxInfo sender receiver version).bind fun info =>
      (dupOpt psk).bind fun salt => kdfMetaCreate a salt (some info)

/-- protocol.c:83-139 `wickr_key_exchange_create_with_data`. -/
def kxCreateWithData (E : Engine) (sender : Chain) (receiver : Node) (exKey : EcKey) (data : Bytes)
    (cipher : Cipher) (psk : Option Bytes) (version : UInt8) (iv : Bytes) : Option KeyExchange :=
  match receiver.eph with
  | none => none
  | some eph =>
    (ecKeyCopy exKey).bind fun k => (kxMeta sender receiver psk version).bind fun m =>
      (ecdhCipher E ⟨cipher, k⟩ data eph.key m iv).bind fun r =>
        (dup receiver.chain.node.identifier).map fun i => ⟨i, eph.identifier, r⟩

/-- protocol.c:141-166 `wickr_key_exchange_create_with_packet_key`. -/
def kxCreateWithKey (E : Engine) (sender : Chain) (receiver : Node) (exKey : EcKey) (pk : CipherKey)
    (psk : Option Bytes) (version : UInt8) (iv : Bytes) : Option KeyExchange :=
  (cipherKeySerialize pk).bind fun b =>
    kxCreateWithData E sender receiver exKey b (exchangeCipherMatchingCipher pk.cipher) psk version iv

/-- protocol.c:193-237 `wickr_key_exchange_derive_data`. -/
def kxDeriveData (E : Engine) (sender : Chain) (receiver : Node) (exKey : EcKey) (x : KeyExchange)
    (psk : Option Bytes) (version : UInt8) : Option Bytes :=
  match receiver.eph with
  | none => none
  | some eph =>
    (ecKeyCopy eph.key).bind fun k => (kxMeta sender receiver psk version).bind fun m =>
      ecdhDecipher E ⟨x.ct.cipher, k⟩ x.ct exKey m

/-- protocol.c:169-191 `wickr_key_exchange_derive_packet_key`. -/
def kxDeriveKey (E : Engine) (sender : Chain) (receiver : Node) (exKey : EcKey) (x : KeyExchange)
    (psk : Option Bytes) (version : UInt8) : Option CipherKey :=
  (kxDeriveData E sender receiver exKey x psk version).bind cipherKeyFromBuffer

/-- protocol.h:188-192 `wickr_packet_t`. -/
structure Msg where
  version : UInt8
  content : Bytes
  sig : EcdsaResult
deriving Repr, DecidableEq

/-- protocol.c:258-310 `wickr_packet_create_with_components`.  Line 276 dereferences the serialized
payload without a NULL test. -/
def msgCreateWithComponents (E : Engine) (header payload : CipherResult) (key : EcKey) (version : UInt8)
    (nonce : Bytes) : Res Msg :=
  match cipherResultSerialize header with
  | none => .null
  | some h =>
    match cipherResultSerialize payload with
    | none => .ub
    | some p =>
      match protoPack (PPacket.pack ⟨h, p⟩) with
      | none => .null
      | some c =>
        match E.sign key c (digestMatchingCurve key.curve) nonce with
        | none => .null
        | some s => .ok ⟨version, c, s⟩

/-- protocol.c:324-336: the curve byte. -/
def msgSigType (version b1 : UInt8) : UInt8 := if version = 2 then b1 &&& 0xF else b1

/-- protocol.c:312-380 `wickr_packet_create_from_buffer` (non-NULL buffer).  The signature bytes are
read in place at 348-352: `length > 2 + signature_size` was tested, so they lie inside. -/
def msgFromBuffer (b : Bytes) : Option Msg :=
  if b.length ≤ 2 then none
  else match b with
    | version :: b1 :: _ =>
      if version > 4 ∨ version < 2 then none
      else match Curve.find (msgSigType version b1) with
        | none => none
        | some curve =>
          if b.length ≤ 2 + curve.sigSize then none
          else
            match ecdsaFromBuffer ((b.drop (b.length - curve.sigSize)).take curve.sigSize) with
            | none => none
            | some s =>
              if s.digest.id ≠ (digestMatchingCurve curve).id ∨ s.curve.id ≠ curve.id then none
              else (copySection b 2 (b.length - curve.sigSize - 2)).map fun c => ⟨version, c, s⟩
    | _ => none

/-- protocol.c:382-410 `wickr_packet_serialize`. -/
def msgSerialize (m : Msg) : Option Bytes :=
  (ecdsaSerialize m.sig).bind fun s =>
    if s.length ≠ m.sig.curve.sigSize then none
    else concatMulti [some [m.version], some [m.sig.curve.id], some m.content, some s]

/-- protocol.c:412-439 `wickr_packet_copy`. -/
def msgCopy (m : Msg) : Option Msg :=
  (dup m.content).bind fun c => (ecdsaCopy m.sig).map fun s => ⟨m.version, c, s⟩

/-- protocol.h:50-57 `wickr_decode_error`. -/
inductive DecodeErr where
  | success
  | invalidInput
  | nodeNotFound
  | corruptPacket
  | keyExchangeFailed
  | macInvalid
deriving Repr, DecidableEq

/-- protocol.h:59-63 `wickr_packet_signature_status`. -/
inductive SigStatus where
  | unknown
  | valid
  | invalid
deriving Repr, DecidableEq

/-- protocol.h:266-272 `wickr_parse_result_t`. -/
structure ParseResult where
  err : DecodeErr
  sigStatus : SigStatus
  set : Option KeyExchangeSet
  exchange : Option KeyExchange
  payload : Option CipherResult
deriving Repr, DecidableEq

/-- protocol.c:474-477 `wickr_parse_result_create_failure`. -/
def parseFailure (s : SigStatus) (e : DecodeErr) : ParseResult := ⟨e, s, none, none, none⟩

/-- protocol.c:484-503 `wickr_parse_result_copy`: parts that cannot be copied become NULL. -/
def parseCopy (r : ParseResult) : ParseResult :=
  { r with set := r.set.bind exchangeSetCopy, exchange := r.exchange.bind exchangeCopy,
           payload := r.payload.bind cipherResultCopy }

/-- protocol.h:334-338 `wickr_decode_result_t`. -/
structure DecodeResult where
  err : DecodeErr
  payload : Option Payload
  key : Option CipherKey
deriving Repr, DecidableEq

/-- protocol.c:534-537 `wickr_decode_result_create_failure`. -/
def decodeFailure (e : DecodeErr) : DecodeResult := ⟨e, none, none⟩

/-- protocol.c:544-560 `wickr_decode_result_copy`. -/
def decodeCopy (r : DecodeResult) : DecodeResult :=
  { r with payload := r.payload.bind payloadCopy, key := r.key.bind cipherKeyCopy }

/-- protocol.c:573-588 `__wickr_recipients_validate`: the recipients (whose caches are updated) and
the answer.  A slot that was never set is NULL, which does not verify (node.c:54-56). -/
def recipientsValidate (E : Engine) : List (Option Node) → List (Option Node) × Bool
  | [] => ([], true)
  | none :: ns => (none :: ns, false)
  | some n :: ns =>
    let v := nodeVerify E n
    if v.2 then
      let r := recipientsValidate E ns
      (some v.1 :: r.1, r.2)
    else (some v.1 :: ns, false)

/-- The random values drawn while a packet is created: the IV of the `i`-th exchange, the IVs of the
header and of the payload, the signing nonce. -/
structure MsgRand where
  exIv : Nat → Bytes
  hdrIv : Bytes
  payIv : Bytes
  nonce : Bytes

/-- protocol.c:616-633: one exchange per recipient, from index `i` on. -/
def exchangesCreate (E : Engine) (sender : Chain) (exKey : EcKey) (pk : CipherKey) (version : UInt8)
    (iv : Nat → Bytes) : List (Option Node) → Nat → Option (List KeyExchange)
  | [], _ => some []
  | none :: _, _ => none
  | some n :: ns, i =>
    (kxCreateWithKey E sender n exKey pk none version (iv i)).bind fun x =>
      (exchangesCreate E sender exKey pk version iv ns (i + 1)).map (x :: ·)

/-- protocol.c:591-658 `wickr_packet_create_from_components` (non-NULL arguments): the recipients
after the call, and the packet. -/
def msgCreate (E : Engine) (headerKey payloadKey : CipherKey) (exKey : EcKey) (payload : Payload)
    (recipients : List (Option Node)) (sender : Chain) (version : UInt8) (rnd : MsgRand) :
    List (Option Node) × Res Msg :=
  if recipients.length = 0 then (recipients, .null)
  else
    let v := recipientsValidate E recipients
    if !v.2 then (v.1, .null)
    else if ¬ arrayFits recipients.length then (v.1, .null)
    else (v.1,
      match exchangesCreate E sender exKey payloadKey version rnd.exIv v.1 0 with
      | none => .null
      | some xs =>
        match exchangeSetEncrypt E ⟨exKey, xs.map some⟩ headerKey rnd.hdrIv with
        | none => .null
        | some h =>
          match payloadEncrypt E payload payloadKey rnd.payIv with
          | none => .null
          | some p => msgCreateWithComponents E h p sender.node.key version rnd.nonce)

/-- protocol.c:688-745: what happens to the content once its signature is accepted.  `keygen` is the
`header_keygen_func` of the caller. -/
def parseContent (E : Engine) (content : Bytes) (nodeId : Option Bytes)
    (keygen : Cipher → Chain → Option CipherKey) (sender : Chain) : Res ParseResult :=
  match (fieldsDec content).bind PPacket.unpack with
  | none => .ok (parseFailure .valid .corruptPacket)
  | some p =>
    match cipherResultFromBuffer p.encHeader with
    | none => .ok (parseFailure .valid .corruptPacket)
    | some h =>
      match exchangeSetFromCipher E h (keygen h.cipher sender) with
      | none => .ok (parseFailure .valid .corruptPacket)
      | some set =>
        let finish (x : Option KeyExchange) : Res ParseResult :=
          match cipherResultFromBuffer p.encPayload with
          | none => .ok (parseFailure .valid .corruptPacket)
          | some c => .ok ⟨.success, .valid, some set, x, some c⟩
        match nodeId with
        | none => finish none
        | some i =>
          match exchangeSetFind set i with
          | .ub => .ub
          | .null => .ok (parseFailure .valid .nodeNotFound)
          | .ok x => finish (some x)

/-- protocol.c:661-746 `wickr_parse_result_from_packet` (non-NULL engine, packet and key function). -/
def parseFromPacket (E : Engine) (m : Msg) (nodeId : Option Bytes)
    (keygen : Cipher → Chain → Option CipherKey) (sender : Option Chain) : Res ParseResult :=
  match sender with
  | none => .ok (parseFailure .unknown .invalidInput)
  | some sender =>
    if sender.node.key.curve.id ≠ m.sig.curve.id then .ok (parseFailure .invalid .invalidInput)
    else if !E.verify m.sig sender.node.key m.content then .ok (parseFailure .invalid .macInvalid)
    else parseContent E m.content nodeId keygen sender

/-- protocol.c:749-799 `wickr_decode_result_from_parse_result` (non-NULL packet, engine, device id and
identities).  A successful parse result without an exchange set, which the library never makes, is
dereferenced at line 772. -/
def decodeFromParse (E : Engine) (version : UInt8) (r : ParseResult) (devId : Bytes) (key : Option EcKey)
    (receiver sender : Chain) : Res DecodeResult :=
  match key with
  | none => .null
  | some key =>
    if r.err ≠ .success ∨ r.sigStatus ≠ .valid then .null
    else match r.set with
      | none => .ub
      | some set =>
        let node : Node := ⟨devId, receiver, some ⟨0, key, none⟩, .unknown, none⟩
        match r.exchange.bind fun x => kxDeriveKey E sender node set.senderPub x none version with
        | none => .ok (decodeFailure .keyExchangeFailed)
        | some k =>
          match payloadFromCipher E r.payload k with
          | none => .ok (decodeFailure .keyExchangeFailed)
          | some p => .ok ⟨.success, some p, some k⟩

end Wickr
