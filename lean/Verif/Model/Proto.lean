import Verif.Model.Algo
/-
The protobuf wire format as written and read by protobuf-c, which the repository links against but
does not contain (only the schemas /repo/src/protobuf/*.proto and the generated descriptors are
here).  Everything in this file therefore belongs to the trusted base; the schema-level functions
cite the .proto files.

Simplifications
* packing into a heap buffer is `protoPack`: the C code allocates `get_packed_size` bytes with
  `wickr_buffer_create_empty` and packs into it;
* a sub-message field that occurs more than once is decoded from the concatenation of its
  occurrences (protobuf's merge rule), every occurrence having to decode on its own;
* unknown fields are dropped (protobuf-c keeps them aside; the library never looks at them).
-/
namespace Wickr

/-- The value of one field on the wire. -/
inductive WireVal where
  | varint (n : UInt64)
  | fixed64 (b : Bytes)
  | len (b : Bytes)
  | fixed32 (b : Bytes)
deriving Repr, DecidableEq

/-- One field on the wire. -/
structure Field where
  num : Nat
  val : WireVal
deriving Repr, DecidableEq

/-- protobuf-c `uint64_pack`: base-128, least significant group first.  The first argument bounds
the number of bytes. -/
def varintEncAux : Nat → Nat → Bytes
  | 0, _ => []
  | k + 1, n =>
    if n < 128 then [UInt8.ofNat n] else UInt8.ofNat (n % 128 + 128) :: varintEncAux k (n / 128)

/-- protobuf-c `uint64_pack`: ten bytes are enough for 64 bits. -/
def varintEnc (n : Nat) : Bytes := varintEncAux 10 n

/-- protobuf-c `scan_varint`/`parse_uint64`: at most `k` bytes; value and rest of the input. -/
def varintDec : Nat → Bytes → Option (Nat × Bytes)
  | 0, _ => none
  | _ + 1, [] => none
  | k + 1, b :: bs =>
    if b.toNat < 128 then some (b.toNat, bs)
    else (varintDec k bs).map fun p => (b.toNat - 128 + 128 * p.1, p.2)

/-- The wire type (0 varint, 1 64-bit, 2 length-delimited, 5 32-bit). -/
def WireVal.wireType : WireVal → Nat
  | .varint _ => 0
  | .fixed64 _ => 1
  | .len _ => 2
  | .fixed32 _ => 5

/-- The bytes after the tag. -/
def WireVal.payload : WireVal → Bytes
  | .varint n => varintEnc n.toNat
  | .fixed64 b => b
  | .len b => varintEnc b.length ++ b
  | .fixed32 b => b

/-- protobuf-c `tag_pack` followed by the value. -/
def Field.enc (f : Field) : Bytes := varintEnc (f.num * 8 + f.val.wireType) ++ f.val.payload

/-- protobuf-c `protobuf_c_message_pack`: the fields one after the other. -/
def fieldsEnc (fs : List Field) : Bytes := fs.flatMap Field.enc

/-- Reading the value of a field of wire type `wt`. -/
def valDec (wt : Nat) (bs : Bytes) : Option (WireVal × Bytes) :=
  match wt with
  | 0 => (varintDec 10 bs).map fun p => (.varint (UInt64.ofNat p.1), p.2)
  | 1 => if bs.length < 8 then none else some (.fixed64 (bs.take 8), bs.drop 8)
  | 2 => (varintDec 5 bs).bind fun p =>
      if p.2.length < p.1 then none else some (.len (p.2.take p.1), p.2.drop p.1)
  | 5 => if bs.length < 4 then none else some (.fixed32 (bs.take 4), bs.drop 4)
  | _ => none

/-- protobuf-c `protobuf_c_message_unpack`, first pass: split the input into fields.  The first
argument bounds the number of fields; a field has at least one byte, so the length of the input
is enough. -/
def fieldsDecAux : Nat → Bytes → Option (List Field)
  | _, [] => some []
  | 0, _ :: _ => none
  | k + 1, b :: bs =>
    (varintDec 5 (b :: bs)).bind fun t =>
      (valDec (t.1 % 8) t.2).bind fun v =>
        (fieldsDecAux k v.2).map fun fs => ⟨t.1 / 8, v.1⟩ :: fs

/-- protobuf-c `protobuf_c_message_unpack`, first pass. -/
def fieldsDec (bs : Bytes) : Option (List Field) := fieldsDecAux bs.length bs

/-- Packing into a fresh buffer of the packed size (e.g. stream_key.c:117-129): NULL for an empty
or oversized message. -/
def protoPack (fs : List Field) : Option Bytes := dup (fieldsEnc fs)

/-! Second pass of `protobuf_c_message_unpack`: pick the members out of the fields.  In the getters
below the outer `none` is "unpack fails" (a known field with the wrong wire type), the inner one is
"field absent". -/

/-- The values of field `n` in order of appearance. -/
def occ (n : Nat) (fs : List Field) : List WireVal :=
  (fs.filter fun f => f.num = n).map Field.val

/-- All values decode with `g`; the last one counts. -/
def getLast {α : Type} (g : WireVal → Option α) (n : Nat) (fs : List Field) : Option (Option α) :=
  ((occ n fs).mapM g).map List.getLast?

/-- bytes -/
def WireVal.asBytes : WireVal → Option Bytes
  | .len b => some b
  | _ => none
/-- uint64 -/
def WireVal.asU64 : WireVal → Option UInt64
  | .varint n => some n
  | _ => none
/-- uint32 and enum: the low 32 bits -/
def WireVal.asU32 : WireVal → Option UInt32
  | .varint n => some n.toUInt32
  | _ => none
/-- bool: any non-zero varint -/
def WireVal.asBool : WireVal → Option Bool
  | .varint n => some (n != 0)
  | _ => none

def getBytes := getLast WireVal.asBytes
def getU64 := getLast WireVal.asU64
def getU32 := getLast WireVal.asU32
def getBool := getLast WireVal.asBool

/-- The fields of one sub-message occurrence, checked with its own parser. -/
def WireVal.asMsg {α : Type} (unpack : List Field → Option α) (v : WireVal) : Option (List Field × α) :=
  (v.asBytes.bind fieldsDec).bind fun fs => (unpack fs).map fun m => (fs, m)

/-- optional or required sub-message -/
def getMsg {α : Type} (unpack : List Field → Option α) (n : Nat) (fs : List Field) :
    Option (Option α) :=
  match (occ n fs).mapM (WireVal.asMsg unpack) with
  | none => none
  | some [] => some none
  | some [p] => some (some p.2)
  | some ps => (unpack (ps.flatMap Prod.fst)).map some

/-- repeated sub-message -/
def getRep {α : Type} (unpack : List Field → Option α) (n : Nat) (fs : List Field) :
    Option (List α) :=
  ((occ n fs).mapM (WireVal.asMsg unpack)).map (List.map Prod.snd)

/-- A required member: absence makes unpack fail. -/
def require {α : Type} (x : Option (Option α)) : Option α := x.bind id

/-! Packing of members: one optional field. -/

def putBytes (n : Nat) : Option Bytes → List Field
  | none => []
  | some b => [⟨n, .len b⟩]
def putU64 (n : Nat) : Option UInt64 → List Field
  | none => []
  | some v => [⟨n, .varint v⟩]
def putU32 (n : Nat) : Option UInt32 → List Field
  | none => []
  | some v => [⟨n, .varint v.toUInt64⟩]
def putBool (n : Nat) : Option Bool → List Field
  | none => []
  | some v => [⟨n, .varint (if v then 1 else 0)⟩]
def putMsg {α : Type} (pack : α → List Field) (n : Nat) : Option α → List Field
  | none => []
  | some m => [⟨n, .len (fieldsEnc (pack m))⟩]
def putRep {α : Type} (pack : α → List Field) (n : Nat) (ms : List α) : List Field :=
  ms.map fun m => ⟨n, .len (fieldsEnc (pack m))⟩

/-! The messages. -/

/-- ephemeral_keypair.proto -/
structure PEphKey where
  identifier : Option UInt64
  ecKey : Option Bytes
  keySig : Option Bytes
deriving Repr, DecidableEq

/-- ephemeral_keypair.proto -/
def PEphKey.pack (m : PEphKey) : List Field :=
  putU64 1 m.identifier ++ putBytes 2 m.ecKey ++ putBytes 3 m.keySig
/-- ephemeral_keypair.proto -/
def PEphKey.unpack (fs : List Field) : Option PEphKey :=
  (getU64 1 fs).bind fun a => (getBytes 2 fs).bind fun b => (getBytes 3 fs).map fun c => ⟨a, b, c⟩

/-- identity.proto `Identity` -/
structure PIdentity where
  identifier : Option Bytes
  sigKey : Option Bytes
  signature : Option Bytes
  type : Option UInt32
  isPrivate : Option Bool
deriving Repr, DecidableEq

/-- identity.proto `Identity` -/
def PIdentity.pack (m : PIdentity) : List Field :=
  putBytes 1 m.identifier ++ putBytes 2 m.sigKey ++ putBytes 3 m.signature ++ putU32 4 m.type
    ++ putBool 5 m.isPrivate
/-- identity.proto `Identity` -/
def PIdentity.unpack (fs : List Field) : Option PIdentity :=
  (getBytes 1 fs).bind fun a => (getBytes 2 fs).bind fun b => (getBytes 3 fs).bind fun c =>
    (getU32 4 fs).bind fun d => (getBool 5 fs).map fun e => ⟨a, b, c, d, e⟩

/-- identity.proto `IdentityChain` -/
structure PChain where
  root : Option PIdentity
  node : Option PIdentity
deriving Repr, DecidableEq

/-- identity.proto `IdentityChain` -/
def PChain.pack (m : PChain) : List Field :=
  putMsg PIdentity.pack 1 m.root ++ putMsg PIdentity.pack 2 m.node
/-- identity.proto `IdentityChain` -/
def PChain.unpack (fs : List Field) : Option PChain :=
  (getMsg PIdentity.unpack 1 fs).bind fun a => (getMsg PIdentity.unpack 2 fs).map fun b => ⟨a, b⟩

/-- node.proto -/
structure PNode where
  devid : Option Bytes
  idChain : Option PChain
  ephKey : Option PEphKey
deriving Repr, DecidableEq

/-- node.proto -/
def PNode.pack (m : PNode) : List Field :=
  putBytes 1 m.devid ++ putMsg PChain.pack 2 m.idChain ++ putMsg PEphKey.pack 3 m.ephKey
/-- node.proto -/
def PNode.unpack (fs : List Field) : Option PNode :=
  (getBytes 1 fs).bind fun a => (getMsg PChain.unpack 2 fs).bind fun b =>
    (getMsg PEphKey.unpack 3 fs).map fun c => ⟨a, b, c⟩

/-- key_exchange.proto `exchange` -/
structure PExchange where
  identifier : Bytes
  keyId : UInt64
  data : Bytes
deriving Repr, DecidableEq

/-- key_exchange.proto `exchange` -/
def PExchange.pack (m : PExchange) : List Field :=
  putBytes 1 (some m.identifier) ++ putU64 2 (some m.keyId) ++ putBytes 3 (some m.data)
/-- key_exchange.proto `exchange` -/
def PExchange.unpack (fs : List Field) : Option PExchange :=
  (require (getBytes 1 fs)).bind fun a => (require (getU64 2 fs)).bind fun b =>
    (require (getBytes 3 fs)).map fun c => ⟨a, b, c⟩

/-- key_exchange.proto `key_exchange_set` -/
structure PExchangeSet where
  senderPub : Bytes
  exchanges : List PExchange
deriving Repr, DecidableEq

/-- key_exchange.proto `key_exchange_set` -/
def PExchangeSet.pack (m : PExchangeSet) : List Field :=
  putBytes 1 (some m.senderPub) ++ putRep PExchange.pack 2 m.exchanges
/-- key_exchange.proto `key_exchange_set` -/
def PExchangeSet.unpack (fs : List Field) : Option PExchangeSet :=
  (require (getBytes 1 fs)).bind fun a => (getRep PExchange.unpack 2 fs).map fun b => ⟨a, b⟩

/-- message.proto `packet` -/
structure PPacket where
  encHeader : Bytes
  encPayload : Bytes
deriving Repr, DecidableEq

/-- message.proto `packet` -/
def PPacket.pack (m : PPacket) : List Field :=
  putBytes 1 (some m.encHeader) ++ putBytes 2 (some m.encPayload)
/-- message.proto `packet` -/
def PPacket.unpack (fs : List Field) : Option PPacket :=
  (require (getBytes 1 fs)).bind fun a => (require (getBytes 2 fs)).map fun b => ⟨a, b⟩

/-- message.proto `payload.meta.ephemerality` -/
structure PEphemerality where
  ttl : UInt64
  bor : Option UInt64
deriving Repr, DecidableEq

/-- message.proto `payload.meta.ephemerality` -/
def PEphemerality.pack (m : PEphemerality) : List Field := putU64 1 (some m.ttl) ++ putU64 2 m.bor
/-- message.proto `payload.meta.ephemerality` -/
def PEphemerality.unpack (fs : List Field) : Option PEphemerality :=
  (require (getU64 1 fs)).bind fun a => (getU64 2 fs).map fun b => ⟨a, b⟩

/-- message.proto `payload.meta` -/
structure PMeta where
  eph : PEphemerality
  channelTag : Option Bytes
  contentType : Option UInt32
deriving Repr, DecidableEq

/-- message.proto `payload.meta` -/
def PMeta.pack (m : PMeta) : List Field :=
  putMsg PEphemerality.pack 1 (some m.eph) ++ putBytes 2 m.channelTag ++ putU32 3 m.contentType
/-- message.proto `payload.meta` -/
def PMeta.unpack (fs : List Field) : Option PMeta :=
  (require (getMsg PEphemerality.unpack 1 fs)).bind fun a => (getBytes 2 fs).bind fun b =>
    (getU32 3 fs).map fun c => ⟨a, b, c⟩

/-- message.proto `payload` -/
structure PPayload where
  hdr : PMeta
  body : Bytes
deriving Repr, DecidableEq

/-- message.proto `payload` -/
def PPayload.pack (m : PPayload) : List Field :=
  putMsg PMeta.pack 3 (some m.hdr) ++ putBytes 4 (some m.body)
/-- message.proto `payload` -/
def PPayload.unpack (fs : List Field) : Option PPayload :=
  (require (getMsg PMeta.unpack 3 fs)).bind fun a => (require (getBytes 4 fs)).map fun b => ⟨a, b⟩

/-- storage.proto `root_keys` -/
structure PRootKeys where
  version : UInt32
  nodeStorageRoot : Option Bytes
  remoteStorageRoot : Option Bytes
  nodeSignatureRoot : Option Bytes
deriving Repr, DecidableEq

/-- storage.proto `root_keys` -/
def PRootKeys.pack (m : PRootKeys) : List Field :=
  putU32 1 (some m.version) ++ putBytes 2 m.nodeStorageRoot ++ putBytes 3 m.remoteStorageRoot
    ++ putBytes 4 m.nodeSignatureRoot
/-- storage.proto `root_keys` -/
def PRootKeys.unpack (fs : List Field) : Option PRootKeys :=
  (require (getU32 1 fs)).bind fun a => (getBytes 2 fs).bind fun b => (getBytes 3 fs).bind fun c =>
    (getBytes 4 fs).map fun d => ⟨a, b, c, d⟩

/-- storage.proto `storage_keys` -/
structure PStorageKeys where
  version : UInt32
  localStorage : Option Bytes
  remoteStorage : Option Bytes
deriving Repr, DecidableEq

/-- storage.proto `storage_keys` -/
def PStorageKeys.pack (m : PStorageKeys) : List Field :=
  putU32 1 (some m.version) ++ putBytes 2 m.localStorage ++ putBytes 3 m.remoteStorage
/-- storage.proto `storage_keys` -/
def PStorageKeys.unpack (fs : List Field) : Option PStorageKeys :=
  (require (getU32 1 fs)).bind fun a => (getBytes 2 fs).bind fun b =>
    (getBytes 3 fs).map fun c => ⟨a, b, c⟩

/-- storage.proto `ctx` -/
structure PCtx where
  storage : Option PStorageKeys
  idChain : Option PChain
deriving Repr, DecidableEq

/-- storage.proto `ctx` -/
def PCtx.pack (m : PCtx) : List Field :=
  putMsg PStorageKeys.pack 1 m.storage ++ putMsg PChain.pack 2 m.idChain
/-- storage.proto `ctx` -/
def PCtx.unpack (fs : List Field) : Option PCtx :=
  (getMsg PStorageKeys.unpack 1 fs).bind fun a => (getMsg PChain.unpack 2 fs).map fun b => ⟨a, b⟩

/-- stream.proto `HandshakeV1.Seed` -/
structure PSeed where
  idChain : Option PChain
  ephPub : Option Bytes
  identityRequired : Option Bool
deriving Repr, DecidableEq

/-- stream.proto `HandshakeV1.Seed` -/
def PSeed.pack (m : PSeed) : List Field :=
  putMsg PChain.pack 2 m.idChain ++ putBytes 3 m.ephPub ++ putBool 4 m.identityRequired
/-- stream.proto `HandshakeV1.Seed` -/
def PSeed.unpack (fs : List Field) : Option PSeed :=
  (getMsg PChain.unpack 2 fs).bind fun a => (getBytes 3 fs).bind fun b =>
    (getBool 4 fs).map fun c => ⟨a, b, c⟩

/-- stream.proto `HandshakeV1.Response` -/
structure PResponse where
  ephPub : Option Bytes
  encData : Option Bytes
  idChain : Option PChain
deriving Repr, DecidableEq

/-- stream.proto `HandshakeV1.Response` -/
def PResponse.pack (m : PResponse) : List Field :=
  putBytes 2 m.ephPub ++ putBytes 3 m.encData ++ putMsg PChain.pack 4 m.idChain
/-- stream.proto `HandshakeV1.Response` -/
def PResponse.unpack (fs : List Field) : Option PResponse :=
  (getBytes 2 fs).bind fun a => (getBytes 3 fs).bind fun b =>
    (getMsg PChain.unpack 4 fs).map fun c => ⟨a, b, c⟩

/-- stream.proto `HandshakeV1`, the oneof `payload` (`unset` when neither member is present). -/
inductive PHandshake where
  | unset
  | seed (s : PSeed)
  | response (r : PResponse)
deriving Repr, DecidableEq

/-- stream.proto `HandshakeV1` -/
def PHandshake.pack : PHandshake → List Field
  | .unset => []
  | .seed s => putMsg PSeed.pack 2 (some s)
  | .response r => putMsg PResponse.pack 3 (some r)

/-- One field of `HandshakeV1`: `none` when the member does not decode, `some none` when the field
is unknown. -/
def PHandshake.unpack1 (f : Field) : Option (Option PHandshake) :=
  if f.num = 2 then (f.val.asMsg PSeed.unpack).map fun p => some (.seed p.2)
  else if f.num = 3 then (f.val.asMsg PResponse.unpack).map fun p => some (.response p.2)
  else some none

/-- stream.proto `HandshakeV1`: protobuf-c `parse_oneof_member` drops the member parsed before, so
the last one counts and there is no merging. -/
def PHandshake.unpack (fs : List Field) : Option PHandshake :=
  (fs.mapM PHandshake.unpack1).map fun l => ((l.filterMap id).getLast?).getD .unset

/-- stream.proto `TransportRootKey` -/
structure PTransportRootKey where
  secret : Option Bytes
  cipherId : Option UInt32
  ppeSend : Option UInt32
  ppeRecv : Option UInt32
deriving Repr, DecidableEq

/-- stream.proto `TransportRootKey` -/
def PTransportRootKey.pack (m : PTransportRootKey) : List Field :=
  putBytes 1 m.secret ++ putU32 2 m.cipherId ++ putU32 3 m.ppeSend ++ putU32 4 m.ppeRecv
/-- stream.proto `TransportRootKey` -/
def PTransportRootKey.unpack (fs : List Field) : Option PTransportRootKey :=
  (getBytes 1 fs).bind fun a => (getU32 2 fs).bind fun b => (getU32 3 fs).bind fun c =>
    (getU32 4 fs).map fun d => ⟨a, b, c, d⟩

/-- stream.proto `HandshakeV1ResponseData` -/
structure PResponseData where
  rootKey : Option PTransportRootKey
deriving Repr, DecidableEq

/-- stream.proto `HandshakeV1ResponseData` -/
def PResponseData.pack (m : PResponseData) : List Field := putMsg PTransportRootKey.pack 1 m.rootKey
/-- stream.proto `HandshakeV1ResponseData` -/
def PResponseData.unpack (fs : List Field) : Option PResponseData :=
  (getMsg PTransportRootKey.unpack 1 fs).map fun a => ⟨a⟩

/-- stream.proto `StreamKey` -/
structure PStreamKey where
  cipherKey : Option Bytes
  evoKey : Option Bytes
  ppe : Option UInt32
  userData : Option Bytes
deriving Repr, DecidableEq

/-- stream.proto `StreamKey` -/
def PStreamKey.pack (m : PStreamKey) : List Field :=
  putBytes 1 m.cipherKey ++ putBytes 2 m.evoKey ++ putU32 3 m.ppe ++ putBytes 4 m.userData
/-- stream.proto `StreamKey` -/
def PStreamKey.unpack (fs : List Field) : Option PStreamKey :=
  (getBytes 1 fs).bind fun a => (getBytes 2 fs).bind fun b => (getU32 3 fs).bind fun c =>
    (getBytes 4 fs).map fun d => ⟨a, b, c, d⟩

end Wickr
