import Verif.Spec.Wire
import Verif.Model.Handshake
import Verif.Model.Ctx
import Verif.Model.Message
/-
The byte format of every object the library serializes, written from the protobuf encoding rules and
the schemas in /repo/src/protobuf, without reference to the packing functions of the model: which
fields there are, their numbers, their order and their encoding.  `none` means that the object has no
serialization at all.  What can be written is limited by the size of a buffer; that limit is part of
the theorems, not of the format.
-/
namespace Wickr.Spec

/-- A base-128 number, least significant group first, the top bit set on all groups but the last. -/
def varint (n : Nat) : Bytes :=
  if n < 128 then [UInt8.ofNat n] else UInt8.ofNat (128 + n % 128) :: varint (n / 128)
termination_by n

/-- An integer, enum or bool: wire type 0. -/
def uintField (num n : Nat) : Bytes := varint (8 * num) ++ varint n

/-- A byte string or a nested message: wire type 2. -/
def bytesField (num : Nat) (b : Bytes) : Bytes := varint (8 * num + 2) ++ varint b.length ++ b

/-- The nested and optional members below are left out when they are absent. -/
def optField (num : Nat) : Option Bytes → Bytes
  | none => []
  | some b => bytesField num b

/-- A signature; one that is too long for its curve cannot be written. -/
def sigWire (s : EcdsaResult) : Option Bytes :=
  if s.sig.length + 2 ≤ s.curve.sigSize then some (ecdsaLayout s) else none

/-- An encrypted value: `| CIPHER_ID | IV | AUTH_TAG (IF REQUIRED) | CIPHER_TEXT |`; it has to carry the
tag its cipher requires. -/
def sealedWire (r : CipherResult) : Option Bytes :=
  if r.cipher.isAuth then r.tag.map fun t => [r.cipher.id] ++ r.iv ++ t ++ opt r.ct
  else some ([r.cipher.id] ++ r.iv ++ opt r.ct)

/-- identity.proto `Identity`: 1 identifier, 2 key, 3 signature of a node, 4 type, 5 private or not. -/
def identityWire (i : Identity) (isPrivate : Bool) : Option Bytes :=
  (if isPrivate then i.key.pri else some i.key.pub).bind fun key =>
    match i.type with
    | .root => some (bytesField 1 i.identifier ++ bytesField 2 key ++ uintField 4 0 ++ uintField 5 isPrivate.toNat)
    | .node => (i.sig.bind sigWire).map fun s =>
        bytesField 1 i.identifier ++ bytesField 2 key ++ bytesField 3 s ++ uintField 4 1 ++
          uintField 5 isPrivate.toNat

/-- identity.proto `IdentityChain`: 1 root, 2 node. -/
def chainWire (c : Chain) (isPrivate : Bool) : Option Bytes :=
  (identityWire c.root isPrivate).bind fun r => (identityWire c.node isPrivate).map fun n =>
    bytesField 1 r ++ bytesField 2 n

/-- ephemeral_keypair.proto: 1 identifier, 2 public key, 3 signature if there is one. -/
def ephWire (k : EphKey) : Option Bytes :=
  match k.sig with
  | none => some (uintField 1 k.identifier.toNat ++ bytesField 2 k.key.pub)
  | some s => (sigWire s).map fun s =>
      uintField 1 k.identifier.toNat ++ bytesField 2 k.key.pub ++ bytesField 3 s

/-- node.proto: 1 device, 2 chain, 3 ephemeral key if there is one. -/
def nodeWire (n : Node) : Option Bytes :=
  (chainWire n.chain false).bind fun c =>
    match n.eph with
    | none => some (bytesField 1 n.devId ++ bytesField 2 c)
    | some k => (ephWire k).map fun k => bytesField 1 n.devId ++ bytesField 2 c ++ bytesField 3 k

/-- key_exchange.proto `exchange`: 1 identifier, 2 key id, 3 encrypted value. -/
def exchangeWire (x : KeyExchange) : Option Bytes :=
  (sealedWire x.ct).map fun d => bytesField 1 x.id ++ uintField 2 x.keyId.toNat ++ bytesField 3 d

/-- The exchanges of a set, each as field 2, in order. -/
def exchangesWire : List (Option KeyExchange) → Option Bytes
  | [] => some []
  | none :: _ => none
  | some x :: xs => (exchangeWire x).bind fun w => (exchangesWire xs).map fun r => bytesField 2 w ++ r

/-- key_exchange.proto `key_exchange_set`: 1 sender key, repeated 2 exchanges, at least one. -/
def exchangeSetWire (s : KeyExchangeSet) : Option Bytes :=
  if s.exchanges = [] then none
  else (exchangesWire s.exchanges).map fun xs => bytesField 1 s.senderPub.pub ++ xs

/-- message.proto `payload`: 3 metadata (1 ephemerality (1 ttl, 2 burn on read unless zero), 2 channel
tag, 3 content type), 4 body. -/
def payloadWire (p : Payload) : Bytes :=
  bytesField 3
    (bytesField 1 (uintField 1 p.hdr.ttl.toNat ++ if p.hdr.bor = 0 then [] else uintField 2 p.hdr.bor.toNat) ++
      bytesField 2 p.hdr.channelTag ++ uintField 3 p.hdr.contentType.toNat) ++
  bytesField 4 p.body

/-- message.proto `packet`: 1 encrypted header, 2 encrypted payload. -/
def packetWire (header payload : CipherResult) : Option Bytes :=
  (sealedWire header).bind fun h => (sealedWire payload).map fun p => bytesField 1 h ++ bytesField 2 p

/-- protocol.h: `| VERSION | CURVE_ID | CONTENT | SIGNATURE |`. -/
def messageWire (m : Msg) : Option Bytes :=
  (sigWire m.sig).map fun s => [m.version, m.sig.curve.id] ++ m.content ++ s

/-- storage.proto `root_keys`: 1 version (one), 2 node storage key, 3 remote storage key, 4 private
signature key. -/
def rootKeysWire (k : RootKeys) : Option Bytes :=
  k.sigRoot.pri.map fun s =>
    uintField 1 1 ++ bytesField 2 (cipherKeyLayout k.nodeRoot) ++ bytesField 3 (cipherKeyLayout k.remoteRoot) ++
      bytesField 4 s

/-- storage.proto `storage_keys`: 1 version (one), 2 local key, 3 remote key. -/
def storageWire (k : StorageKeys) : Bytes :=
  uintField 1 1 ++ bytesField 2 (cipherKeyLayout k.loc) ++ bytesField 3 (cipherKeyLayout k.rem)

/-- storage.proto `ctx`: 1 storage keys, 2 private identity chain. -/
def ctxWire (c : Ctx) : Option Bytes :=
  (chainWire c.chain true).map fun ch => bytesField 1 (storageWire c.storage) ++ bytesField 2 ch

/-- stream.proto `StreamKey`: 1 cipher key, 2 evolution key, 3 packets per evolution, 4 user data if any. -/
def streamKeyWire (k : StreamKey) : Bytes :=
  bytesField 1 (cipherKeyLayout k.cipherKey) ++ bytesField 2 k.evoKey ++ uintField 3 k.ppe.toNat ++
    optField 4 k.userData

/-- stream.proto `HandshakeV1` with a `Seed` (2): 2 chain, 3 ephemeral key, 4 identity required. -/
def seedWire (self : Chain) (eph : Bytes) (required : Bool) : Option Bytes :=
  (chainWire self false).map fun c =>
    bytesField 2 (bytesField 2 c ++ bytesField 3 eph ++ uintField 4 required.toNat)

/-- stream.proto `HandshakeV1` with a `Response` (3): 2 ephemeral key, 3 encrypted data, 4 chain if
asked for. -/
def responseWire (eph enc : Bytes) : Option Chain → Option Bytes
  | none => some (bytesField 3 (bytesField 2 eph ++ bytesField 3 enc))
  | some c => (chainWire c false).map fun c => bytesField 3 (bytesField 2 eph ++ bytesField 3 enc ++ bytesField 4 c)

/-- stream.proto `HandshakeV1ResponseData`: 1 root key (1 secret, 2 cipher, 3 and 4 packets per evolution
of the sender and of the receiver). -/
def responseDataWire (k : RootKey) : Bytes :=
  bytesField 1 (bytesField 1 k.secret ++ uintField 2 k.cipher.id.toNat ++ uintField 3 k.ppeSend.toNat ++
    uintField 4 k.ppeRecv.toNat)

end Wickr.Spec
