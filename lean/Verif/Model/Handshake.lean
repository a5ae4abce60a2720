import Verif.Model.Ecdh
import Verif.Model.Stream
import Verif.Model.TransportSign
/-
Model of transport_root_key.c, transport_root_key_priv.c, transport_handshake.c and
transport_handshake_priv.c.

Simplifications
* the application callback is the last action of `wickr_transport_handshake_process`
  (transport_handshake.c:731), so what it does to the handshake is the same as calling
  `wickr_transport_handshake_verify_identity` next; the model returns the chain it is called with;
* objects are values, leaks and `destroy` are not modelled;
* random values are arguments, and drawing them does not fail.
-/
namespace Wickr

/-! ### Root keys -/

/-- transport_root_key.h `wickr_transport_root_key_t`. -/
structure RootKey where
  secret : Bytes
  cipher : Cipher
  ppeSend : UInt32
  ppeRecv : UInt32
deriving Repr, DecidableEq

/-- transport_root_key.c:29-50 `wickr_transport_root_key_create` (5-27 `create_random` calls it with
random bytes of the right length). -/
def rootKeyCreate (secret : Bytes) (c : Cipher) (s r : UInt32) : Option RootKey :=
  if secret.length ≠ c.keyLen then none else some ⟨secret, c, s, r⟩

/-- transport_root_key.c:52-74 `wickr_transport_root_key_copy`. -/
def rootKeyCopy (k : RootKey) : Option RootKey :=
  (dup k.secret).bind fun s => rootKeyCreate s k.cipher k.ppeSend k.ppeRecv

/-- transport_root_key.c:87-130 `wickr_transport_root_key_to_stream_key`. -/
def rootKeyToStreamKey (E : Engine) (k : RootKey) (salt streamId : Bytes) (d : Dir) : Option StreamKey :=
  (E.kdf ⟨hkdfSha512, some salt, some streamId⟩ k.secret).bind fun h =>
    if h.length ≠ k.cipher.keyLen * 2 then none
    else ((copySection h 0 k.cipher.keyLen).bind (cipherKeyCreate k.cipher)).bind fun ck =>
      (copySection h k.cipher.keyLen k.cipher.keyLen).bind fun ek =>
        streamKeyCreate ck ek (if d = .encode then k.ppeSend else k.ppeRecv) none

/-- transport_root_key_priv.c:7-36 `wickr_transport_root_key_to_proto`. -/
def rootKeyToProto (k : RootKey) : PTransportRootKey :=
  ⟨some k.secret, some k.cipher.id.toUInt32, some k.ppeSend, some k.ppeRecv⟩

/-- transport_root_key_priv.c:38-67 `wickr_transport_root_key_from_proto`: the cipher id is cut to
the `uint8_t` parameter of `wickr_cipher_find`. -/
def rootKeyFromProto (p : PTransportRootKey) : Option RootKey :=
  match p.secret, p.cipherId, p.ppeSend, p.ppeRecv with
  | some s, some c, some a, some b =>
    (dup s).bind fun s => (Cipher.find c.toUInt8).bind fun c => rootKeyCreate s c a b
  | _, _, _, _ => none

/-! ### Handshake messages -/

/-- transport_handshake_priv.c:9-40 `wickr_proto_handshake_seed_create`. -/
def seedCreate (c : Chain) (eph : Bytes) (needsRemote : Bool) : Option PSeed :=
  (chainBuildProto c false).map fun p => ⟨some p, some eph, some needsRemote⟩

/-- transport_handshake_priv.c:110-148 `wickr_proto_handshake_response_create`. -/
def responseCreate (eph enc : Bytes) (c : Option Chain) : Option PResponse :=
  match c with
  | none => some ⟨some eph, some enc, none⟩
  | some c => (chainBuildProto c false).map fun p => ⟨some eph, some enc, some p⟩

/-- transport_handshake_priv.c:258-280 `wickr_proto_handshake_to_packet` (with 221-238). -/
def handshakeToPacket (m : PHandshake) : Option Packet :=
  (protoPack m.pack).map fun b => pktCreate (metaInitHandshake 1 macNone) b

/-- transport_handshake_priv.c:249-256 `wickr_proto_handshake_from_packet` (with 240-247). -/
def handshakeFromPacket (p : Packet) : Option PHandshake :=
  match p.hdr.body with
  | .handshake _ _ => (fieldsDec p.body).bind PHandshake.unpack
  | .data _ => none

/-! ### The handshake -/

/-- transport_handshake.h:43-67 `wickr_transport_handshake_status`. -/
inductive HsStatus where
  | unknown
  | inProgress
  | pendingVerification
  | pendingFinalization
  | complete
  | failed
deriving Repr, DecidableEq

/-- private/transport_handshake_priv.h:29 `wickr_transport_handshake_t` without
engine, callback and user pointer.  `pkt0` and `pkt1` are the two slots of `packet_list`; the
protocol version is always 1 (transport_handshake.c:107, 208). -/
structure Handshake where
  self : Chain
  remote : Option Chain
  pkt0 : Option Bytes
  pkt1 : Option Bytes
  status : HsStatus
  eph : Option EcKey
  rootKey : Option RootKey
  pendingPkt : Option Packet
  isInitiator : Bool
  evo : UInt32
deriving Repr, DecidableEq

/-- The random values one call can draw: an ephemeral key pair, an IV, a root secret and a
signature nonce. -/
structure HsRand where
  eph : EcKey
  iv : Bytes
  secret : Bytes
  nonce : Bytes

/-- transport_handshake.c:107 -/
def hsVersion : UInt8 := 1

/-- transport_handshake.c:86-143 `wickr_transport_handshake_create` (callback non-NULL). -/
def hsCreate (self : Chain) (remote : Option Chain) (evo : UInt32) : Option Handshake :=
  if evo = 0 then none else some ⟨self, remote, none, none, .unknown, none, none, none, false, evo⟩

/-- Copy of an optional member: NULL stays NULL, a failing copy is an error. -/
def copyOpt (f : α → Option α) : Option α → Option (Option α)
  | none => some none
  | some x => (f x).map some

/-- transport_handshake.c:145-211 `wickr_transport_handshake_copy`. -/
def hsCopy (h : Handshake) : Option Handshake :=
  (chainCopy h.self).bind fun l => (copyOpt chainCopy h.remote).bind fun r =>
    (dupOpt h.pkt0).bind fun p0 => (dupOpt h.pkt1).bind fun p1 =>
      if h.evo = 0 then none
      else (copyOpt rootKeyCopy h.rootKey).bind fun rk => (copyOpt pktCopy h.pendingPkt).bind fun pp =>
        (copyOpt ecKeyCopy h.eph).map fun e =>
          ⟨l, r, p0, p1, h.status, e, rk, pp, h.isInitiator, h.evo⟩

def hsFail (h : Handshake) : Handshake := { h with status := .failed }

/-- array.c:77-101 `wickr_array_set_item` with `copy`: NULL is stored as NULL, a failing copy leaves
the slot as it was. -/
def slotSet (old new : Option Bytes) : Option Bytes :=
  match new with
  | none => none
  | some b => match dup b with
    | none => old
    | some b => some b

def hsSetSlot (h : Handshake) (second : Bool) (b : Option Bytes) : Handshake :=
  if second then { h with pkt1 := slotSet h.pkt1 b } else { h with pkt0 := slotSet h.pkt0 b }

/-- transport_handshake.c:230-246 `__wickr_transport_handshake_build_signed_packet`. -/
def hsBuildSigned (E : Engine) (h : Handshake) (m : PHandshake) (nonce : Bytes) (second : Bool) :
    Handshake × Option Packet :=
  match handshakeToPacket m with
  | none => (hsFail h, none)
  | some p =>
    match pktSign E p h.self nonce with
    | (_, false) => (hsFail h, none)
    | (p, true) => (hsSetSlot h second p.network, some p)

/-- transport_handshake.c:248-300 `wickr_transport_handshake_start`. -/
def hsStart (E : Engine) (h : Handshake) (r : HsRand) : Handshake × Option Packet :=
  if h.status ≠ .unknown then (hsFail h, none)
  else
    let h := { h with isInitiator := true, status := .inProgress, eph := some r.eph }
    match seedCreate h.self r.eph.pub h.remote.isNone with
    | none => (hsFail h, none)
    | some seed => hsBuildSigned E h (.seed seed) r.nonce false

/-- transport_handshake.c:302-357 `__wickr_transport_handshake_kdf_meta_gen`. -/
def hsKdfMeta (E : Engine) (h : Handshake) (own peer : EcKey) : Option KdfMeta :=
  (chainSerialize h.self false).bind fun l => (h.remote.bind (chainSerialize · false)).bind fun r =>
    (concatMulti (if h.isInitiator then [some l, some r, some own.pub, some peer.pub]
      else [some r, some l, some peer.pub, some own.pub])).bind fun info =>
        (E.digest info none .sha512).bind fun hash => kdfMetaCreate hkdfSha512 none (some hash)

/-- transport_handshake.c:359-375 `__wickr_transport_handshake_process_remote_identity`. -/
def hsRemoteIdentity (E : Engine) (h : Handshake) (p : Packet) (proto : Option PChain) : Handshake × Bool :=
  let verify := fun (h : Handshake) (c : Chain) =>
    let r := pktVerify E p c
    (({ h with remote := some r.2.1 } : Handshake), r.2.2)
  match h.remote with
  | some c => verify h c
  | none =>
    let h := { h with status := .pendingVerification }
    match proto.bind (chainFromProto E) with
    | none => (h, false)
    | some c => verify h c

/-- transport_handshake.c:460-499: decrypting the response and reading the root key. -/
def hsOpenResponse (E : Engine) (h : Handshake) (own peer : EcKey) (enc : CipherResult) : Option RootKey :=
  (hsKdfMeta E h own peer).bind fun m => (ecdhDecipher E ⟨enc.cipher, own⟩ enc peer m).bind fun b =>
    ((fieldsDec b).bind PResponseData.unpack).bind fun d => d.rootKey.bind rootKeyFromProto

/-- transport_handshake.c:377-504 `__wickr_transport_handshake_process_response`.  `payload` is a C union
(stream.pb-c.h:67-75) and line 390 does not look at `payload_case`: a seed is read through the
response's struct type, which is undefined. -/
def hsProcessResponse (E : Engine) (h : Handshake) (p : Packet) : Res Handshake :=
  let h := hsSetSlot h true p.network
  match handshakeFromPacket p with
  | none => .ok (hsFail h)
  | some .unset => .ok (hsFail h)
  | some (.seed _) => .ub
  | some (.response r) =>
    match r.encData, r.ephPub with
    | some ed, some ep =>
      if h.remote.isNone ∧ r.idChain.isNone then .ok (hsFail h)
      else match (dup ed).bind cipherResultFromBuffer, h.eph.bind ecKeyCopy,
          (dup ep).bind (E.ecImport · false) with
        | some enc, some own, some peer =>
          match hsRemoteIdentity E h p r.idChain with
          | (h, false) => .ok (hsFail h)
          | (h, true) =>
            match hsOpenResponse E h own peer enc with
            | none => .ok (hsFail h)
            | some rk => .ok { h with
                rootKey := some rk,
                status := if h.status = .inProgress then .pendingFinalization else h.status }
        | _, _, _ => .ok (hsFail h)
    | _, _ => .ok (hsFail h)

/-- transport_handshake.c:566-620: the response message for the root key `rk`. -/
def hsMakeResponse (E : Engine) (h : Handshake) (rk : RootKey) (own peer : EcKey) (iv : Bytes)
    (identityRequired : Bool) : Option PHandshake :=
  (protoPack (PResponseData.pack ⟨some (rootKeyToProto rk)⟩)).bind fun data =>
    (hsKdfMeta E h own peer).bind fun m => (ecdhCipher E ⟨defaultCipher, own⟩ data peer m iv).bind fun r =>
      (cipherResultSerialize r).bind fun enc =>
        (responseCreate own.pub enc (if identityRequired then some h.self else none)).map .response

/-- transport_handshake.c:506-641 `__wickr_transport_handshake_process_initial`.  As above, line 514 does
not look at `payload_case`. -/
def hsProcessInitial (E : Engine) (h : Handshake) (p : Packet) (r : HsRand) :
    Res (Handshake × Option Packet) :=
  let h := hsSetSlot h false p.network
  match handshakeFromPacket p with
  | none => .ok (hsFail h, none)
  | some .unset => .ok (hsFail h, none)
  | some (.response _) => .ub
  | some (.seed s) =>
    match s.ephPub, s.identityRequired with
    | some ep, some req =>
      match hsRemoteIdentity E h p s.idChain with
      | (h, false) => .ok (hsFail h, none)
      | (h, true) =>
        match (dup ep).bind (E.ecImport · false), rootKeyCreate r.secret defaultCipher h.evo h.evo with
        | some peer, some rk =>
          let h := { h with rootKey := some rk }
          match hsMakeResponse E h rk r.eph peer r.iv req with
          | none => .ok (hsFail h, none)
          | some m =>
            match hsBuildSigned E h m r.nonce true with
            | (h, none) => .ok (hsFail h, none)
            | (h, some q) => .ok ({ h with
                status := if h.status = .unknown then .pendingFinalization else h.status }, some q)
        | _, _ => .ok (hsFail h, none)
    | _, _ => .ok (hsFail h, none)

/-- transport_handshake.c:695: the version byte, read through the union `body_meta`
(transport_packet.h:103-110) also from a data packet, where it is the low byte of the sequence number. -/
def pktVersionByte (p : Packet) : UInt8 :=
  match p.hdr.body with
  | .handshake v _ => v
  | .data seq => seq.toUInt8

/-- What a call hands to the caller: a packet to send, or a chain given to the identity callback. -/
structure HsOut where
  send : Option Packet
  ask : Option Chain
deriving Repr, DecidableEq

/-- transport_handshake.c:687-738 `wickr_transport_handshake_process` (643-659 `process_packet`). -/
def hsProcess (E : Engine) (h : Handshake) (p : Option Packet) (r : HsRand) : Res (Handshake × HsOut) :=
  match p with
  | none => .ok (hsFail h, ⟨none, none⟩)
  | some p =>
    if pktVersionByte p ≠ hsVersion then .ok (hsFail h, ⟨none, none⟩)
    else
      let res : Res (Handshake × Option Packet) := match h.status with
        | .unknown => hsProcessInitial E h p r
        | .inProgress => (hsProcessResponse E h p).bind fun h => .ok (h, none)
        | _ => .ok (hsFail h, none)
      res.bind fun (h, q) =>
        if h.status = .failed then .ok (h, ⟨none, none⟩)
        else if h.status = .pendingVerification then
          .ok ({ h with pendingPkt := q }, ⟨none, h.remote.bind chainCopy⟩)
        else .ok (h, ⟨q, none⟩)

/-- transport_handshake.c:661-685 `wickr_transport_handshake_verify_identity`. -/
def hsVerify (h : Handshake) (valid : Bool) : Handshake × Option Packet :=
  if !valid ∨ h.status ≠ .pendingVerification then ({ h with status := .failed, rootKey := none }, none)
  else
    ({ h with
      status := if h.rootKey.isSome then .pendingFinalization else .inProgress
      pendingPkt := none }, h.pendingPkt)

/-- transport_handshake.c:766 -/
def senderInfo : Bytes := [115, 101, 110, 100, 101, 114]
/-- transport_handshake.c:767 -/
def receiverInfo : Bytes := [114, 101, 99, 101, 105, 118, 101, 114]

/-- transport_handshake.c:13-35: `wickr_transport_handshake_res_t` with its `local_key`, `remote_key`. -/
structure HsKeys where
  localKey : StreamKey
  remoteKey : StreamKey
deriving Repr, DecidableEq

/-- transport_handshake.c:751-789: the two stream keys. -/
def hsDeriveKeys (E : Engine) (h : Handshake) (rk : RootKey) : Option HsKeys :=
  (concat2 h.pkt0 h.pkt1).bind fun t => (E.digest t none .sha512).bind fun hash =>
    (rootKeyToStreamKey E rk hash senderInfo .encode).bind fun s =>
      (rootKeyToStreamKey E rk hash receiverInfo .decode).map fun r =>
        if h.isInitiator then ⟨s, r⟩ else ⟨r, s⟩

/-- transport_handshake.c:740-801 `wickr_transport_handshake_finalize`. -/
def hsFinalize (E : Engine) (h : Handshake) : Handshake × Option HsKeys :=
  match h.rootKey with
  | none => (hsFail h, none)
  | some rk =>
    if h.status ≠ .pendingFinalization then (hsFail h, none)
    else match hsDeriveKeys E h rk with
      | none => (hsFail h, none)
      | some ks => ({ h with status := .complete }, some ks)

end Wickr
