import Verif.Spec.ReleasesMsg
import Verif.Model.Message
import Verif.Spec.ReprCtx
/-
The values that making packets releases without wiping them.
-/
namespace Wickr

/-- Sealing data for a receiver releases public keys, what the key is bound to, and the exchange. -/
def kxDataPubs (E : Engine) (s : Chain) (r : Node) (exKey : EcKey) (d : Bytes) (ci : Cipher) (psk : Option Bytes) (v : UInt8) (iv : Bytes) :
    List Bytes :=
  exKey.pub :: (kxInfo s r v).toList ++ (kxCreateWithData E s r exKey d ci psk v iv).toList.flatMap KeyExchange.publics

/-- The same for a packet key. -/
def kxKeyPubs (E : Engine) (s : Chain) (r : Node) (exKey : EcKey) (pk : CipherKey) (psk : Option Bytes) (v : UInt8) (iv : Bytes) :
    List Bytes :=
  exKey.pub :: (kxInfo s r v).toList ++ (kxCreateWithKey E s r exKey pk psk v iv).toList.flatMap KeyExchange.publics

/-- Opening an exchange releases the public key used and what the key is bound to. -/
def kxDerivePubs (s : Chain) (r : Node) (v : UInt8) : List Bytes := (r.eph.toList.map fun e => e.key.pub) ++ (kxInfo s r v).toList

/-- The exchanges for those recipients for which one can be made. -/
def exsMade (E : Engine) (s : Chain) (exKey : EcKey) (pk : CipherKey) (v : UInt8) (iv : Nat → Bytes) :
    List (Option Node) → Nat → List KeyExchange
  | [], _ => []
  | none :: ns, i => exsMade E s exKey pk v iv ns (i + 1)
  | some n :: ns, i => (kxCreateWithKey E s n exKey pk none v (iv i)).toList ++ exsMade E s exKey pk v iv ns (i + 1)

/-- What making the header of a packet releases: public keys and identities, the exchanges, the sealed header. -/
def msgHeaderPubs (E : Engine) (hk pk : CipherKey) (exKey : EcKey) (ns : List (Option Node)) (s : Chain) (v : UInt8) (rnd : MsgRand) :
    List Bytes :=
  let xs := exsMade E s exKey pk v rnd.exIv ns 0
  exKey.pub :: (ns.flatMap fun n => n.toList.flatMap fun n => (kxInfo s n v).toList) ++ xs.flatMap KeyExchange.publics ++
    exsData (xs.map some) ++ (exchangeSetSerialize ⟨exKey, xs.map some⟩).toList.flatMap fun b => encryptPubs E b none hk rnd.hdrIv

/-- The sealed header of a packet. -/
def msgHeader (E : Engine) (hk pk : CipherKey) (exKey : EcKey) (ns : List (Option Node)) (s : Chain) (v : UInt8) (rnd : MsgRand) :
    Option CipherResult :=
  (exchangesCreate E s exKey pk v rnd.exIv ns 0).bind fun xs => exchangeSetEncrypt E ⟨exKey, xs.map some⟩ hk rnd.hdrIv

/-- The packet for recipients that are accepted. -/
def msgMade (E : Engine) (hk pk : CipherKey) (exKey : EcKey) (pl : Payload) (ns : List (Option Node)) (s : Chain) (v : UInt8) (rnd : MsgRand) :
    Res Msg :=
  match msgHeader E hk pk exKey ns s v rnd with
  | none => .null
  | some h =>
    match payloadEncrypt E pl pk rnd.payIv with
    | none => .null
    | some p => msgCreateWithComponents E h p s.node.key v rnd.nonce

/-- What making a packet releases: what making its header does, the sealed payload, the parts of the packet. -/
def msgPubs (E : Engine) (hk pk : CipherKey) (exKey : EcKey) (pl : Payload) (ns : List (Option Node)) (s : Chain) (v : UInt8) (rnd : MsgRand) :
    List Bytes :=
  msgHeaderPubs E hk pk exKey ns s v rnd ++ (payloadEncrypt E pl pk rnd.payIv).toList.flatMap CipherResult.publics ++
    (msgHeader E hk pk exKey ns s v rnd).toList.flatMap fun h => (payloadEncrypt E pl pk rnd.payIv).toList.flatMap fun p =>
      packetPubs E h p s.node.key rnd.nonce

/-- What reading the set of exchanges in a sealed header releases: the parts of the header and of the set, and what was to be the key of the
header if it does not have the length of a key. -/
def sealedSetPubs (E : Engine) (hb : Bytes) (s : Chain) : List Bytes :=
  cresHead hb ++ (cipherResultFromBuffer hb).toList.flatMap fun h => h.publics ++
    ((E.digest s.root.identifier (some s.node.identifier) (digestMatchingCipher h.cipher)).toList.filter fun x => x.length ≠ h.cipher.keyLen) ++
    ((genHeaderKey E h.cipher s).bind fun k => E.decrypt h none k true).toList.flatMap (setParts E)

/-- What parsing a packet with this content releases: the parts of the packet and of its header. -/
def parsePubs (E : Engine) (content : Bytes) (s : Chain) : List Bytes :=
  ((fieldsDec content).bind PPacket.unpack).toList.flatMap fun p => p.parts ++ sealedSetPubs E p.encHeader s ++ cresHead p.encPayload ++
    (cipherResultFromBuffer p.encPayload).toList.flatMap CipherResult.publics

/-- What parsing may find instead of `v` when memory is short: that a signed packet is corrupt or not for the node, or an exchange
without its cipher text. -/
def parseShort (v v' : ParseResult) : Prop :=
  v' = v ∨ (v.sigStatus = .valid ∧ (v' = parseFailure .valid .corruptPacket ∨ v' = parseFailure .valid .nodeNotFound)) ∨
    ∃ x x', v.exchange = some x ∧ exLoss x x' ∧ v' = { v with exchange := some x' }

/-- The parts of what decoding unseals, and of the meta data in it. -/
def decodedParts (E : Engine) (v : UInt8) (r : ParseResult) (dev : Bytes) (key : EcKey) (rc s : Chain) : List Bytes :=
  ((r.set.bind fun set => r.exchange.bind fun x => kxDeriveKey E s ⟨dev, rc, some ⟨0, key, none⟩, .unknown, none⟩ set.senderPub x none v).bind
    fun k => r.payload.bind fun p => E.decrypt p none k true).toList.flatMap payloadParts

/-- What decoding releases: the public key used, what the key is bound to, the parts of the payload. -/
def decodePubs (E : Engine) (v : UInt8) (r : ParseResult) (dev : Bytes) (key : EcKey) (rc s : Chain) : List Bytes :=
  key.pub :: (kxInfo s ⟨dev, rc, some ⟨0, key, none⟩, .unknown, none⟩ v).toList ++ decodedParts E v r dev key rc s

/-- What decoding may find instead of `v` when memory is short: that there is no key. -/
def decodeShort (v v' : DecodeResult) : Prop := v' = v ∨ v' = decodeFailure .keyExchangeFailed

end Wickr
