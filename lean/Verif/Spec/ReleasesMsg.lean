import Verif.Spec.Releases
import Verif.Model.HeapPacket
/-
The values that functions on messages release without wiping them.
-/
namespace Wickr

/-- The parts of a serialized payload: the channel tag and the text. -/
def payloadParts (b : Bytes) : List Bytes := ((fieldsDec b).bind PPayload.unpack).toList.flatMap PPayload.parts

/-- The sealed data of exchanges as it is written. -/
def exsData (xs : List (Option KeyExchange)) : List Bytes := xs.flatMap fun x => (x.bind exchangeToProto).toList.map PExchange.data

/-- What reading an exchange releases: its parts. -/
def PExchange.shown (m : PExchange) : List Bytes :=
  m.identifier :: m.data :: (cresHead m.data ++ (cipherResultFromBuffer m.data).toList.flatMap CipherResult.publics)

/-- What making a set of exchanges of a message releases. -/
def PExchangeSet.shown (E : Engine) (m : PExchangeSet) : List Bytes :=
  m.parts ++ m.exchanges.flatMap PExchange.shown ++ importPubs E m.senderPub false

/-- What reading a set of exchanges releases: its parts. -/
def setParts (E : Engine) (b : Bytes) : List Bytes := ((fieldsDec b).bind PExchangeSet.unpack).toList.flatMap (PExchangeSet.shown E)

/-- The content of a packet: header and payload as they are written. -/
def packetContent (h p : CipherResult) : Option Bytes :=
  (cipherResultSerialize h).bind fun hb => (cipherResultSerialize p).bind fun pb => protoPack (PPacket.pack ⟨hb, pb⟩)

/-- What making a packet releases: its parts. -/
def packetPubs (E : Engine) (h p : CipherResult) (k : EcKey) (nonce : Bytes) : List Bytes :=
  (cipherResultSerialize h).toList ++ (cipherResultSerialize p).toList ++
    (packetContent h p).toList.flatMap fun o => o :: (E.sign k o (digestMatchingCurve k.curve) nonce).toList.map (·.sig)

/-- The curve that a serialized packet names, and its signature. -/
def packetSig (b : Bytes) : Option (Curve × EcdsaResult) :=
  if b.length ≤ 2 then none
  else match b with
    | v :: b1 :: _ =>
      if v > 4 ∨ v < 2 then none
      else (Curve.find (msgSigType v b1)).bind fun cv =>
        if b.length ≤ 2 + cv.sigSize then none
        else (ecdsaFromBuffer ((b.drop (b.length - cv.sigSize)).take cv.sigSize)).map fun s => (cv, s)
    | _ => none

/-- The signature of a serialized packet is of the kind that the packet names. -/
def SigKind (b : Bytes) : Prop :=
  ∀ cv s, packetSig b = some (cv, s) → s.digest.id = (digestMatchingCurve cv).id ∧ s.curve.id = cv.id

/-- The parts of a serialized packet: signature and content. -/
def packetParts (b : Bytes) : List Bytes :=
  (packetSig b).toList.flatMap fun x => x.2.sig :: (copySection b 2 (b.length - x.1.sigSize - 2)).toList

/-- A written signature without its padding. -/
def ecdsaBare (r : EcdsaResult) : Option Bytes :=
  concatMulti [some [(r.curve.id <<< 4) ||| r.digest.id], some [UInt8.ofNat (r.curve.sigSize - r.sig.length - 2)], none, some r.sig]

/-- A written signature has no padding if there was no memory for it. -/
def sigLoss (r : EcdsaResult) (v v' : Bytes) : Prop := v' = v ∨ ecdsaBare r = some v'

end Wickr
