import Verif.Spec.ReprHandshake
/-
What the calls to a handshake in memory do, and when they leave something behind.
-/
namespace Wickr
open Asrt Spec

/-- A message whose packet cannot be signed: the packet is not released. -/
def SignRefused (E : Engine) (self : Chain) (m : PHandshake) (nonce : Bytes) : Prop :=
  ∃ p, handshakeToPacket m = some p ∧ (pktSign E p self nonce).2 = false

/-- A packet with a message, signed. -/
def SentBy (E : Engine) (self : Chain) (m : PHandshake) (nonce : Bytes) (f : Bool) (p : Packet) : Prop :=
  ∃ p0, handshakeToPacket m = some p0 ∧ SignOutcome E p0 self nonce true f p

/-- What `wickr_transport_handshake_start` does. -/
def StartOutcome (E : Engine) (v : Handshake) (r : HsRand) (f : Bool) (w : Handshake) (q : Option Packet) : Prop :=
  (f = false → hsStart E v r = (w, q)) ∧
  (w.self = v.self ∧ w.remote = v.remote ∧ w.evo = v.evo ∧ w.rootKey = v.rootKey ∧ w.pendingPkt = v.pendingPkt ∧ w.pkt1 = v.pkt1) ∧
  (q = none → w.status = .failed) ∧
  (∀ p, q = some p → v.status = .unknown ∧ w.status = .inProgress ∧ w.isInitiator = true ∧ w.eph = some r.eph ∧
    (w.pkt0 = slotSet v.pkt0 p.network ∨ f = true ∧ w.pkt0 = v.pkt0) ∧
    ∃ m, chainWrites v.self false m ∧ SentBy E v.self (.seed ⟨some m, some r.eph.pub, some v.remote.isNone⟩) r.nonce f p)

/-- When it leaves something behind. -/
def StartLeaks (E : Engine) (v : Handshake) (r : HsRand) : Prop :=
  v.status = .unknown ∧ (chainBuildProto v.self false = none ∨
    ∃ m, chainBuildProto v.self false = some m ∧ SignRefused E v.self (.seed ⟨some m, some r.eph.pub, some v.remote.isNone⟩) r.nonce)

/-- The packet that was looked at: its bytes may have been filled in. -/
def PktSeen (p p' : Packet) : Prop := p' = p ∨ p.network = none ∧ ∃ net, pktSerialize p = some net ∧ p' = { p with network := some net }

/-- The identity that comes with the packet a handshake waits for. -/
def presented (v : Handshake) (p : Packet) : Option PChain :=
  match v.status, handshakeFromPacket p with
  | .unknown, some (.seed s) => s.idChain
  | .inProgress, some (.response r) => r.idChain
  | _, _ => none

/-- A packet that was accepted: from the identity the handshake was made with, or, if it was made without one, from the identity that
came with the packet, which is still to be verified. -/
def Accepted (E : Engine) (v : Handshake) (p : Packet) (m : Option PChain) (f : Bool) (w : Handshake) (p' : Packet) : Prop :=
  ∃ ch ch', (v.remote = some ch ∧ w.status = .pendingFinalization ∨
    v.remote = none ∧ m.bind (chainFromProto E) = some ch ∧ w.status = .pendingVerification) ∧
    w.remote = some ch' ∧ CheckOutcome E p ch true f p' ch'

/-- What a handshake needs its random values to be. -/
def SaneRand (r : HsRand) : Prop :=
  (∃ d, r.eph.pri = some d ∧ ValidBuf d) ∧ ValidBuf r.eph.pub ∧ r.secret.length = defaultCipher.keyLen

/-- A message through the wrong member of the union (transport_handshake.c:390, 514). -/
def WrongCase (v : Handshake) (p : Packet) : Prop :=
  v.status = .unknown ∧ (∃ m, handshakeFromPacket p = some (.response m)) ∨ v.status = .inProgress ∧ ∃ m, handshakeFromPacket p = some (.seed m)

/-- A handshake that has not heard of the other side has no key yet. -/
def HsWf (v : Handshake) : Prop :=
  (v.status = .unknown → v.eph = none) ∧ (v.status = .unknown ∨ v.status = .inProgress → v.rootKey = none ∧ v.pendingPkt = none)

/-- What `wickr_transport_handshake_process` does. -/
def ProcOutcome (E : Engine) (v : Handshake) (p : Packet) (r : HsRand) (f : Bool) (w : Handshake) (p' : Packet) (q : Option Packet)
    (ask : Option Chain) : Prop :=
  (f = false → hsProcess E v (some p) r = .ok (w, ⟨q, ask⟩)) ∧
  (w.self = v.self ∧ w.evo = v.evo ∧ w.isInitiator = v.isInitiator ∧ w.eph = v.eph) ∧ PktSeen p p' ∧
  (w.status = .failed ∧ q = none ∧ ask = none ∨
    (v.status = .unknown ∨ v.status = .inProgress) ∧ Accepted E v p (presented v p) f w p' ∧ w.rootKey.isSome = true ∧
      (w.status = .pendingVerification → q = none ∧ (ask = none → f = true) ∧ ∀ c, ask = some c → ∃ ch, w.remote = some ch ∧ chainLoss ch c) ∧
      (w.status = .pendingFinalization → ask = none ∧ w.pendingPkt = none) ∧
      (∀ o, q = some o ∨ w.pendingPkt = some o → v.status = .unknown ∧
        ∃ eph enc m, SentBy E v.self (.response ⟨some eph, some enc, m⟩) r.nonce f o))

/-- When a packet is not released. -/
def SeedLeaks (E : Engine) (v : Handshake) (peer : EcKey) (r : HsRand) (req : Bool) : Prop :=
  ∃ rk m, rootKeyCreate r.secret defaultCipher v.evo v.evo = some rk ∧ hsMakeResponse E { v with rootKey := some rk } rk r.eph peer r.iv req = some m ∧
    SignRefused E v.self m r.nonce

/-- When it leaves a packet behind. -/
def InitLeaks (E : Engine) (v : Handshake) (p : Packet) (r : HsRand) : Prop :=
  ∃ s ep req h' peer, handshakeFromPacket p = some (.seed s) ∧ s.ephPub = some ep ∧ s.identityRequired = some req ∧
    hsRemoteIdentity E (hsSetSlot v false p.network) p s.idChain = (h', true) ∧ (dup ep).bind (E.ecImport · false) = some peer ∧
    SeedLeaks E h' peer r req

/-- A decrypted response without root key. -/
def NoRoot (bs : Bytes) : Prop := ∃ d, (fieldsDec bs).bind PResponseData.unpack = some d ∧ d.rootKey = none

/-- A response whose content can be decrypted but has no root key. -/
def RootMissing (E : Engine) (v : Handshake) (own peer : EcKey) (enc : CipherResult) : Prop :=
  ∃ m b, hsKdfMeta E v own peer = some m ∧ ecdhDecipher E ⟨enc.cipher, own⟩ enc peer m = some b ∧ NoRoot b

/-- When it leaves a message behind. -/
def RespLeaks (E : Engine) (v : Handshake) (p : Packet) : Prop :=
  ∃ r ep ed enc own peer h', handshakeFromPacket p = some (.response r) ∧ r.ephPub = some ep ∧ r.encData = some ed ∧
    (dup ed).bind cipherResultFromBuffer = some enc ∧ v.eph.bind ecKeyCopy = some own ∧ (dup ep).bind (E.ecImport · false) = some peer ∧
    hsRemoteIdentity E (hsSetSlot v true p.network) p r.idChain = (h', true) ∧ RootMissing E h' own peer enc

/-- When it leaves something behind. -/
def ProcLeaks (E : Engine) (v : Handshake) (p : Packet) (r : HsRand) : Prop :=
  v.status = .unknown ∧ InitLeaks E v p r ∨ v.status = .inProgress ∧ RespLeaks E v p

/-- What `wickr_transport_handshake_finalize` does. -/
def FinOutcome (E : Engine) (v : Handshake) (f : Bool) (w : Handshake) (k : Option HsKeys) : Prop :=
  (k = none → w = hsFail v) ∧ (∀ ks, k = some ks → hsFinalize E v = (w, some ks)) ∧ (f = false → hsFinalize E v = (w, k))

/-- `w` is what a copy of `v` gives: nothing if there is nothing to copy, otherwise the copy, which may lack what `L` allows
only if memory ran out, or nothing if memory ran out. -/
inductive CopyOf {α : Type} (L : α → α → Prop) : Option α → Option α → Bool → Prop
  | none {f : Bool} : CopyOf L none none f
  | lost {x : α} {f : Bool} (h : f = true) : CopyOf L (some x) none f
  | got {x y : α} {f : Bool} (h : L x y) (he : f = false → y = x) : CopyOf L (some x) (some y) f

/-- What may be missing from a copy of a handshake: what may be missing from copies of the identities. The identity the peer is
held to is there, if there is one. -/
def HsLoss (v w : Handshake) : Prop :=
  chainLoss v.self w.self ∧ (∃ f, CopyOf chainLoss v.remote w.remote f) ∧ w.remote.isSome = v.remote.isSome ∧ w.pkt0 = v.pkt0 ∧ w.pkt1 = v.pkt1 ∧
    w.status = v.status ∧ w.eph = v.eph ∧ w.rootKey = v.rootKey ∧ w.pendingPkt = v.pendingPkt.map Packet.plain ∧
    w.isInitiator = v.isInitiator ∧ w.evo = v.evo

end Wickr
