import Verif.Spec.Schema
import Verif.Spec.Handshake
/-
What the two sides of a handshake believe about it, and what it means that they agree.
-/
namespace Wickr.Spec

/-- What one side believes: whose handshake it is, with which ephemeral keys, and their shared secret. -/
structure HsView where
  initiator : Chain
  responder : Chain
  initKey : Bytes
  respKey : Bytes
  secret : Bytes

/-- The initiator `a` has become `a'` by reading the response `r`. -/
def InitiatorSees (E : Engine) (a a' : Handshake) (r : PResponse) (v : HsView) : Prop :=
  v.initiator = a.self ∧ a'.remote = some v.responder ∧ ∃ own theirs peer, a.eph = some own ∧ r.ephPub = some theirs ∧
    E.ecImport theirs false = some peer ∧ v.initKey = own.pub ∧ v.respKey = peer.pub ∧ E.sharedSecret own peer = some v.secret

/-- The responder `b` has become `b'` by answering the seed `s` with the ephemeral key `own`. -/
def ResponderSees (E : Engine) (b b' : Handshake) (s : PSeed) (own : EcKey) (v : HsView) : Prop :=
  v.responder = b.self ∧ b'.remote = some v.initiator ∧ ∃ theirs peer, s.ephPub = some theirs ∧
    E.ecImport theirs false = some peer ∧ v.initKey = peer.pub ∧ v.respKey = own.pub ∧ E.sharedSecret own peer = some v.secret

/-- Same published identity of both sides, and the same ephemeral keys (if they have the usual lengths). -/
def SameView (v w : HsView) : Prop :=
  SamePublished v.initiator w.initiator ∧ SamePublished v.responder w.responder ∧
    (v.initKey.length = w.initKey.length → v.initKey = w.initKey ∧ v.respKey = w.respKey)
where
  /-- Types, identifiers, public keys and, for nodes, signatures. -/
  SamePublished (c d : Chain) : Prop := publicHalf c.root = publicHalf d.root ∧ publicHalf c.node = publicHalf d.node

/-- Both identities, initiator first, then both ephemeral keys. -/
def infoOf (v : HsView) : Option Bytes :=
  (chainWire v.initiator false).bind fun i => (chainWire v.responder false).map fun r => i ++ r ++ v.initKey ++ v.respKey

/-- A key of a side: HKDF-SHA512 from the secret, with the digest of what the side believes. -/
def ViewKey (E : Engine) (v : HsView) (k : Bytes) : Prop :=
  ∃ info d, infoOf v = some info ∧ E.digest info none .sha512 = some d ∧
    E.kdf ⟨{ hkdfSha512 with outputSize := 32 }, none, some d⟩ v.secret = some k

/-- The string `enc` is `data`, encrypted with the key `l` and serialised. -/
def SealedWith (E : Engine) (enc l : Bytes) : Prop :=
  ∃ data iv r, E.encrypt data none ⟨defaultCipher, l⟩ iv = some r ∧ cipherResultSerialize r = some enc

/-- The primitives do what they are for on what occurs here: what the sides believe has different digests if it is different, different
digests or secrets give different keys, and the string `enc`, encrypted with a key of the second side, cannot be opened with another key of
the first. -/
structure Sound (E : Engine) (enc : Bytes) (v w : HsView) : Prop where
  digest : NoCollision E fun x => infoOf v = some x ∨ infoOf w = some x
  kdf : ∀ i j d e k, infoOf v = some i → infoOf w = some j → E.digest i none .sha512 = some d → E.digest j none .sha512 = some e →
    E.kdf ⟨{ hkdfSha512 with outputSize := 32 }, none, some d⟩ v.secret = some k →
    E.kdf ⟨{ hkdfSha512 with outputSize := 32 }, none, some e⟩ w.secret = some k → d = e ∧ v.secret = w.secret
  opens : ∀ r k l x, cipherResultFromBuffer enc = some r → ViewKey E v k → ViewKey E w l → SealedWith E enc l →
    E.decrypt r none ⟨r.cipher, k⟩ false = some x → k = l

end Wickr.Spec
