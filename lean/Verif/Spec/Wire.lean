import Verif.Model.Cipher
import Verif.Model.Kdf
import Verif.Model.TransportPacket
/-
Documented byte layouts and well-formedness of the objects that are serialized by hand.
These are written from the header documentation, not from the serializers.
-/
namespace Wickr.Spec

/-- The bytes of an optional part. -/
def opt (b : Option Bytes) : Bytes := b.getD []

/-- A cipher result that the API can produce: IV of the cipher's size, a tag of the cipher's size
exactly for an authenticated cipher, cipher text absent or non-empty. -/
def WfCipherResult (r : CipherResult) : Prop :=
  r.iv.length = r.cipher.ivLen ∧
  (if r.cipher.isAuth then ∃ t, r.tag = some t ∧ t.length = r.cipher.tagLen else r.tag = none) ∧
  (∀ c, r.ct = some c → c ≠ [])

/-- cipher.h:160 `| CIPHER_ID | IV | AUTH_TAG (IF REQUIRED) | CIPHER_TEXT |`. -/
def cipherResultLayout (r : CipherResult) : Bytes :=
  [r.cipher.id] ++ r.iv ++ opt r.tag ++ opt r.ct

/-- cipher.h:237 `| CIPHER_ID | KEY_DATA |`. -/
def cipherKeyLayout (k : CipherKey) : Bytes := [k.cipher.id] ++ k.key

/-- The KDFs whose parameters are stored on the wire (kdf.h:108-114): the four scrypt cost settings
and bcrypt. -/
def wireKdfs : List KdfAlgo := [scrypt17, scrypt18, scrypt19, scrypt20, bcrypt15]

/-- Signature trailer: curve and digest nibbles, padding count, zero padding, signature; always
`sigSize` bytes. -/
def ecdsaLayout (r : EcdsaResult) : Bytes :=
  [r.curve.id * 16 + r.digest.id, UInt8.ofNat (r.curve.sigSize - 2 - r.sig.length)] ++
    List.replicate (r.curve.sigSize - 2 - r.sig.length) 0 ++ r.sig

/-- The fixed header of a transport packet. -/
def pktHeaderLayout (m : PktMeta) : Bytes :=
  match m.body with
  | .handshake version flags => [m.mac, version] ++ le64 flags
  | .data seq => [16 + m.mac] ++ le64 seq

/-- `| HEADER | BODY | MAC |`. -/
def pktLayout (p : Packet) : Bytes := pktHeaderLayout p.hdr ++ p.body ++ opt p.mac

/-- A transport packet that can be sent: a non-empty body, and a MAC of signature size exactly
when the header announces one. -/
def WfPacket (p : Packet) : Prop :=
  p.hdr.mac.toNat < 16 ∧ p.body ≠ [] ∧
  (if p.hdr.mac = macP521 then ∃ m, p.mac = some m ∧ m.length = 143 else p.mac = none)

/-- What a byte string must look like to be a transport packet. -/
def IsPacketString (b : Bytes) : Prop :=
  ∃ t, b[0]? = some t ∧
    (t.toNat / 16 = 0 ∨ t.toNat / 16 = 1) ∧
    b.length > (if t.toNat / 16 = 0 then 10 else 9) + (if t.toNat % 16 = 2 then 143 else 0)

end Wickr.Spec
