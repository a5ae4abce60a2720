import Verif.Props.MessageValue
/-
C72: who opens a key exchange agrees with its maker.
-/
namespace Wickr
open Spec

namespace Spec

/-- What one side of a key exchange believes: version, pre-shared key, root keys of sender and receiver, receiving device, shared secret. -/
structure KxView where
  version : UInt8
  psk : Option Bytes
  sender : Bytes
  receiver : Bytes
  device : Bytes
  secret : Bytes

/-- The key of an exchange as one side computes it. -/
def KxView.Key (E : Engine) (v : KxView) (k : Bytes) : Prop :=
  E.kdf (exchangeKdf v.version v.psk (exchangeInfo v.version v.sender v.receiver v.device)) v.secret = some k

/-- What the sender of an exchange to `n` believes. -/
def SenderView (E : Engine) (s : Chain) (n : Node) (ex : EcKey) (psk : Option Bytes) (v : UInt8) (x : KxView) : Prop :=
  x.version = v ∧ x.psk = psk ∧ x.sender = s.root.key.pub ∧ x.receiver = n.chain.root.key.pub ∧ x.device = n.devId ∧
    ∃ eph, n.eph = some eph ∧ E.sharedSecret ex eph.key = some x.secret

/-- What the receiver `n` of an exchange believes. -/
def ReceiverView (E : Engine) (s : Chain) (n : Node) (ex : EcKey) (psk : Option Bytes) (v : UInt8) (x : KxView) : Prop :=
  x.version = v ∧ x.psk = psk ∧ x.sender = s.root.key.pub ∧ x.receiver = n.chain.root.key.pub ∧ x.device = n.devId ∧
    ∃ eph, n.eph = some eph ∧ E.sharedSecret eph.key ex = some x.secret

/-- HKDF gives different keys for different inputs of the two sides, and the ciphertext `ct`, made of `data` with the key of the first side, is
not decrypted to (something that begins with) `data` with another key of the second.  (It may be decrypted to something else: packet keys are exchanged in counter
mode.) -/
structure KxSound (E : Engine) (data : Bytes) (ct : CipherResult) (x y : KxView) : Prop where
  kdf : ∀ k, x.Key E k → y.Key E k →
    exchangeKdf x.version x.psk (exchangeInfo x.version x.sender x.receiver x.device) =
      exchangeKdf y.version y.psk (exchangeInfo y.version y.sender y.receiver y.device) ∧ x.secret = y.secret
  opens : ∀ c iv k l d, x.Key E k → y.Key E l → E.encrypt data none ⟨c, k⟩ iv = some ct →
    E.decrypt ct none ⟨ct.cipher, l⟩ false = some d → data <+: d → k = l

end Spec

/-- C72, agreement.  Let somebody have made the exchange `x` for a node and somebody get the same data from its ciphertext (in `y`), with whatever identities, keys,
pre-shared key and version either of them believes in.  Then, unless a primitive fails on exactly these values, they agree on the shared
secret, the pre-shared key and whether the version is 4.  From version 3 on they agree on the version, the root keys of both ends (if these
have the usual lengths) and the device, in version 2 on the device.  If one of them believes in version 2 and the other does not, the
identifier of a device is two root keys and a device identifier. -/
theorem C72_exchange_agreement (E : Engine) (s s' : Chain) (n n' : Node) (ex ex' : EcKey) (data iv d : Bytes) (c : Cipher) (psk psk' : Option Bytes)
    (v v' : UInt8) (x y : KeyExchange)
    (hmade : kxCreateWithData E s n ex data c psk v iv = some x) (hct : y.ct = x.ct)
    (hread : kxDeriveData E s' n' ex' y psk' v' = some d) (hd : data <+: d) :
    ∃ a b, SenderView E s n ex psk v a ∧ ReceiverView E s' n' ex' psk' v' b ∧ (KxSound E data x.ct a b →
      psk = psk' ∧ (v = 4 ↔ v' = 4) ∧ a.secret = b.secret ∧
      (v = 2 → v' = 2 → n.devId = n'.devId) ∧
      (v ≠ 2 → v' ≠ 2 → s.root.key.pub.length = s'.root.key.pub.length →
        n.chain.root.key.pub.length = n'.chain.root.key.pub.length →
        v = v' ∧ s.root.key.pub = s'.root.key.pub ∧ n.chain.root.key.pub = n'.chain.root.key.pub ∧ n.devId = n'.devId) ∧
      (v = 2 → v' ≠ 2 → n.devId = s'.root.key.pub ++ n'.chain.root.key.pub ++ n'.devId) ∧
      (v ≠ 2 → v' = 2 → n'.devId = s.root.key.pub ++ n.chain.root.key.pub ++ n.devId)) := by
  obtain ⟨hv, eph, z, k, h1, h2, h3, -, h4, -⟩ := C72_exchange_value E s n ex data c psk v iv x hmade
  obtain ⟨hv', eph', z', l, g1, g2, g3, g4⟩ := C72_derived_value E s' n' ex' y psk' v' d hread
  rw [hct] at g4
  refine ⟨⟨v, psk, s.root.key.pub, n.chain.root.key.pub, n.devId, z⟩, ⟨v', psk', s'.root.key.pub, n'.chain.root.key.pub, n'.devId, z'⟩,
    ⟨rfl, rfl, rfl, rfl, rfl, eph, h1, h2⟩, ⟨rfl, rfl, rfl, rfl, rfl, eph', g1, g2⟩, fun hS => ?_⟩
  have hkl := hS.opens c iv k l d h3 g3 h4 g4 hd
  subst hkl
  obtain ⟨he, hz⟩ := hS.kdf k h3 g3
  simp only [exchangeKdf, KdfMeta.mk.injEq, Option.some.injEq] at he
  obtain ⟨ha, hp, hi⟩ := he
  have h4v : v = 4 ↔ v' = 4 := by
    by_cases e : v = 4 <;> by_cases e' : v' = 4 <;> simp [e, e', hkdfSha512, hkdfSha256] at ha ⊢
  refine ⟨hp, h4v, hz, ?_, ?_, ?_, ?_⟩
  · rintro rfl rfl
    simpa [exchangeInfo] using hi
  · intro n2 n2' ls lr
    have hvv : v = v' := by
      rcases hv with rfl | rfl | rfl <;> rcases hv' with rfl | rfl | rfl <;> simp_all
    subst hvv
    exact ⟨rfl, C72_context_binds v _ _ _ _ _ _ (hv.resolve_left n2) ls lr hi⟩
  · rintro rfl n2'
    simpa [exchangeInfo, n2'] using hi
  · rintro n2 rfl
    exact (by simpa [exchangeInfo, n2] using hi.symm)

/-- C72: so the version of a packet, which is not covered by its signature (C39), cannot be changed for a receiver that gets the data of the exchange, if the
identifier of neither device is as long as a device identifier and two root keys. -/
theorem C72_version_agreed (E : Engine) (s s' : Chain) (n n' : Node) (ex ex' : EcKey) (data iv d : Bytes) (c : Cipher) (psk psk' : Option Bytes)
    (v v' : UInt8) (x : KeyExchange) (hmade : kxCreateWithData E s n ex data c psk v iv = some x)
    (hread : kxDeriveData E s' n' ex' x psk' v' = some d) (hd : data <+: d)
    (hl : n.devId.length < s'.root.key.pub.length + n'.chain.root.key.pub.length + n'.devId.length)
    (hl' : n'.devId.length < s.root.key.pub.length + n.chain.root.key.pub.length + n.devId.length) :
    ∃ a b, SenderView E s n ex psk v a ∧ ReceiverView E s' n' ex' psk' v' b ∧ (KxSound E data x.ct a b → v = v') := by
  obtain ⟨a, b, ha, hb, h⟩ := C72_exchange_agreement E s s' n n' ex ex' data iv d c psk psk' v v' x x hmade rfl hread hd
  refine ⟨a, b, ha, hb, fun hS => ?_⟩
  obtain ⟨-, h4, -, -, -, h5, h6⟩ := h hS
  have hv := (C72_exchange_value E s n ex data c psk v iv x hmade).1
  have hv' := (C72_derived_value E s' n' ex' x psk' v' d hread).1
  have ne : v = 2 → v' = 2 := by
    intro e
    apply Classical.byContradiction
    intro e'
    have := congrArg List.length (h5 e e')
    simp only [List.length_append] at this
    omega
  have ne' : v' = 2 → v = 2 := by
    intro e
    apply Classical.byContradiction
    intro e'
    have := congrArg List.length (h6 e' e)
    simp only [List.length_append] at this
    omega
  rcases hv with rfl | rfl | rfl <;> rcases hv' with rfl | rfl | rfl <;>
    first
    | rfl
    | exact absurd (ne rfl) (by decide)
    | exact absurd (ne' rfl) (by decide)
    | exact absurd (h4.1 rfl) (by decide)
    | exact absurd (h4.2 rfl) (by decide)

/-- The hypotheses are met by an exchange that is made and opened (with a pre-shared key, in version 4), and the two sides' views coincide. -/
example : ∃ x, kxCreateWithData toyEngine toyChain toyPeerNode (toyKey 41) [5, 6] .ctr (some [1]) 4 (List.replicate 16 0) = some x ∧
    kxDeriveData toyEngine toyChain { toyPeerNode with eph := some ⟨77, toyKey 31, none⟩ } { toyKey 41 with pri := none } x (some [1]) 4 = some [5, 6] := by
  obtain ⟨x, h1, -, -, -, h2⟩ := C72_psk_round_trip toyEngine toyEngine_lawful toyChain toyChain toyPeerNode
    { toyPeerNode with eph := some ⟨77, toyKey 31, none⟩ } (toyKey 41) (toyKey 31) _ _ [5, 6] (List.replicate 16 0)
    .ctr (some [1]) 4 (by simp) (toyKey_pair 41 (by decide)) (toyKey_pair 31 (by decide)) rfl rfl rfl rfl rfl rfl rfl
    (by decide) (by decide) (by decide) ⟨by decide, by decide⟩
    (by intro p hp; cases hp; exact ⟨by decide, by decide⟩) (by decide) (by decide) (by decide)
  exact ⟨x, h1, h2⟩

/-- `KxSound` is met by views that coincide. -/
example (E : Engine) (data : Bytes) (ct : CipherResult) (x : KxView) : KxSound E data ct x x :=
  ⟨fun _ _ _ => ⟨rfl, rfl⟩, fun _ _ _ _ _ h1 h2 _ _ _ => Option.some.inj (Eq.trans (Eq.symm h1) h2)⟩

end Wickr
