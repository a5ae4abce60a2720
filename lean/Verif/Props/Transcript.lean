import Verif.Props.Agreement
import Verif.Props.HonestHandshake
/-
C28: mirrored keys come from the same transcript; what a recorded first packet is good for; concrete cases of agreement.
-/
namespace Wickr
open Spec

/-- HKDF gives the same key only for the same salt, label and secret. -/
def Spec.KeysDiffer (E : Engine) (salt salt' secret secret' : Bytes) : Prop :=
  ∀ l l' m, E.kdf ⟨hkdfSha512, some salt, some (directionLabel l)⟩ secret = some m →
    E.kdf ⟨hkdfSha512, some salt', some (directionLabel l')⟩ secret' = some m → salt = salt' ∧ l = l' ∧ secret = secret'

/-- The sending or the receiving key. -/
def Spec.keyOf (ks : HsKeys) (sending : Bool) : StreamKey := if sending then ks.localKey else ks.remoteKey

/-- The unlikely event does not occur: the transcripts of the two handshakes have one digest only if they are the same, and HKDF gives one key
only for the same inputs. -/
structure Spec.FreshKeys (E : Engine) (a b : Handshake) : Prop where
  digest : NoCollision E fun t => concat2 a.pkt0 a.pkt1 = some t ∨ concat2 b.pkt0 b.pkt1 = some t
  kdf : ∀ t u s s' x y, concat2 a.pkt0 a.pkt1 = some t → concat2 b.pkt0 b.pkt1 = some u → E.digest t none .sha512 = some s →
    E.digest u none .sha512 = some s' → a.rootKey = some x → b.rootKey = some y → KeysDiffer E s s' x.secret y.secret

/-- C28: a key names its session and its direction.  Two handshakes that hand out a key in common have the same transcript (both packets, one after the
other), have the same root secret, and the key is for data of the initiator on both sides or for data of the responder on both. -/
theorem C28_key_names_session (E : Engine) (a a' b b' : Handshake) (ka kb : HsKeys) (i j : Bool) (ha : hsFinalize E a = (a', some ka))
    (hb : hsFinalize E b = (b', some kb)) (hkey : keyOf ka i = keyOf kb j) (hf : FreshKeys E a b) :
    concat2 a.pkt0 a.pkt1 = concat2 b.pkt0 b.pkt1 ∧ (a.isInitiator = i ↔ b.isInitiator = j) ∧
      a.rootKey.map RootKey.secret = b.rootKey.map RootKey.secret := by
  have sched : ∀ {h h' : Handshake} {ks : HsKeys} (i : Bool), hsFinalize E h = (h', some ks) →
      ∃ rk t hash m ppe, h.rootKey = some rk ∧ concat2 h.pkt0 h.pkt1 = some t ∧ E.digest t none .sha512 = some hash ∧
        E.kdf ⟨hkdfSha512, some hash, some (directionLabel (h.isInitiator == i))⟩ rk.secret = some m ∧ KeyOf rk.cipher ppe m (keyOf ks i) := by
    intro h h' ks i hfin
    obtain ⟨x, w0, w1, s, m, m', a1, a2, a3, a4, a5, a6, a7, a8⟩ := C28_key_schedule E h h' ks hfin
    have ct : concat2 h.pkt0 h.pkt1 = some (w0 ++ w1) := by
      unfold hsFinalize at hfin
      split at hfin
      · cases hfin
      split at hfin
      · cases hfin
      split at hfin
      · cases hfin
      next hdk =>
      unfold hsDeriveKeys at hdk
      simp only [Option.bind_eq_some_iff] at hdk
      obtain ⟨t, ht, -⟩ := hdk
      have ht' := ht
      rw [a2, a3] at ht'
      rw [ht, (concat2_some.1 ht').1]
    cases i with
    | true => exact ⟨x, _, s, m, _, a1, ct, a4, by simpa using a5, a7⟩
    | false => exact ⟨x, _, s, m', _, a1, ct, a4, by simpa using a6, a8⟩
  obtain ⟨x, t, s, m, _, a1, cA, a4, a5, -, a7⟩ := sched i ha
  obtain ⟨y, u, s', n, _, b1, cB, b4, b5, -, b7⟩ := sched j hb
  have hmn : m = n := by
    rw [a7, b7] at hkey
    simp only [StreamKey.mk.injEq, CipherKey.mk.injEq] at hkey
    rw [← List.take_append_drop 32 m, ← List.take_append_drop 32 n, hkey.1.2, hkey.2.1]
  subst hmn
  obtain ⟨h1, h2, h3⟩ := hf.kdf _ _ _ _ _ _ cA cB a4 b4 a1 b1 _ _ _ a5 b5
  subst h1
  have := hf.digest _ _ _ (Or.inl cA) (Or.inr cB) a4 b4
  refine ⟨by rw [cA, cB, this], ?_, by rw [a1, b1]; simp [h3]⟩
  rw [Bool.eq_iff_iff] at h2
  simpa using h2

/-- C28: two handshakes with mirrored keys have the same transcript and play different roles. -/
theorem C28_same_keys_same_transcript (E : Engine) (a a' b b' : Handshake) (ka kb : HsKeys) (ha : hsFinalize E a = (a', some ka))
    (hb : hsFinalize E b = (b', some kb)) (hkey : ka.localKey = kb.remoteKey) (hf : FreshKeys E a b) :
    concat2 a.pkt0 a.pkt1 = concat2 b.pkt0 b.pkt1 ∧ a.isInitiator = !b.isInitiator ∧
      a.rootKey.map RootKey.secret = b.rootKey.map RootKey.secret := by
  obtain ⟨h1, h2, h3⟩ := C28_key_names_session E a a' b b' ka kb true false ha hb hkey hf
  exact ⟨h1, by cases e : a.isInitiator <;> cases e' : b.isInitiator <;> simp_all, h3⟩

/-- C28: no side sends and receives with one key. -/
theorem C28_directions_differ (E : Engine) (a a' : Handshake) (ka : HsKeys) (ha : hsFinalize E a = (a', some ka)) (hf : FreshKeys E a a) :
    ka.localKey ≠ ka.remoteKey := by
  intro h
  obtain ⟨-, h2, -⟩ := C28_key_names_session E a a' a a' ka ka true false ha ha h hf
  cases e : a.isInitiator <;> simp [e] at h2

/-- The first packet says nothing about the responder it is meant for, except whether the initiator knows one. -/
theorem hsStart_packet (E : Engine) (c : Chain) (r r' : Option Chain) (e e' : UInt32) (ra : HsRand) (h : r.isNone = r'.isNone) :
    (hsStart E ⟨c, r, none, none, .unknown, none, none, none, false, e⟩ ra).2 =
      (hsStart E ⟨c, r', none, none, .unknown, none, none, none, false, e'⟩ ra).2 := by
  simp only [hsStart, h]
  cases seedCreate c ra.eph.pub r'.isNone with
  | none => rfl
  | some seed =>
    simp only [hsBuildSigned]
    cases handshakeToPacket (.seed seed) with
    | none => rfl
    | some p =>
      dsimp only
      generalize hz : pktSign E p c ra.nonce = z
      obtain ⟨z1, z2⟩ := z
      cases z2 <;> simp

/-- C28, what is not agreed on.  Let an initiator `cA` have sent its first packet, to anybody.  Whoever replays it to any responder `cC` that knows
`cA` or accepts it when asked makes the responder answer and hand out keys for `cA`, once per replay: the packet contains no
challenge and no name of the responder, and the responder does not wait for anything that only the initiator could send. -/
theorem C28_first_packet_replayed (E : Engine) (hE : E.Lawful) (cA cC : Chain) (hA : Party E cA) (hC : Party E cC) (remA remC : Option Chain)
    (hrC : Expects E remC cA) (evoA evoC : UInt32) (hc1 : evoC.toNat ≤ 32768) (a c : Handshake) (ha : hsCreate cA remA evoA = some a)
    (hc : hsCreate cC remC evoC = some c) (ra rc : HsRand) (hea : E.KeyPair ra.eph) (hec : E.KeyPair rc.eph) (hsec : rc.secret.length = 32)
    (hiv : rc.iv.length = 12) :
    ∃ p q x ks, (hsStart E a ra).2 = some p ∧ wire p = some q ∧ hsProcess E c (some q) rc = .ok x ∧
      (hsFinalize E (accept x).1).2 = some ks ∧ WfStreamKey ks.localKey ∧ WfStreamKey ks.remoteKey := by
  have hval : (chainValidate E (chainCreate cC.root cC.node)).2 = true := by
    obtain ⟨s, h1, h2⟩ := hC.genuine
    rw [chainValidate_fresh rfl]
    exact ⟨s, h1, h2⟩
  have hc0 : 1 ≤ evoC.toNat := by
    unfold hsCreate at hc
    split at hc
    · simp at hc
    · next hne =>
      apply Nat.pos_of_ne_zero
      intro h0; exact hne (UInt32.toNat_inj.1 h0)
  let remA' : Option Chain := remA.map fun _ => chainCreate cC.root cC.node
  have hx : Expects E remA' cC := by
    intro d hd
    obtain ⟨_, _, rfl⟩ := Option.map_eq_some_iff.1 hd
    exact ⟨rfl, rfl, hval⟩
  have he : ∃ a', hsCreate cA remA' evoA = some a' := by
    unfold hsCreate at ha ⊢
    split at ha
    · cases ha
    · next h => rw [if_neg h]; exact ⟨_, rfl⟩
  obtain ⟨a', ha'⟩ := he
  obtain ⟨w0, w1, dA, dB, q0, q0', q1, q1', x, z, l0, l1, hstart, b2, b3, -, hx1, hx2, -⟩ :=
    honest_steps E hE cA cC hA hC remA' remC hx hrC evoA evoC a' c ha' hc ra ra rc hea hec hsec hiv
  obtain ⟨s, k', f1, f2, f3, f4, f5, f6, f7, f8, f9, f10, f11⟩ := derive_ok hE ⟨rc.secret, .gcm, evoC, evoC⟩ hsec
    ⟨⟨hc0, hc1⟩, hc0, hc1⟩ l0 l1
  refine ⟨q0, q0', x, ⟨k', s⟩, ?_, by simp [wire, b2, b3], hx1, ?_, ⟨by rw [f2]; rfl, f4, f6, by rw [f8]; exact ⟨hc0, hc1⟩, by simp [f10]⟩,
    ⟨by rw [f1]; rfl, f3, f5, by rw [f7]; exact ⟨hc0, hc1⟩, by simp [f9]⟩⟩
  · have e1 := hsCreate_some ha
    have e2 := hsCreate_some ha'
    rw [e2] at hstart
    rw [e1, hsStart_packet E cA remA remA' evoA evoA ra (by cases remA <;> rfl), hstart]
  · rw [hx2]
    have := f11 ⟨cC, some dA, some w0, some w1, .pendingFinalization, none, some ⟨rc.secret, .gcm, evoC, evoC⟩, none, false, evoC⟩ rfl rfl
    simp [hsFinalize, this]

/-! ### Concrete cases -/

/-- The states of a run of the toy engine: an initiator that has sent its first packet, a responder that has answered it, and the packets. -/
def toyExchange : Option (Handshake × Handshake × HsOut × Packet × Packet × Handshake) :=
  let s := hsStart toyEngine (toyHs (some toyPeerPublic)) toyRand
  (s.2.bind wire).bind fun q =>
    match hsProcess toyEngine ⟨toyPeer, some toyChain, none, none, .unknown, none, none, none, false, 512⟩ (some q) toyRand2 with
    | .ok (b', ob) => ob.send.bind fun pb => (wire pb).bind fun p =>
        match hsProcess toyEngine s.1 (some p) toyRand with
        | .ok (a', _) => some (s.1, b', ob, p, pb, a')
        | _ => none
    | _ => none

/-- The hypotheses of `C28_agreement` are met: both sides go on, and the response that arrives carries the string that was sent. -/
example : (match toyExchange with
    | some (a, b', ob, p, pb, a') => decide (a.status = .inProgress) && a.isInitiator && decide (a'.status ≠ .failed) &&
        decide (b'.status ≠ .failed) && decide (ob.send = some pb) &&
        (match handshakeFromPacket p, handshakeFromPacket pb with
          | some (.response m), some (.response n) => decide (m.encData = n.encData) && m.encData.isSome
          | _, _ => false)
    | none => false) = true := by decide +kernel

/-- Two different views have different strings in the key derivation, so that `C28_info_determines_view` is not about nothing. -/
example : ∃ i j, infoOf ⟨toyChain, toyPeer, [1], [2], []⟩ = some i ∧ infoOf ⟨toyPeer, toyChain, [1], [2], []⟩ = some j ∧ i ≠ j := by
  refine ⟨(infoOf ⟨toyChain, toyPeer, [1], [2], []⟩).get (by decide +kernel), (infoOf ⟨toyPeer, toyChain, [1], [2], []⟩).get (by decide +kernel),
    by simp, by simp, by decide +kernel⟩

/-- `Sound` is met by views that coincide, with a key derivation that is a function and an encryption that opens with its key only. -/
example (E : Engine) (v : HsView) (enc : Bytes)
    (hd : NoCollision E fun x => infoOf v = some x ∨ infoOf v = some x) : Sound E enc v v :=
  ⟨hd, fun i j d e k hi hj h1 h2 _ _ => by cases hi.symm.trans hj; exact ⟨Option.some.inj (h1.symm.trans h2), rfl⟩,
    fun _ k l _ _ ⟨i, d, hi, h1, h2⟩ ⟨j, e, hj, g1, g2⟩ _ _ => by
      cases hi.symm.trans hj
      cases h1.symm.trans g1
      exact Option.some.inj (h2.symm.trans g2)⟩

/-- A handshake that has seen both packets. -/
def toyReady : Handshake :=
  ⟨toyChain, some toyPeerPublic, some [1], some [2], .pendingFinalization, none, some ⟨List.replicate 32 7, .gcm, 3, 3⟩, none, true, 3⟩

/-- The hypotheses of `C28_key_names_session` are met. -/
example : (hsFinalize toyEngine toyReady).2.isSome ∧ FreshKeys toyEngine toyReady toyReady := by
  refine ⟨by decide +kernel, fun t u d ht hu _ _ => ?_, fun t u d d' x y ht hu hd hd' hx hy => ?_⟩
  · simp only [or_self] at ht hu
    exact Option.some.inj (ht.symm.trans hu)
  · cases ht.symm.trans hu
    cases hd.symm.trans hd'
    cases hx.symm.trans hy
    have hd0 : toyEngine.digest [1, 2] none .sha512 = some d := by
      rw [← hd]
      have : t = [1, 2] := by
        have h : concat2 (some [1]) (some [2]) = some t := ht
        exact (concat2_some.1 h).1
      rw [this]
    have hx0 : x = ⟨List.replicate 32 7, .gcm, 3, 3⟩ := (Option.some.inj hx).symm
    have key : ((toyEngine.digest [1, 2] none .sha512).bind fun d =>
        toyEngine.kdf ⟨hkdfSha512, some d, some (directionLabel true)⟩ (List.replicate 32 7)) ≠
      ((toyEngine.digest [1, 2] none .sha512).bind fun d =>
        toyEngine.kdf ⟨hkdfSha512, some d, some (directionLabel false)⟩ (List.replicate 32 7)) := by decide +kernel
    rw [hd0] at key
    subst hx0
    intro l l' m h1 h2
    refine ⟨rfl, ?_, rfl⟩
    cases l <;> cases l'
    · rfl
    · exact absurd (h2.trans h1.symm) key
    · exact absurd (h1.trans h2.symm) key
    · rfl

end Wickr
