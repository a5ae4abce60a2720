import Verif.Spec.Agreement
import Verif.Props.Schema
import Verif.Props.Ecdh
/-
C28: keys are shared only by parties who agree on who they are.
-/
namespace Wickr
open Spec

/-! ### The byte format is uniquely readable -/

theorem varint_prefix : ∀ (n m : Nat) (x y : Bytes), varint n ++ x = varint m ++ y → n = m ∧ x = y := by
  intro n
  induction n using Nat.strongRecOn with
  | _ n ih =>
    intro m x y h
    rw [varint.eq_1 n, varint.eq_1 m] at h
    have small : ∀ k, k < 128 → (UInt8.ofNat k).toNat = k := fun k hk => by
      rw [UInt8.toNat_ofNat', Nat.mod_eq_of_lt (by omega)]
    have big : ∀ k, (UInt8.ofNat (128 + k % 128)).toNat = 128 + k % 128 := fun k => by
      rw [UInt8.toNat_ofNat', Nat.mod_eq_of_lt (by omega)]
    split at h <;> split at h <;> simp only [List.cons_append, List.nil_append, List.cons.injEq] at h
    · have := congrArg UInt8.toNat h.1
      rw [small _ (by assumption), small _ (by assumption)] at this
      exact ⟨this, h.2⟩
    · have := congrArg UInt8.toNat h.1
      rw [small n (by assumption), big] at this
      omega
    · have := congrArg UInt8.toNat h.1
      rw [small m (by assumption), big] at this
      omega
    · have h1 := congrArg UInt8.toNat h.1
      rw [big, big] at h1
      obtain ⟨h2, h3⟩ := ih (n / 128) (by omega) _ _ _ h.2
      exact ⟨by omega, h3⟩

theorem bytesField_prefix {k : Nat} {b c x y : Bytes} (h : bytesField k b ++ x = bytesField k c ++ y) : b = c ∧ x = y := by
  unfold bytesField at h
  simp only [List.append_assoc] at h
  obtain ⟨-, h⟩ := varint_prefix _ _ _ _ h
  obtain ⟨hl, h⟩ := varint_prefix _ _ _ _ h
  exact List.append_inj h hl

theorem ecdsaLayout_inj {r s : EcdsaResult} (hr : r.sig.length + 2 ≤ r.curve.sigSize) (hs : s.sig.length + 2 ≤ s.curve.sigSize)
    (h : ecdsaLayout r = ecdsaLayout s) : r = s := by
  obtain ⟨c, d, a⟩ := r
  obtain ⟨c', d', a'⟩ := s
  unfold ecdsaLayout at h
  simp only [List.cons_append, List.nil_append, List.cons.injEq] at h hr hs
  obtain ⟨h1, h2, h3⟩ := h
  have hc : c = c' := by cases c; cases c'; rfl
  subst hc
  have hd : d = d' := by
    cases c <;> cases d <;> cases d' <;> first | rfl | (exfalso; revert h1; decide)
  subst hd
  have hsz : c.sigSize < 256 := by cases c; decide
  have h2 := congrArg UInt8.toNat h2
  rw [UInt8.toNat_ofNat', UInt8.toNat_ofNat', Nat.mod_eq_of_lt (by omega), Nat.mod_eq_of_lt (by omega)] at h2
  have := (List.append_inj h3 (by simp [h2])).2
  rw [this]

/-- What an identity publishes can be read off its bytes. -/
theorem identityWire_inj {i j : Identity} {b : Bytes} (hi : identityWire i false = some b) (hj : identityWire j false = some b) :
    publicHalf i = publicHalf j := by
  obtain ⟨ti, ii, ⟨⟨⟩, pi, ri⟩, si⟩ := i
  obtain ⟨tj, ij, ⟨⟨⟩, pj, rj⟩, sj⟩ := j
  unfold identityWire at hi hj
  cases ti <;> cases tj <;>
    simp only [Bool.false_eq_true, if_false, Option.bind_some, Option.some.injEq, Option.map_eq_some_iff] at hi hj
  · rw [← hj] at hi
    simp only [List.append_assoc] at hi
    obtain ⟨e1, hi⟩ := bytesField_prefix hi
    obtain ⟨e2, hi⟩ := bytesField_prefix hi
    simp [publicHalf, e1, e2]
  · obtain ⟨s, -, hj⟩ := hj
    rw [← hj] at hi
    simp only [List.append_assoc] at hi
    obtain ⟨-, hi⟩ := bytesField_prefix hi
    obtain ⟨-, hi⟩ := bytesField_prefix hi
    unfold uintField bytesField at hi
    simp only [List.append_assoc] at hi
    exact absurd (varint_prefix _ _ _ _ hi).1 (by decide)
  · obtain ⟨s, -, hi⟩ := hi
    rw [← hj] at hi
    simp only [List.append_assoc] at hi
    obtain ⟨-, hi⟩ := bytesField_prefix hi
    obtain ⟨-, hi⟩ := bytesField_prefix hi
    unfold uintField bytesField at hi
    simp only [List.append_assoc] at hi
    exact absurd (varint_prefix _ _ _ _ hi).1 (by decide)
  · obtain ⟨s, hs, hi⟩ := hi
    obtain ⟨t, ht, hj⟩ := hj
    rw [← hj] at hi
    simp only [List.append_assoc] at hi
    obtain ⟨e1, hi⟩ := bytesField_prefix hi
    obtain ⟨e2, hi⟩ := bytesField_prefix hi
    obtain ⟨e3, hi⟩ := bytesField_prefix hi
    subst e3
    cases si with
    | none => cases hs
    | some si =>
      cases sj with
      | none => cases ht
      | some sj =>
        simp only [Option.bind_some, sigWire] at hs ht
        split at hs
        · split at ht
          · rw [← ht] at hs
            rw [e1, e2, ecdsaLayout_inj (by assumption) (by assumption) (Option.some.inj hs)]
            rfl
          · cases ht
        · cases hs

/-- Two chains one after the other can be told apart. -/
theorem chainWire_prefix {c d : Chain} {b e x y : Bytes} (hc : chainWire c false = some b) (hd : chainWire d false = some e)
    (h : b ++ x = e ++ y) : SameView.SamePublished c d ∧ x = y := by
  unfold chainWire at hc hd
  simp only [Option.bind_eq_some_iff, Option.map_eq_some_iff] at hc hd
  obtain ⟨r, hr, n, hn, rfl⟩ := hc
  obtain ⟨r', hr', n', hn', rfl⟩ := hd
  simp only [List.append_assoc] at h
  obtain ⟨e1, h1⟩ := bytesField_prefix h
  obtain ⟨e2, h2⟩ := bytesField_prefix h1
  rw [← e1] at hr'
  rw [← e2] at hn'
  exact ⟨⟨identityWire_inj hr hr', identityWire_inj hn hn'⟩, h2⟩

/-- C28: what goes into the key derivation determines both identities and their roles, and the ephemeral keys. -/
theorem C28_info_determines_view (v w : HsView) (x : Bytes) (hv : infoOf v = some x) (hw : infoOf w = some x) : SameView v w := by
  unfold infoOf at hv hw
  simp only [Option.bind_eq_some_iff, Option.map_eq_some_iff] at hv hw
  obtain ⟨i, hi, r, hr, rfl⟩ := hv
  obtain ⟨i', hi', r', hr', h⟩ := hw
  simp only [List.append_assoc] at h
  obtain ⟨h1, h⟩ := chainWire_prefix hi' hi h
  obtain ⟨h2, h⟩ := chainWire_prefix hr' hr h
  refine ⟨⟨h1.1.symm, h1.2.symm⟩, ⟨h2.1.symm, h2.2.symm⟩, fun hl => ?_⟩
  obtain ⟨h3, h4⟩ := List.append_inj h hl.symm
  exact ⟨h3.symm, h4.symm⟩

/-! ### The calls -/

theorem kdfMeta_info {E : Engine} {h : Handshake} {own peer : EcKey} {m : KdfMeta} (hm : hsKdfMeta E h own peer = some m) :
    ∃ R info d, h.remote = some R ∧ E.digest info none .sha512 = some d ∧ m = ⟨hkdfSha512, none, some d⟩ ∧
      ∀ z, infoOf (if h.isInitiator then ⟨h.self, R, own.pub, peer.pub, z⟩ else ⟨R, h.self, peer.pub, own.pub, z⟩) = some info := by
  unfold hsKdfMeta at hm
  simp only [Option.bind_eq_some_iff] at hm
  obtain ⟨l, hl, r, ⟨R, hR, hr⟩, info, hi, d, hd, hm⟩ := hm
  have hl := ((C91_chain _ _ _).1 hl).1
  have hr := ((C91_chain _ _ _).1 hr).1
  have hm : (⟨hkdfSha512, none, some d⟩ : KdfMeta) = m := by
    simpa [kdfMetaCreate, hkdfSha512] using hm
  refine ⟨R, info, d, hR, hd, hm.symm, fun z => ?_⟩
  unfold concatMulti at hi
  cases hin : h.isInitiator <;> rw [hin] at hi <;>
    simp only [Bool.false_eq_true, if_false, if_true, List.flatMap_cons, List.flatMap_nil, optBytes] at hi ⊢ <;>
    split at hi <;> first | (rw [← Option.some.inj hi]; simp [infoOf, hl, hr]; done) | cases hi

theorem ecdhKey_derived {E : Engine} {c : Cipher} {own peer : EcKey} {d : Bytes} {k : CipherKey}
    (h : ecdhCipherKey E ⟨c, own⟩ peer ⟨hkdfSha512, none, some d⟩ = some k) :
    ∃ z, E.sharedSecret own peer = some z ∧ E.kdf ⟨{ hkdfSha512 with outputSize := 32 }, none, some d⟩ z = some k.key ∧ k.cipher = c := by
  unfold ecdhCipherKey at h
  have e : (if (⟨hkdfSha512, none, some d⟩ : KdfMeta).algo.outputSize.toNat ≠ c.keyLen then
      ({ (⟨hkdfSha512, none, some d⟩ : KdfMeta) with algo := { hkdfSha512 with outputSize := UInt8.ofNat c.keyLen } } : KdfMeta)
      else ⟨hkdfSha512, none, some d⟩) = ⟨{ hkdfSha512 with outputSize := 32 }, none, some d⟩ := by
    cases c <;> rfl
  rw [if_neg (by simp [hkdfSha512])] at h
  dsimp only at h e
  rw [e] at h
  simp only [Option.bind_eq_some_iff] at h
  obtain ⟨z, hz, x, hx, y, hy, hk⟩ := h
  have hy := (dup_eq_some.1 hy).2
  subst hy
  unfold cipherKeyCreate at hk
  split at hk
  · cases hk
  · cases hk
    exact ⟨z, hz, hx, rfl⟩

theorem ecKeyCopy_same {k l : EcKey} (h : ecKeyCopy k = some l) : l = k := by
  obtain ⟨c, p, q⟩ := k
  unfold ecKeyCopy at h
  simp only [Option.bind_eq_some_iff, Option.map_eq_some_iff] at h
  obtain ⟨p', hp, q', hq, rfl⟩ := h
  have := (dup_eq_some.1 hp).2
  subst this
  cases q with
  | none => cases hq; rfl
  | some q =>
    simp only [dupOpt, Option.map_eq_some_iff] at hq
    obtain ⟨q2, hq2, rfl⟩ := hq
    have := (dup_eq_some.1 hq2).2
    subst this
    rfl

theorem remoteIdentity_frame {E : Engine} {h h' : Handshake} {p : Packet} {pc : Option PChain} {ok : Bool}
    (hr : hsRemoteIdentity E h p pc = (h', ok)) : h'.self = h.self ∧ h'.isInitiator = h.isInitiator ∧ h'.eph = h.eph := by
  unfold hsRemoteIdentity at hr
  dsimp only at hr
  split at hr
  · cases hr; exact ⟨rfl, rfl, rfl⟩
  · split at hr <;> cases hr <;> exact ⟨rfl, rfl, rfl⟩

theorem pktSign_keeps {E : Engine} {p q : Packet} {c : Chain} {n : Bytes} {ok : Bool} (h : pktSign E p c n = (q, ok)) :
    q.hdr.body = p.hdr.body ∧ q.body = p.body := by
  unfold pktSign at h
  split at h
  · cases h; exact ⟨rfl, rfl⟩
  · split at h <;> cases h <;> exact ⟨rfl, rfl⟩

/-- What the initiator has done when it has read a response. -/
theorem response_opened {E : Engine} {a a' : Handshake} {p : Packet} {r : PResponse} (hm : handshakeFromPacket p = some (.response r))
    (h : hsProcessResponse E a p = .ok a') (hs : a'.status ≠ .failed) (hi : a.isInitiator = true) :
    ∃ v ed enc k x, InitiatorSees E a a' r v ∧ r.encData = some ed ∧ cipherResultFromBuffer ed = some enc ∧
      ViewKey E v k ∧ E.decrypt enc none ⟨enc.cipher, k⟩ false = some x := by
  unfold hsProcessResponse at h
  dsimp only at h
  rw [hm] at h
  dsimp only at h
  split at h
  case h_2 => cases h; exact absurd rfl hs
  next ed ep hed hep =>
  split at h
  · cases h; exact absurd rfl hs
  split at h
  case h_2 => cases h; exact absurd rfl hs
  next enc own peer henc hown hpeer =>
  split at h
  · cases h; exact absurd rfl hs
  next h1 hri =>
  obtain ⟨f1, f2, f3⟩ := remoteIdentity_frame hri
  have g1 : ∀ w, (hsSetSlot a true w).self = a.self ∧ (hsSetSlot a true w).isInitiator = a.isInitiator ∧
      (hsSetSlot a true w).eph = a.eph := fun w => ⟨rfl, rfl, rfl⟩
  rw [(g1 _).1] at f1
  rw [(g1 _).2.1, hi] at f2
  rw [(g1 _).2.2] at f3 hown
  split at h
  · cases h; exact absurd rfl hs
  next rk hopen =>
  cases h
  unfold hsOpenResponse at hopen
  simp only [Option.bind_eq_some_iff] at hopen hown henc hpeer
  obtain ⟨m, hkm, b, hdec, -⟩ := hopen
  obtain ⟨own0, ho0, ho1⟩ := hown
  obtain ⟨ed', hd', henc⟩ := henc
  obtain ⟨ep', he', hpeer⟩ := hpeer
  have := ecKeyCopy_same ho1
  subst this
  have := (dup_eq_some.1 hd').2
  subst this
  have := (dup_eq_some.1 he').2
  subst this
  obtain ⟨R, info, d, hR, hd, rfl, hinfo⟩ := kdfMeta_info hkm
  rw [f1, f2] at hinfo
  simp only [if_true] at hinfo
  unfold ecdhDecipher at hdec
  rw [if_neg (by simp)] at hdec
  simp only [Option.bind_eq_some_iff] at hdec
  obtain ⟨k, hk, hdec⟩ := hdec
  obtain ⟨z, hz, hkd, hkc⟩ := ecdhKey_derived hk
  refine ⟨⟨a.self, R, own.pub, peer.pub, z⟩, _, enc, k.key, b, ⟨rfl, hR, own, _, peer, ho0, hep, hpeer, rfl, rfl, hz⟩, hed, henc,
    ⟨info, d, hinfo z, hd, hkd⟩, ?_⟩
  rw [← hkc]
  exact hdec

/-- What the responder has done when it has answered a seed: the key its answer is sealed with. -/
theorem response_sealed {E : Engine} {b b' : Handshake} {q pb : Packet} {rb : HsRand}
    (h : hsProcessInitial E b q rb = .ok (b', some pb)) (hi : b.isInitiator = false) :
    ∃ s v k m, handshakeFromPacket q = some (.seed s) ∧ ResponderSees E b b' s rb.eph v ∧ ViewKey E v k ∧
      handshakeFromPacket pb = some (.response m) ∧
      ∃ data enc r, E.encrypt data none ⟨defaultCipher, k⟩ rb.iv = some r ∧ cipherResultSerialize r = some enc ∧ m.encData = some enc := by
  unfold hsProcessInitial at h
  dsimp only at h
  split at h
  · cases h
  · cases h
  · cases h
  next s hs =>
  split at h
  case h_2 => cases h
  next ep req hep hreq =>
  split at h
  · cases h
  next h1 hri =>
  obtain ⟨f1, f2, f3⟩ := remoteIdentity_frame hri
  have g1 : ∀ w, (hsSetSlot b false w).self = b.self ∧ (hsSetSlot b false w).isInitiator = b.isInitiator := fun w => ⟨rfl, rfl⟩
  rw [(g1 _).1] at f1
  rw [(g1 _).2, hi] at f2
  split at h
  case h_2 => cases h
  next peer rk hpeer hrk =>
  split at h
  · cases h
  next m hmk =>
  split at h
  · cases h
  next h2 pb' hbs =>
  cases h
  simp only [Option.bind_eq_some_iff] at hpeer
  obtain ⟨ep', he', hpeer⟩ := hpeer
  have := (dup_eq_some.1 he').2
  subst this
  unfold hsMakeResponse at hmk
  simp only [Option.bind_eq_some_iff, Option.map_eq_some_iff] at hmk
  obtain ⟨data, hdata, m', hkm, r, hciph, enc, henc, resp, hresp, rfl⟩ := hmk
  obtain ⟨R, info, d, hR, hd, rfl, hinfo⟩ := kdfMeta_info hkm
  dsimp only at hinfo hR
  rw [f1, f2] at hinfo
  simp only [Bool.false_eq_true, if_false] at hinfo
  unfold ecdhCipher at hciph
  simp only [Option.bind_eq_some_iff] at hciph
  obtain ⟨k, hk, hciph⟩ := hciph
  obtain ⟨z, hz, hkd, hkc⟩ := ecdhKey_derived hk
  have hme : resp.encData = some enc := by
    unfold responseCreate at hresp
    split at hresp
    · cases hresp; rfl
    · simp only [Option.map_eq_some_iff] at hresp
      obtain ⟨pc, -, rfl⟩ := hresp
      rfl
  unfold hsBuildSigned at hbs
  split at hbs
  · cases hbs
  next p0 hp0 =>
  split at hbs
  · cases hbs
  next p1 hp1 =>
  cases hbs
  have hback : handshakeFromPacket pb = some (.response resp) := by
    unfold handshakeToPacket at hp0
    simp only [Option.map_eq_some_iff] at hp0
    obtain ⟨bb, hbb, rfl⟩ := hp0
    have hrt := PHandshake.lawful.round_trip _ _ hbb
    obtain ⟨g2, g3⟩ := pktSign_keeps hp1
    unfold handshakeFromPacket
    rw [g2, g3]
    exact hrt
  refine ⟨s, ⟨R, b.self, peer.pub, rb.eph.pub, z⟩, k.key, resp, hs, ⟨rfl, ?_, _, peer, hep, hpeer, rfl, rfl, hz⟩,
    ⟨info, d, hinfo z, hd, hkd⟩, hback, data, enc, r, ?_, henc, hme⟩
  · exact hR
  · rw [← hkc]; exact hciph

theorem initial_pending {E : Engine} {b b1 : Handshake} {q : Packet} {r : HsRand} {o : Option Packet}
    (h : hsProcessInitial E b q r = .ok (b1, o)) : b1.pendingPkt = b.pendingPkt := by
  have hri : ∀ {h h' : Handshake} {p : Packet} {pc : Option PChain} {ok : Bool}, hsRemoteIdentity E h p pc = (h', ok) →
      h'.pendingPkt = h.pendingPkt := by
    intro h h' p pc ok hr
    unfold hsRemoteIdentity at hr
    dsimp only at hr
    split at hr
    · cases hr; rfl
    · split at hr <;> cases hr <;> rfl
  have hbs : ∀ {h h' : Handshake} {m n} {p : Option Packet}, hsBuildSigned E h m n true = (h', p) → h'.pendingPkt = h.pendingPkt := by
    intro h h' m n p hr
    unfold hsBuildSigned at hr
    split at hr
    · cases hr; rfl
    · split at hr <;> cases hr <;> rfl
  have hsl : (hsSetSlot b false q.network).pendingPkt = b.pendingPkt := by
    unfold hsSetSlot
    split <;> rfl
  unfold hsProcessInitial at h
  dsimp only at h
  split at h
  · cases h; rfl
  · cases h; rfl
  · cases h
  · split at h
    · split at h
      · next e => cases h; exact (hri e).trans hsl
      · next e =>
        split at h
        · split at h
          · cases h; exact (hri e).trans hsl
          · split at h
            · next e2 => cases h; exact (hbs e2).trans ((hri e).trans hsl)
            · next e2 => cases h; exact (hbs e2).trans ((hri e).trans hsl)
        · cases h; exact (hri e).trans hsl
    · cases h; rfl

theorem process_response {E : Engine} {a a' : Handshake} {p : Packet} {r : HsRand} {o : HsOut} (ha : a.status = .inProgress)
    (h : hsProcess E a (some p) r = .ok (a', o)) (hs : a'.status ≠ .failed) :
    ∃ a1, hsProcessResponse E a p = .ok a1 ∧ a1.status ≠ .failed ∧ a'.remote = a1.remote := by
  simp only [hsProcess, ha] at h
  split at h
  · cases h; exact absurd rfl hs
  · cases h1 : hsProcessResponse E a p with
    | null => rw [h1] at h; cases h
    | ub => rw [h1] at h; cases h
    | ok a1 =>
      rw [h1] at h
      simp only [Res.bind] at h
      split at h
      · cases h; exact absurd (by assumption) hs
      · split at h <;> cases h <;> exact ⟨_, rfl, by assumption, rfl⟩

/-- The packet a responder makes is sent at once, or kept until the application has accepted the identity. -/
theorem process_initial {E : Engine} {b b' : Handshake} {q pb : Packet} {r : HsRand} {o : HsOut} (hb : b.status = .unknown)
    (h : hsProcess E b (some q) r = .ok (b', o)) (hs : b'.status ≠ .failed) (hp : o.send = some pb ∨ (o.send = none ∧ b'.pendingPkt = some pb))
    (hb0 : b.pendingPkt = none) : ∃ b1, hsProcessInitial E b q r = .ok (b1, some pb) ∧ b'.remote = b1.remote := by
  simp only [hsProcess, hb] at h
  split at h
  · cases h; exact absurd rfl hs
  · cases h1 : hsProcessInitial E b q r with
    | null => rw [h1] at h; cases h
    | ub => rw [h1] at h; cases h
    | ok x =>
      obtain ⟨b1, q1⟩ := x
      rw [h1] at h
      simp only [Res.bind] at h
      split at h
      · cases h; exact absurd (by assumption) hs
      · split at h
        · cases h
          rcases hp with hp | ⟨-, hp⟩
          · cases hp
          · exact ⟨b1, by rw [← hp], rfl⟩
        · cases h
          rcases hp with hp | ⟨hp1, hp⟩
          · exact ⟨_, by rw [← hp], rfl⟩
          · have := initial_pending h1
            rw [this, hb0] at hp
            cases hp

/-- C28, agreement.  A responder `b` answers the packet `q` with the packet `pb`; an initiator `a` accepts any packet `p` in which the
encrypted part of `pb` occurs, whoever has sent and signed it and whatever else is in it.  Then, unless a primitive
fails on exactly these values, both sides believe the same: the initiator's peer is the responder, the responder's peer is the initiator, and the
ephemeral keys are those.  This holds whether the sides have been told the other's identity or learn it from the packets. -/
theorem C28_agreement (E : Engine) (a a' b b' : Handshake) (p q pb : Packet) (ra rb : HsRand) (oa ob : HsOut) (rA rB : PResponse)
    (ha : a.status = .inProgress) (hia : a.isInitiator = true) (hpa : hsProcess E a (some p) ra = .ok (a', oa)) (hfa : a'.status ≠ .failed)
    (hb : b.status = .unknown) (hib : b.isInitiator = false) (hb0 : b.pendingPkt = none)
    (hpb : hsProcess E b (some q) rb = .ok (b', ob)) (hfb : b'.status ≠ .failed)
    (hsent : ob.send = some pb ∨ (ob.send = none ∧ b'.pendingPkt = some pb))
    (hmA : handshakeFromPacket p = some (.response rA)) (hmB : handshakeFromPacket pb = some (.response rB))
    (henc : rA.encData = rB.encData) :
    ∃ s enc v w, handshakeFromPacket q = some (.seed s) ∧ rB.encData = some enc ∧ InitiatorSees E a a' rA v ∧
      ResponderSees E b b' s rb.eph w ∧ (Sound E enc v w → SameView v w ∧ v.secret = w.secret) := by
  obtain ⟨a1, h1, h2, h3⟩ := process_response ha hpa hfa
  obtain ⟨v, ed, r, k, x, hv, hed, hr, ⟨i, d, hi, hd, hk⟩, hx⟩ := response_opened hmA h1 h2 hia
  obtain ⟨b1, h4, h5⟩ := process_initial hb hpb hfb hsent hb0
  obtain ⟨s, w, l, m, hs, hw, ⟨j, e, hj, he, hl⟩, hm, data, ed', rr, hen, hser, hed'⟩ := response_sealed h4 hib
  cases hmB.symm.trans hm
  cases hed.symm.trans (henc.trans hed')
  refine ⟨s, ed, v, w, hs, henc ▸ hed, ?_, ?_, fun hS => ?_⟩
  · unfold InitiatorSees at hv ⊢
    rw [h3]
    exact hv
  · unfold ResponderSees at hw ⊢
    rw [h5]
    exact hw
  · have hkl : k = l := hS.opens r k l x hr ⟨i, d, hi, hd, hk⟩ ⟨j, e, hj, he, hl⟩ ⟨data, _, rr, hen, hser⟩ hx
    subst hkl
    obtain ⟨hde, hsec⟩ := hS.kdf i j d e k hi hj hd he hk hl
    subst hde
    have hij := hS.digest i j d (Or.inl hi) (Or.inr hj) hd he
    subst hij
    exact ⟨C28_info_determines_view v w i hi hj, hsec⟩

end Wickr
