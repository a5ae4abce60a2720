import Verif.Lemmas.Honest
import Verif.Props.Handshake
import Verif.Props.Engine
set_option linter.unusedSimpArgs false
/-
C28: the honest handshake.
-/
namespace Wickr
open Spec

theorem hsCreate_some {c : Chain} {r : Option Chain} {e : UInt32} {h : Handshake} (he : hsCreate c r e = some h) :
    h = ⟨c, r, none, none, .unknown, none, none, none, false, e⟩ := by
  unfold hsCreate at he
  split at he
  · simp at he
  · cases he; rfl

/-- Deriving the stream keys from a root key and a transcript. -/
theorem derive_ok {E : Engine} (hE : E.Lawful) (rk : RootKey) (hrk : rk.secret.length = 32)
    (hp : (1 ≤ rk.ppeSend.toNat ∧ rk.ppeSend.toNat ≤ 32768) ∧ 1 ≤ rk.ppeRecv.toNat ∧ rk.ppeRecv.toNat ≤ 32768)
    {w0 w1 : Bytes} (h0 : 0 < w0.length ∧ w0.length ≤ 20000) (h1 : 0 < w1.length ∧ w1.length ≤ 20000) :
    ∃ s r : StreamKey, s.cipherKey.cipher = rk.cipher ∧ r.cipherKey.cipher = rk.cipher ∧
      s.cipherKey.key.length = 32 ∧ r.cipherKey.key.length = 32 ∧ ValidBuf s.evoKey ∧ ValidBuf r.evoKey ∧
      s.ppe = rk.ppeSend ∧ r.ppe = rk.ppeRecv ∧ s.userData = none ∧ r.userData = none ∧
      ∀ h : Handshake, h.pkt0 = some w0 → h.pkt1 = some w1 →
        hsDeriveKeys E h rk = some (if h.isInitiator then ⟨s, r⟩ else ⟨r, s⟩) := by
  have hmb := maxBuffer_val
  have hcat : concat2 (some w0) (some w1) = some (w0 ++ w1) :=
    concat2_some.2 ⟨rfl, by rw [List.length_append]; omega, by rw [List.length_append]; omega⟩
  obtain ⟨g, hg, hgl⟩ := hE.digest_len (w0 ++ w1) none .sha512
  have hgl : g.length = 64 := hgl
  have hkl : rk.cipher.keyLen = 32 := by cases rk.cipher <;> rfl
  have key : ∀ info : Bytes, 0 < info.length → info.length ≤ 1024 → ∀ d : Dir,
      ∃ k : StreamKey, rootKeyToStreamKey E rk g info d = some k ∧ k.cipherKey.cipher = rk.cipher ∧
        k.cipherKey.key.length = 32 ∧ ValidBuf k.evoKey ∧
        k.ppe = (if d = .encode then rk.ppeSend else rk.ppeRecv) ∧ k.userData = none := by
    intro info i0 i1 d
    obtain ⟨h, hh, hl⟩ := hE.hkdf_len .sha512 64 (some g) (some info) rk.secret (by decide) (by omega) (by omega)
      (by intro i hi; cases hi; exact ⟨i0, i1⟩) (by intro s hs; cases hs; omega) (by simp)
    have hh : E.kdf ⟨hkdfSha512, some g, some info⟩ rk.secret = some h := hh
    have hl : h.length = 64 := hl
    have c1 : copySection h 0 32 = some (h.take 32) := by
      rw [copySection_of (by omega) (by omega) (by omega) (by omega)]; simp
    have c2 : copySection h 32 32 = some ((h.drop 32).take 32) :=
      copySection_of (by omega) (by omega) (by omega) (by omega)
    have hpp : 1 ≤ (if d = .encode then rk.ppeSend else rk.ppeRecv).toNat ∧
        (if d = .encode then rk.ppeSend else rk.ppeRecv).toNat ≤ 32768 := by
      split
      · exact hp.1
      · exact hp.2
    refine ⟨⟨⟨rk.cipher, h.take 32⟩, (h.drop 32).take 32, if d = .encode then rk.ppeSend else rk.ppeRecv, none⟩,
      ?_, rfl, by simp; omega, ⟨by simp; omega, by simp; omega⟩, rfl, rfl⟩
    have hkc : cipherKeyCreate rk.cipher (h.take 32) = some ⟨rk.cipher, h.take 32⟩ := by
      simp [cipherKeyCreate, hkl, hl]
    unfold rootKeyToStreamKey
    simp only [hh, Option.bind_some, hkl, c1, c2, hkc]
    rw [if_neg (by omega), streamKeyCreate_of hpp]
  obtain ⟨s, s1, s2, s3, s4, s5, s6⟩ := key senderInfo (by decide) (by decide) .encode
  obtain ⟨r, r1, r2, r3, r4, r5, r6⟩ := key receiverInfo (by decide) (by decide) .decode
  refine ⟨s, r, s2, r2, s3, r3, s4, r4, s5, r5, s6, r6, ?_⟩
  intro h e0 e1
  simp only [hsDeriveKeys, e0, e1, hcat, hg, Option.bind_some, s1, r1, Option.map_some]

theorem slotSet_ok {w : Bytes} (h : 0 < w.length ∧ w.length ≤ 20000) (old : Option Bytes) :
    slotSet old (some w) = some w := by
  have hmb := maxBuffer_val
  simp [slotSet, dup_of (show ValidBuf w from ⟨h.1, by omega⟩)]

/-- The steps of the honest run: both packets, what the responder makes of the first and the initiator of
the second. -/
theorem honest_steps (E : Engine) (hE : E.Lawful) (cA cB : Chain) (hA : Party E cA) (hB : Party E cB)
    (remA remB : Option Chain) (hrA : Expects E remA cB) (hrB : Expects E remB cA) (evoA evoB : UInt32)
    (a b : Handshake) (ha : hsCreate cA remA evoA = some a)
    (hbb : hsCreate cB remB evoB = some b) (ra ra' rb : HsRand) (hea : E.KeyPair ra.eph)
    (heb : E.KeyPair rb.eph) (hsec : rb.secret.length = 32) (hiv : rb.iv.length = 12) :
    ∃ w0 w1 dA dB q0 q0' q1 q1' x z, (0 < w0.length ∧ w0.length ≤ 20000) ∧ (0 < w1.length ∧ w1.length ≤ 20000) ∧
      hsStart E a ra = (⟨cA, remA, some w0, none, .inProgress, some ra.eph, none, none, true, evoA⟩, some q0) ∧
      pktSerialize q0 = some w0 ∧ pktFromBuffer w0 = some q0' ∧ (∃ m, handshakeFromPacket q0' = some m) ∧
      hsProcess E b (some q0') rb = .ok x ∧
      accept x = (⟨cB, some dA, some w0, some w1, .pendingFinalization, none,
        some ⟨rb.secret, .gcm, evoB, evoB⟩, none, false, evoB⟩, some q1) ∧ (x.2.ask.isSome → x.2.send = none) ∧
      pktSerialize q1 = some w1 ∧ pktFromBuffer w1 = some q1' ∧ (∃ m, handshakeFromPacket q1' = some m) ∧
      hsProcess E ⟨cA, remA, some w0, none, .inProgress, some ra.eph, none, none, true, evoA⟩ (some q1') ra' = .ok z ∧
      accept z = (⟨cA, some dB, some w0, some w1, .pendingFinalization, some ra.eph,
        some ⟨rb.secret, .gcm, evoB, evoB⟩, none, true, evoA⟩, none) ∧ (z.2.ask.isSome → z.2.send = none) := by
  have hmb := maxBuffer_val
  have ha := hsCreate_some ha
  have hbb := hsCreate_some hbb
  subst ha hbb
  -- the seed
  obtain ⟨pA, hpA, hpAl, -, -⟩ := chain_proto_round_trip hE hA.root hA.node false (by simp)
  obtain ⟨pB, hpB, hpBl, -, -⟩ := chain_proto_round_trip hE hB.root hB.node false (by simp)
  have lka : ra.eph.pub.length ≤ 134 := by
    have := hea.pubLen.2; cases hc : ra.eph.curve; rw [hc] at this; exact this
  have lkb : rb.eph.pub.length ≤ 134 := by
    have := heb.pubLen.2; cases hc : rb.eph.curve; rw [hc] at this; exact this
  have hka0 := hea.pubLen.1
  have hkb0 := heb.pubLen.1
  have hsz := PSeed.size pA ra.eph.pub remA.isNone
  obtain ⟨q0, w0, q0', b1, b2, b3, b4, b5, b6, b7, b8, b9⟩ := build_ok hE
    ⟨cA, remA, none, none, .inProgress, some ra.eph, none, none, true, evoA⟩ hA.key
    (.seed ⟨some pA, some ra.eph.pub, some remA.isNone⟩) (by simp) (by omega) ra.nonce false
  have hstart : hsStart E ⟨cA, remA, none, none, .unknown, none, none, none, false, evoA⟩ ra =
      (⟨cA, remA, some w0, none, .inProgress, some ra.eph, none, none, true, evoA⟩, some q0) := by
    simp only [hsStart, seedCreate, hpA, Option.map_some, b1, hsSetSlot, slotSet_ok ⟨b7, b8⟩]
    simp
  -- the responder
  obtain ⟨dA, rA1, rA2, rA3⟩ := remote_ok hE hA (h := ⟨cB, remB, some w0, none, .unknown, none, none, none, false, evoB⟩)
    hrB (q := q0') b9 hpA (pc := some pA) (fun _ => rfl)
  have himpA : (dup ra.eph.pub).bind (E.ecImport · false) = some { ra.eph with pri := none } := by
    rw [dup_of ⟨hka0, by omega⟩]; exact hea.pub
  have himpB : (dup rb.eph.pub).bind (E.ecImport · false) = some { rb.eph with pri := none } := by
    rw [dup_of ⟨hkb0, by omega⟩]; exact heb.pub
  have hrk : rootKeyCreate rb.secret defaultCipher evoB evoB = some ⟨rb.secret, .gcm, evoB, evoB⟩ := by
    simp [rootKeyCreate, hsec, defaultCipher, Cipher.keyLen]
  let stB : HsStatus := if remB.isNone then .pendingVerification else .unknown
  let b2h : Handshake := ⟨cB, some dA, some w0, none, stB, none, some ⟨rb.secret, .gcm, evoB, evoB⟩, none, false, evoB⟩
  obtain ⟨m, hm1, hm2, hme⟩ := kdfMeta_ok hE
    (a := ⟨cA, some cB, some w0, none, .inProgress, some ra.eph, none, none, true, evoA⟩) (b := b2h) rfl rfl hA hB
    (da := dA) (db := cB) rfl rfl rA2 rfl hea heb (ka' := { ra.eph with pri := none })
    (kb' := { rb.eph with pri := none }) rfl rfl
  obtain ⟨r, ed, e1, e2, e3, e4⟩ := response_ok hE (b := b2h) hB hea heb (ka' := { ra.eph with pri := none })
    (kb' := { rb.eph with pri := none }) rfl rfl hm2 hme ⟨rb.secret, .gcm, evoB, evoB⟩ hsec rb.iv hiv remA.isNone hpB hpBl
  obtain ⟨q1, w1, q1', c1, c2, c3, c4, c5, c6, c7, c8, c9⟩ := build_ok hE b2h hB.key
    (.response ⟨some rb.eph.pub, some ed, if remA.isNone then some pB else none⟩) (by simp) e3 rb.nonce true
  let bF : Handshake := ⟨cB, some dA, some w0, some w1, .pendingFinalization, none, some ⟨rb.secret, .gcm, evoB, evoB⟩,
    none, false, evoB⟩
  have hB1 : ∃ x, hsProcess E ⟨cB, remB, none, none, .unknown, none, none, none, false, evoB⟩ (some q0') rb = .ok x ∧
      accept x = (bF, some q1) ∧ (x.2.ask.isSome → x.2.send = none) := by
    have hin : hsProcessInitial E ⟨cB, remB, none, none, .unknown, none, none, none, false, evoB⟩ q0' rb =
        .ok ({ bF with status := if remB.isNone then .pendingVerification else .pendingFinalization }, some q1) := by
      simp only [hsProcessInitial, hsSetSlot, Bool.false_eq_true, if_false, b4, slotSet_ok ⟨b7, b8⟩, b5, rA1, himpA,
        hrk]
      have e1' : hsMakeResponse E ⟨cB, some dA, some w0, none, if remB.isNone then .pendingVerification else .unknown,
          none, some ⟨rb.secret, .gcm, evoB, evoB⟩, none, false, evoB⟩ ⟨rb.secret, .gcm, evoB, evoB⟩ rb.eph
          { ra.eph with pri := none } rb.iv remA.isNone = _ := e1
      have c1' : hsBuildSigned E ⟨cB, some dA, some w0, none, if remB.isNone then .pendingVerification else .unknown,
          none, some ⟨rb.secret, .gcm, evoB, evoB⟩, none, false, evoB⟩ _ rb.nonce true = _ := c1
      simp only [e1', c1', hsSetSlot, if_true, slotSet_ok ⟨c7, c8⟩, b2h, stB, bF]
      cases remB <;> simp
    simp only [hsProcess, b6, hin, hsVersion, Res.bind]
    cases hr : remB with
    | none =>
      obtain ⟨e, he⟩ := rA3 hr
      refine ⟨_, by simp; rfl, ?_, fun _ => rfl⟩
      simp [accept, bF, he, hsVerify]
    | some d =>
      refine ⟨_, by simp; rfl, ?_, fun h => by cases h⟩
      simp [accept, bF]
  obtain ⟨x, hx1, hx2, hx3⟩ := hB1
  -- the initiator reads the response
  obtain ⟨dB, rB1, rB2, rB3⟩ := remote_ok hE hB
    (h := ⟨cA, remA, some w0, some w1, .inProgress, some ra.eph, none, none, true, evoA⟩)
    hrA (q := q1') c9 hpB (pc := if remA.isNone then some pB else none) (by intro h; simp only at h; simp [h])
  obtain ⟨m', hm1', hm2', -⟩ := kdfMeta_ok hE
    (a := ⟨cA, some dB, some w0, some w1, if remA.isNone then .pendingVerification else .inProgress, some ra.eph, none,
      none, true, evoA⟩) (b := b2h) rfl rfl hA hB
    (da := dA) (db := dB) rfl rfl rA2 rB2 hea heb (ka' := { ra.eph with pri := none })
    (kb' := { rb.eph with pri := none }) rfl rfl
  rw [hm2] at hm2'; cases hm2'
  have hopen := e4 _ hm1'
  have hcopy : ecKeyCopy ra.eph = some ra.eph := by
    obtain ⟨p, hp1, -, hp2, hp3⟩ := hea.pri
    have d1 : dup ra.eph.pub = some ra.eph.pub := dup_of ⟨hka0, by omega⟩
    have d2 : dup p = some p := dup_of ⟨hp2, by omega⟩
    unfold ecKeyCopy
    simp only [d1, hp1, dupOpt, d2, Option.bind_some, Option.map_some]
    rw [← hp1]
  let a3 : Handshake := ⟨cA, some dB, some w0, some w1, .pendingFinalization, some ra.eph,
    some ⟨rb.secret, .gcm, evoB, evoB⟩, none, true, evoA⟩
  have hA1 : ∃ z, hsProcess E ⟨cA, remA, some w0, none, .inProgress, some ra.eph, none, none, true, evoA⟩ (some q1') ra' =
      .ok z ∧ accept z = (a3, none) ∧ (z.2.ask.isSome → z.2.send = none) := by
    have hresp : hsProcessResponse E ⟨cA, remA, some w0, none, .inProgress, some ra.eph, none, none, true, evoA⟩ q1' =
        .ok { a3 with status := if remA.isNone then .pendingVerification else .pendingFinalization } := by
      have hno : ¬ (remA.isNone = true ∧ (if remA.isNone then some pB else none).isNone = true) := by
        cases remA <;> simp
      simp only [hsProcessResponse, hsSetSlot, if_true, c4, slotSet_ok ⟨c7, c8⟩, c5, if_neg hno, e2,
        Option.bind_some, hcopy, himpB, rB1, hopen, a3]
      cases remA <;> simp
    simp only [hsProcess, c6, hresp, hsVersion, Res.bind]
    cases hr : remA with
    | none =>
      obtain ⟨e, he⟩ := rB3 hr
      refine ⟨_, by simp; rfl, ?_, fun _ => rfl⟩
      simp [accept, a3, he, hsVerify]
    | some d =>
      refine ⟨_, by simp; rfl, ?_, fun h => by cases h⟩
      simp [accept, a3]
  obtain ⟨z, hz1, hz2, hz3⟩ := hA1
  exact ⟨w0, w1, dA, dB, q0, q0', q1, q1', x, z, ⟨b7, b8⟩, ⟨c7, c8⟩, hstart, b2, b3, ⟨_, b5⟩, hx1, hx2, hx3, c2, c3,
    ⟨_, c5⟩, hz1, hz2, hz3⟩

/-- The honest run up to the derivation of the keys. -/
theorem honest_core (E : Engine) (hE : E.Lawful) (cA cB : Chain) (hA : Party E cA) (hB : Party E cB)
    (remA remB : Option Chain) (hrA : Expects E remA cB) (hrB : Expects E remB cA) (evoA evoB : UInt32)
    (a b : Handshake) (ha : hsCreate cA remA evoA = some a)
    (hbb : hsCreate cB remB evoB = some b) (ra ra' rb : HsRand) (hea : E.KeyPair ra.eph)
    (heb : E.KeyPair rb.eph) (hsec : rb.secret.length = 32) (hiv : rb.iv.length = 12) :
    ∃ w0 w1 dA dB ea, (0 < w0.length ∧ w0.length ≤ 20000) ∧ (0 < w1.length ∧ w1.length ≤ 20000) ∧
      honestRun E a b ra ra' rb =
        (Res.ofOption (hsFinalize E ⟨cA, some dB, some w0, some w1, .pendingFinalization, ea,
          some ⟨rb.secret, .gcm, evoB, evoB⟩, none, true, evoA⟩).2).bind fun ka =>
        (Res.ofOption (hsFinalize E ⟨cB, some dA, some w0, some w1, .pendingFinalization, none,
          some ⟨rb.secret, .gcm, evoB, evoB⟩, none, false, evoB⟩).2).bind fun kb => .ok (ka, kb) := by
  obtain ⟨w0, w1, dA, dB, q0, q0', q1, q1', x, z, l0, l1, hstart, b2, b3, -, hx1, hx2, -, c2, c3, -, hz1, hz2, -⟩ :=
    honest_steps E hE cA cB hA hB remA remB hrA hrB evoA evoB a b ha hbb ra ra' rb hea heb hsec hiv
  refine ⟨w0, w1, dA, dB, some ra.eph, l0, l1, ?_⟩
  have hw0 : (some q0).bind wire = some q0' := by simp [wire, b2, b3]
  have hw1 : (some q1).bind wire = some q1' := by simp [wire, c2, c3]
  simp only [honestRun, hstart, hw0, Res.ofOption, Res.bind, hx1, hx2, hw1, hz1, hz2]

/-- C28.  Let the initiator `cA` and the responder `cB` hold genuine chains; either may or may not
have been told the other's identity beforehand.  If the packets arrive and the applications accept
the identities they are asked about, both sides finish, the initiator's sending key is the
responder's receiving key and vice versa, and the keys are fit for streams: authenticated cipher,
evolving every `evoB` packets, the responder's choice. -/
theorem C28_honest_handshake (E : Engine) (hE : E.Lawful) (cA cB : Chain) (hA : Party E cA) (hB : Party E cB)
    (remA remB : Option Chain) (hrA : Expects E remA cB) (hrB : Expects E remB cA) (evoA evoB : UInt32)
    (hb : evoB.toNat ≤ 32768) (a b : Handshake) (ha : hsCreate cA remA evoA = some a)
    (hbb : hsCreate cB remB evoB = some b) (ra ra' rb : HsRand) (hea : E.KeyPair ra.eph)
    (heb : E.KeyPair rb.eph) (hsec : rb.secret.length = 32) (hiv : rb.iv.length = 12) :
    ∃ ka kb : HsKeys, honestRun E a b ra ra' rb = .ok (ka, kb) ∧ ka.localKey = kb.remoteKey ∧
      ka.remoteKey = kb.localKey ∧ WfStreamKey ka.localKey ∧ WfStreamKey ka.remoteKey ∧
      ka.localKey.ppe = evoB ∧ ka.remoteKey.ppe = evoB := by
  have hmb := maxBuffer_val
  have hb1 : 1 ≤ evoB.toNat := by
    unfold hsCreate at hbb
    split at hbb
    · simp at hbb
    · next hne =>
      apply Nat.pos_of_ne_zero
      intro h0; exact hne (UInt32.toNat_inj.1 h0)
  obtain ⟨w0, w1, dA, dB, ea, h0, h1, hrun⟩ := honest_core E hE cA cB hA hB remA remB hrA hrB evoA evoB a b ha hbb
    ra ra' rb hea heb hsec hiv
  obtain ⟨s, k', f1, f2, f3, f4, f5, f6, f7, f8, f9, f10, f11⟩ := derive_ok hE ⟨rb.secret, .gcm, evoB, evoB⟩ hsec
    ⟨⟨hb1, hb⟩, hb1, hb⟩ h0 h1
  refine ⟨⟨s, k'⟩, ⟨k', s⟩, ?_, rfl, rfl, ⟨by rw [f1]; rfl, f3, f5, by rw [f7]; exact ⟨hb1, hb⟩, by simp [f9]⟩,
    ⟨by rw [f2]; rfl, f4, f6, by rw [f8]; exact ⟨hb1, hb⟩, by simp [f10]⟩, f7, f8⟩
  rw [hrun]
  have hd : ∀ (c : Chain) (d : Option Chain) (k : Option EcKey) (i : Bool) (v : UInt32), hsDeriveKeys E
      ⟨c, d, some w0, some w1, .pendingFinalization, k, some ⟨rb.secret, .gcm, evoB, evoB⟩, none, i, v⟩
      ⟨rb.secret, .gcm, evoB, evoB⟩ = some (if i then ⟨s, k'⟩ else ⟨k', s⟩) :=
    fun c d k i v => f11 _ rfl rfl
  simp [hsFinalize, hd, Res.ofOption, Res.bind]

/-- The two labels of the key schedule are different: "sender" and "receiver". -/
def Spec.directionLabel (sender : Bool) : Bytes :=
  if sender then "sender".toUTF8.data.toList else "receiver".toUTF8.data.toList

/-- A stream key made of 64 bytes: cipher key and evolution key. -/
def Spec.KeyOf (c : Cipher) (ppe : UInt32) (m : Bytes) (k : StreamKey) : Prop :=
  m.length = 64 ∧ k = ⟨⟨c, m.take 32⟩, m.drop 32, ppe, none⟩

theorem rootKeyToStreamKey_some {E : Engine} {rk : RootKey} {salt label : Bytes} {d : Dir} {k : StreamKey}
    (h : rootKeyToStreamKey E rk salt label d = some k) :
    ∃ m, E.kdf ⟨hkdfSha512, some salt, some label⟩ rk.secret = some m ∧
      KeyOf rk.cipher (if d = .encode then rk.ppeSend else rk.ppeRecv) m k := by
  unfold rootKeyToStreamKey at h
  simp only [Option.bind_eq_some_iff] at h
  obtain ⟨m, hm, h⟩ := h
  refine ⟨m, hm, ?_⟩
  rw [keyLen_32] at h
  split at h
  · simp at h
  next hl =>
  have hl : m.length = 64 := by omega
  have hmb := maxBuffer_val
  have c1 : copySection m 0 32 = some (m.take 32) := by
    rw [copySection_of (by omega) (by omega) (by omega) (by omega)]; simp
  have c2 : copySection m 32 32 = some (m.drop 32) := by
    rw [copySection_of (by omega) (by omega) (by omega) (by omega)]
    rw [List.take_of_length_le (by simp; omega)]
  have c3 : cipherKeyCreate rk.cipher (m.take 32) = some ⟨rk.cipher, m.take 32⟩ := by
    simp [cipherKeyCreate, keyLen_32, hl]
  simp only [c1, c2, c3, Option.bind_some] at h
  have h : streamKeyCreate ⟨rk.cipher, m.take 32⟩ (m.drop 32) (if d = .encode then rk.ppeSend else rk.ppeRecv) none =
    some k := by simpa using h
  exact ⟨hl, (streamKeyCreate_some h).1⟩

/-- C28, the key schedule.  Whatever the engine: the keys a handshake hands out are HKDF-SHA512 outputs
from the root secret, salted with the SHA-512 of both packets of the transcript, one for the label
"sender" and one for "receiver"; the initiator sends with the first, the responder with the second. -/
theorem C28_key_schedule (E : Engine) (h h' : Handshake) (ks : HsKeys) (hf : hsFinalize E h = (h', some ks)) :
    ∃ rk w0 w1 hash mine theirs, h.rootKey = some rk ∧ h.pkt0 = some w0 ∧ h.pkt1 = some w1 ∧
      E.digest (w0 ++ w1) none .sha512 = some hash ∧
      E.kdf ⟨hkdfSha512, some hash, some (directionLabel h.isInitiator)⟩ rk.secret = some mine ∧
      E.kdf ⟨hkdfSha512, some hash, some (directionLabel (!h.isInitiator))⟩ rk.secret = some theirs ∧
      KeyOf rk.cipher (if h.isInitiator then rk.ppeSend else rk.ppeRecv) mine ks.localKey ∧
      KeyOf rk.cipher (if h.isInitiator then rk.ppeRecv else rk.ppeSend) theirs ks.remoteKey := by
  unfold hsFinalize at hf
  split at hf
  · cases hf
  next rk hrk =>
  split at hf
  · cases hf
  split at hf
  · cases hf
  next ks' hd =>
  cases hf
  unfold hsDeriveKeys at hd
  simp only [Option.bind_eq_some_iff, Option.map_eq_some_iff] at hd
  obtain ⟨t, ht, hash, hhash, s, hs, r, hr, hk⟩ := hd
  obtain ⟨w0, w1, e0, e1, rfl⟩ : ∃ w0 w1, h.pkt0 = some w0 ∧ h.pkt1 = some w1 ∧ t = w0 ++ w1 := by
    cases h0 : h.pkt0 with
    | none => rw [h0] at ht; simp [concat2] at ht
    | some w0 =>
      cases h1 : h.pkt1 with
      | none => rw [h0, h1] at ht; simp [concat2] at ht
      | some w1 => rw [h0, h1] at ht; exact ⟨w0, w1, rfl, rfl, (concat2_some.1 ht).1⟩
  obtain ⟨ms, hms, ks1⟩ := rootKeyToStreamKey_some hs
  obtain ⟨mr, hmr, kr1⟩ := rootKeyToStreamKey_some hr
  have l1 : senderInfo = directionLabel true := by decide
  have l2 : receiverInfo = directionLabel false := by decide
  rw [l1] at hms
  rw [l2] at hmr
  simp only [if_true] at ks1
  cases hi : h.isInitiator with
  | true =>
    rw [hi] at hk
    simp only [if_true] at hk
    subst hk
    exact ⟨rk, w0, w1, hash, ms, mr, hrk, e0, e1, hhash, hms, hmr, ks1, kr1⟩
  | false =>
    rw [hi] at hk
    simp only [Bool.false_eq_true, if_false] at hk
    subst hk
    exact ⟨rk, w0, w1, hash, mr, ms, hrk, e0, e1, hhash, hmr, hms, kr1, ks1⟩

example : directionLabel true ≠ directionLabel false := by decide

/-- C28, the limit: `wickr_transport_handshake_create` takes any non-zero evolution count, but with
one above 32768 on the responder's side the honest handshake runs to its end and then yields
nothing. -/
theorem C28_large_evolution_count_fails (E : Engine) (hE : E.Lawful) (cA cB : Chain) (hA : Party E cA)
    (hB : Party E cB) (remA remB : Option Chain) (hrA : Expects E remA cB) (hrB : Expects E remB cA)
    (evoA evoB : UInt32) (hb : 32768 < evoB.toNat) (a b : Handshake) (ha : hsCreate cA remA evoA = some a)
    (hbb : hsCreate cB remB evoB = some b) (ra ra' rb : HsRand) (hea : E.KeyPair ra.eph)
    (heb : E.KeyPair rb.eph) (hsec : rb.secret.length = 32) (hiv : rb.iv.length = 12) :
    honestRun E a b ra ra' rb = .null := by
  obtain ⟨w0, w1, dA, dB, ea, h0, h1, hrun⟩ := honest_core E hE cA cB hA hB remA remB hrA hrB evoA evoB a b ha hbb
    ra ra' rb hea heb hsec hiv
  have hno : ∀ g i, rootKeyToStreamKey E ⟨rb.secret, .gcm, evoB, evoB⟩ g i .encode = none := by
    intro g i
    cases h : rootKeyToStreamKey E ⟨rb.secret, .gcm, evoB, evoB⟩ g i .encode with
    | none => rfl
    | some k =>
      exfalso
      unfold rootKeyToStreamKey at h
      simp only [Option.bind_eq_some_iff] at h
      obtain ⟨x, -, h⟩ := h
      split at h
      · simp at h
      · simp only [Option.bind_eq_some_iff] at h
        obtain ⟨_, _, _, _, h⟩ := h
        have := (streamKeyCreate_some h).2.2
        simp only [if_true] at this
        omega
  rw [hrun]
  simp only [hsFinalize, hsDeriveKeys, hno]
  cases concat2 (some w0) (some w1) with
  | none => rfl
  | some t => cases hd : E.digest t none .sha512 <;> simp [hd, Res.ofOption, Res.bind]

/-- C58, the case that needs no attacker's message at all: for every lawful engine and identity, the
initiator's own first packet, sent back to it, is such a packet. -/
theorem C58_reflection (E : Engine) (hE : E.Lawful) (cA : Chain) (hA : Party E cA) (remA : Option Chain)
    (evo : UInt32) (a : Handshake) (ha : hsCreate cA remA evo = some a) (ra ra' : HsRand) (hea : E.KeyPair ra.eph) :
    ∃ p q, (hsStart E a ra).2 = some p ∧ wire p = some q ∧ hsProcess E (hsStart E a ra).1 (some q) ra' = .ub := by
  have ha := hsCreate_some ha
  subst ha
  obtain ⟨pA, hpA, hpAl, -, -⟩ := chain_proto_round_trip hE hA.root hA.node false (by simp)
  have lka : ra.eph.pub.length ≤ 134 := by
    have := hea.pubLen.2; cases hc : ra.eph.curve; rw [hc] at this; exact this
  have hsz := PSeed.size pA ra.eph.pub remA.isNone
  obtain ⟨q0, w0, q0', b1, b2, b3, b4, b5, b6, b7, b8, b9⟩ := build_ok hE
    ⟨cA, remA, none, none, .inProgress, some ra.eph, none, none, true, evo⟩ hA.key
    (.seed ⟨some pA, some ra.eph.pub, some remA.isNone⟩) (by simp) (by omega) ra.nonce false
  have hstart : hsStart E ⟨cA, remA, none, none, .unknown, none, none, none, false, evo⟩ ra =
      (⟨cA, remA, some w0, none, .inProgress, some ra.eph, none, none, true, evo⟩, some q0) := by
    simp only [hsStart, seedCreate, hpA, Option.map_some, b1, hsSetSlot, slotSet_ok ⟨b7, b8⟩]
    simp
  rw [hstart]
  exact ⟨q0, q0', rfl, by simp [wire, b2, b3],
    (C58_undefined_iff_partial _ _ _ _).2 ⟨q0', rfl, b6, Or.inr ⟨rfl, _, b5⟩⟩⟩

/-- The OpenSSL engine meets the hypothesis of C26 and C27. -/
theorem defaultEngine_sane (P : Prim) (hP : P.Lawful) : SaneOutputs (defaultEngine P) := by
  have hmb := maxBuffer_val
  refine ⟨?_, ?_, ?_⟩
  · intro b s d h hh
    have : h = P.sha d (b ++ optBytes s) := by
      have hh : some (P.sha d (b ++ optBytes s)) = some h := hh
      exact (Option.some.inj hh).symm
    subst this
    have hl := hP.sha_len d (b ++ optBytes s)
    constructor <;> cases d <;> simp only [Digest.size] at hl <;> omega
  · intro b p k hk
    have hk : ecKeyImport P b p = some k := hk
    unfold ecKeyImport pubToBuffer at hk
    have hd : ∀ {x y : Bytes}, dup x = some y → ValidBuf y := fun h => by
      have := dup_eq_some.1 h; rw [this.2]; exact this.1
    split at hk
    · split at hk
      · simp at hk
      · split at hk
        · simp at hk
        · split at hk
          · simp at hk
          · simp only [Option.bind_eq_some_iff, Option.map_eq_some_iff] at hk
            obtain ⟨pub, h1, pri, h2, rfl⟩ := hk
            exact hd h1
    · split at hk
      · simp at hk
      · split at hk
        · simp at hk
        · simp only [Option.map_eq_some_iff] at hk
          obtain ⟨pub, h1, rfl⟩ := hk
          exact hd h1
  · intro b p k x hk hx
    have hk : ecKeyImport P b p = some k := hk
    unfold ecKeyImport priToBuffer at hk
    have hd : ∀ {x y : Bytes}, dup x = some y → ValidBuf y := fun h => by
      have := dup_eq_some.1 h; rw [this.2]; exact this.1
    split at hk
    · split at hk
      · simp at hk
      · split at hk
        · simp at hk
        · split at hk
          · simp at hk
          · simp only [Option.bind_eq_some_iff, Option.map_eq_some_iff] at hk
            obtain ⟨pub, h1, pri, h2, rfl⟩ := hk
            cases hx; exact hd h2
    · split at hk
      · simp at hk
      · split at hk
        · simp at hk
        · simp only [Option.map_eq_some_iff] at hk
          obtain ⟨pub, h1, rfl⟩ := hk
          cases hx

/-! ### Concrete runs -/

/-- A second toy chain. -/
def toyPeer : Chain :=
  chainCreate ⟨.root, [3], toyKey 21, none⟩
    ⟨.node, [4, 4], toyKey 23, some ⟨.p521, .sha512, [21, 3, toySum [0, 23]]⟩⟩

/-- The hypotheses of C28 are met. -/
theorem toyChain_party : Party toyEngine toyChain :=
  ⟨⟨by decide, by decide +kernel, by intro h; cases h⟩,
    ⟨by decide, by decide +kernel, fun _ => ⟨_, rfl, by decide, by decide⟩⟩, toyKey_pair 7 (by decide), rfl,
    ⟨_, rfl, by decide +kernel⟩⟩

theorem toyPeer_party : Party toyEngine toyPeer :=
  ⟨⟨by decide, by decide +kernel, by intro h; cases h⟩,
    ⟨by decide, by decide +kernel, fun _ => ⟨_, rfl, by decide, by decide⟩⟩, toyKey_pair 23 (by decide), rfl,
    ⟨_, rfl, by decide +kernel⟩⟩

/-- `toyPeer` as another party would have received it. -/
def toyPeerPublic : Chain := chainCreate (publicHalf toyPeer.root) (publicHalf toyPeer.node)

example : Expects toyEngine (some toyPeerPublic) toyPeer := by
  intro d hd; cases hd
  exact ⟨rfl, rfl, by decide +kernel⟩

/-- A run in which only the initiator knows its peer, evaluated: both sides get keys, mirrored. -/
example : (match honestRun toyEngine ⟨toyChain, some toyPeerPublic, none, none, .unknown, none, none, none, false, 3⟩
      ⟨toyPeer, none, none, none, .unknown, none, none, none, false, 512⟩ toyRand toyRand toyRand2 with
    | .ok (ka, kb) => ka.localKey == kb.remoteKey && ka.remoteKey == kb.localKey && ka.localKey.ppe == 512 &&
        ka.localKey != ka.remoteKey
    | _ => false) = true := by decide +kernel

/-- A pinned initiator whose peer is somebody else: the response is refused and there are no keys. -/
example : honestRun toyEngine (toyHs (some toyPeerPublic))
    ⟨{ toyPeer with node := { toyPeer.node with key := toyKey 25 } }, none, none, none, .unknown, none, none, none,
      false, 512⟩ toyRand toyRand toyRand2 = .null := by decide +kernel

/-- The first packet of `toyChain`, as it arrives. -/
def toySeedPkt : Option Packet := (hsStart toyEngine (toyHs none) toyRand).2.bind wire

/-- The kinds of events of a run; `none` when it is undefined. -/
def evKinds : Res (Handshake × List HsEv) → Option (List Nat)
  | .ok (_, evs) => some (evs.map fun | .sent _ => 0 | .asked _ => 1 | .keys _ => 2)
  | _ => none

/-- A responder without a pinned identity that is asked, accepts, answers and gets keys (once); one
that finalizes without accepting gets none; one that pinned the initiator is not asked. -/
example : evKinds (hsRun toyEngine ⟨toyPeer, none, none, none, .unknown, none, none, none, false, 512⟩
      [.copy, .process toySeedPkt toyRand2, .copy, .verify true, .finalize, .finalize]) = some [1, 0, 2] ∧
    evKinds (hsRun toyEngine ⟨toyPeer, none, none, none, .unknown, none, none, none, false, 512⟩
      [.process toySeedPkt toyRand2, .finalize, .verify true, .finalize]) = some [1] ∧
    evKinds (hsRun toyEngine ⟨toyPeer, some toyChain, none, none, .unknown, none, none, none, false, 512⟩
      [.process toySeedPkt toyRand2, .finalize]) = some [0, 2] ∧
    evKinds (hsRun toyEngine ⟨toyPeer, some toyPeer, none, none, .unknown, none, none, none, false, 512⟩
      [.process toySeedPkt toyRand2, .finalize]) = some [] := by decide +kernel

end Wickr
