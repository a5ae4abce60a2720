import Verif.Props.TransportErr
/-
C34: two honest transport contexts, from the handshake to the data.
-/
set_option linter.unusedSimpArgs false
namespace Wickr
open Spec

/-! ### The handshake between contexts -/

/-- The context after the handshake has given it the keys `ks`. -/
def tActive (c : TCtx) (ks : HsKeys) (seed : Bytes) : TCtx :=
  { c with
    pending := none
    rx := some ⟨ks.remoteKey, none, 0, .decode, 1⟩
    tx := some ⟨ks.localKey, some ⟨ks.localKey.cipherKey.cipher, seed, 0⟩, 0, .encode, 1⟩
    status := .active }

theorem tFinalize_ok {E : Engine} {c : TCtx} {h h' : Handshake} {ks : HsKeys} {e : TEnv} (hp : c.pending = some h)
    (hs : h.status = .pendingFinalization) (hf : hsFinalize E h = (h', some ks)) (hc : c.status ≠ .active)
    (w1 : WfStreamKey ks.localKey) (w2 : WfStreamKey ks.remoteKey) (he : e.onActive = []) :
    tFinalizeIfReady E c e = .ok (tActive c ks e.seed, [.state .active]) := by
  have a1 : (!ks.localKey.cipherKey.cipher.isAuth) = false := by rw [w1.auth]; rfl
  have a2 : (!ks.remoteKey.cipherKey.cipher.isAuth) = false := by rw [w2.auth]; rfl
  simp only [tFinalizeIfReady, tPendingStatus, hp, hs, if_true, tFinalize, hf, streamKeyCopy_of w1, streamKeyCopy_of w2,
    Option.bind_some, streamCtxCreate, a1, a2, Bool.false_eq_true, if_false, reduceCtorEq, tActivate, hc, he, tSends,
    Res.bind, streamIvCreate, tActive]

theorem tProcessHs_ok {E : Engine} {c : TCtx} {h hF h' : Handshake} {p : Packet} {e : TEnv} {x : Handshake × HsOut}
    {oq : Option Packet} {ow : Option Bytes} {ks : HsKeys}
    (hp : c.pending = some h ∨ (c.pending = none ∧ tCreateHandshake c = some h))
    (hx : hsProcess E h (some p) e.hs = .ok x) (ha : accept x = (hF, oq)) (hn : x.2.ask.isSome → x.2.send = none)
    (hs : hF.status = .pendingFinalization) (hf : hsFinalize E hF = (h', some ks)) (hc : c.status ≠ .active)
    (w1 : WfStreamKey ks.localKey) (w2 : WfStreamKey ks.remoteKey) (he : e.onActive = []) (hans : e.answers = [true])
    (hq : (oq = none ∧ ow = none) ∨ ∃ q w, oq = some q ∧ ow = some w ∧ pktSerialize q = some w) :
    tProcessHs E c p e = .ok (tActive c ks e.seed,
      (x.2.ask.map TEv.ask).toList ++ (.state .active :: (ow.map TEv.tx).toList)) := by
  have hfin : ∀ g : Option Handshake, tFinalizeIfReady E { c with pending := some hF } e =
      .ok (tActive c ks e.seed, [.state .active]) := fun _ =>
    tFinalize_ok (c := { c with pending := some hF }) rfl hs hf hc w1 w2 he
  have hvol : ∀ a b, tVolley (tActive c ks e.seed) oq a b = (tActive c ks e.seed, (ow.map TEv.tx).toList) := by
    intro a b
    rcases hq with ⟨h1, h2⟩ | ⟨q, w, h1, h2, h3⟩
    · simp [tVolley, tPendingStatus, tActive, h1, h2]
    · simp [tVolley, tPendingStatus, tActive, h1, h2, h3]
  obtain ⟨g, o⟩ := x
  have hunf : tProcessHs E c p e = (tAsk E { c with pending := some g } o.ask e).bind fun x =>
      (tFinalizeIfReady E x.1 e).bind fun y =>
        let z := tVolley y.1 o.send .processHandshakeFailed .packetSerializationFailed
        .ok (z.1, x.2 ++ (y.2 ++ z.2)) := by
    unfold tProcessHs
    rcases hp with hp | ⟨hp, hh⟩
    · simp only [hp, hx, Res.bind]
    · simp only [hp, hh, hx, Res.bind]
  rw [hunf]
  unfold accept at ha
  cases hask : o.ask with
  | none =>
    simp only [hask] at ha
    cases ha
    simp only [tAsk, Res.bind, hfin none, hvol]
    simp
  | some d =>
    simp only [hask] at ha hn
    have hsend : o.send = none := hn rfl
    simp only [tAsk, hans, tAnswers, tAnswer, ha, hfin none, Res.bind, hvol, hsend]
    have hr : tFinalizeIfReady E (tActive c ks e.seed) e = .ok (tActive c ks e.seed, []) := by
      simp [tFinalizeIfReady, tPendingStatus, tActive]
    simp only [hr]
    simp [tVolley, tPendingStatus, tActive]

theorem handshake_isHandshake {p : Packet} (h : ∃ m, handshakeFromPacket p = some m) : isHandshakePkt p = true := by
  obtain ⟨m, h⟩ := h
  unfold handshakeFromPacket at h
  unfold isHandshakePkt
  split at h
  next hb => rw [hb]
  · cases h

/-- What a context was told about its peer can be copied. -/
def Spec.Copyable (c : Option Chain) : Prop := ∀ d, c = some d → chainCopy d = some d

/-- C34, the handshake.  Two contexts with genuine, copyable chains, each with or without the other's
identity; the packets arrive and the applications accept what they are asked.  Both become ACTIVE, and
the key either sends with is the key the other receives with. -/
theorem C34_contexts_connect (E : Engine) (hE : E.Lawful) (cA cB : Chain) (hA : Party E cA) (hB : Party E cB)
    (remA remB : Option Chain) (hrA : Expects E remA cB) (hrB : Expects E remB cA)
    (kA : chainCopy cA = some cA) (kB : chainCopy cB = some cB) (kRA : Copyable remA) (kRB : Copyable remB)
    (evoA evoB : UInt32) (a b : TCtx) (ha : tCreate cA remA evoA = some a) (hb : tCreate cB remB evoB = some b)
    (ra : HsRand) (ea eb : TEnv) (hea : E.KeyPair ra.eph) (heb : E.KeyPair eb.hs.eph) (hsec : eb.hs.secret.length = 32)
    (hiv : eb.hs.iv.length = 12) (ans : ea.answers = [true] ∧ eb.answers = [true])
    (act : ea.onActive = [] ∧ eb.onActive = []) :
    ∃ w0 w1 a0 a1 b1 ka kb ask ask',
      tRun E a [.start ra] = .ok (a0, [.state .initialHandshake, .tx w0]) ∧
      tRun E b [.recv (some w0) eb] = .ok (b1, ask ++ [.state .active, .tx w1]) ∧
      tRun E a0 [.recv (some w1) ea] = .ok (a1, ask' ++ [.state .active]) ∧
      WfStreamKey ka ∧ WfStreamKey kb ∧
      a1.status = .active ∧ a1.tx = some ⟨ka, some ⟨ka.cipherKey.cipher, ea.seed, 0⟩, 0, .encode, 1⟩ ∧
      a1.rx = some ⟨kb, none, 0, .decode, 1⟩ ∧ a1.pending = none ∧
      b1.status = .active ∧ b1.tx = some ⟨kb, some ⟨kb.cipherKey.cipher, eb.seed, 0⟩, 0, .encode, 1⟩ ∧
      b1.rx = some ⟨ka, none, 0, .decode, 1⟩ ∧ b1.pending = none := by
  -- the handshakes the contexts create
  have evo : ∀ {c : Chain} {r : Option Chain} {v : UInt32} {t : TCtx}, tCreate c r v = some t →
      t.evo ≠ 0 ∧ t.evo.toNat ≤ 32768 := by
    intro c r v t h
    unfold tCreate at h
    split at h
    · cases h
    next hn =>
    cases h
    simp only
    split
    · exact ⟨by decide, by decide⟩
    next hz =>
      refine ⟨hz, ?_⟩
      have : ¬ v > ppeMax := fun hg => hn ⟨hz, hg⟩
      rw [gt_iff_lt, UInt32.lt_iff_toNat_lt] at this
      have h2 : ppeMax.toNat = 32768 := rfl
      omega
  obtain ⟨va0, va1⟩ := evo ha
  obtain ⟨vb0, vb1⟩ := evo hb
  have eqA : a = ⟨none, none, cA, remA, .fresh, a.evo, none, .noError⟩ := by rw [tCreate_eq ha]
  have eqB : b = ⟨none, none, cB, remB, .fresh, b.evo, none, .noError⟩ := by rw [tCreate_eq hb]
  clear ha hb
  obtain ⟨vA, hvA⟩ : ∃ v, v = a.evo := ⟨_, rfl⟩
  obtain ⟨vB, hvB⟩ : ∃ v, v = b.evo := ⟨_, rfl⟩
  rw [← hvA] at eqA va0 va1
  rw [← hvB] at eqB vb0 vb1
  clear hvA hvB
  subst eqA eqB
  have copyR : ∀ {r : Option Chain}, Copyable r → r.bind chainCopy = r := by
    intro r h
    cases r with
    | none => rfl
    | some d => exact h d rfl
  have hcA : hsCreate cA remA vA = some ⟨cA, remA, none, none, .unknown, none, none, none, false, vA⟩ := by
    simp [hsCreate, va0]
  have hcB : hsCreate cB remB vB = some ⟨cB, remB, none, none, .unknown, none, none, none, false, vB⟩ := by
    simp [hsCreate, vb0]
  obtain ⟨w0, w1, dA, dB, q0, q0', q1, q1', x, z, l0, l1, hstart, b2, b3, b5, hx1, hx2, hx3, c2, c3, c5, hz1, hz2, hz3⟩ :=
    honest_steps E hE cA cB hA hB remA remB hrA hrB vA vB _ _ hcA hcB ra ea.hs eb.hs hea heb hsec hiv
  have hb1 : 1 ≤ vB.toNat := by
    apply Nat.pos_of_ne_zero
    intro h0; exact vb0 (UInt32.toNat_inj.1 h0)
  obtain ⟨s, k', f1, f2, f3, f4, f5, f6, f7, f8, f9, f10, f11⟩ := derive_ok hE ⟨eb.hs.secret, .gcm, vB, vB⟩ hsec
    ⟨⟨hb1, vb1⟩, hb1, vb1⟩ l0 l1
  have wf1 : WfStreamKey s := ⟨by rw [f1]; rfl, f3, f5, by rw [f7]; exact ⟨hb1, vb1⟩, by simp [f9]⟩
  have wf2 : WfStreamKey k' := ⟨by rw [f2]; rfl, f4, f6, by rw [f8]; exact ⟨hb1, vb1⟩, by simp [f10]⟩
  have hdA : hsFinalize E ⟨cA, some dB, some w0, some w1, .pendingFinalization, some ra.eph,
        some ⟨eb.hs.secret, .gcm, vB, vB⟩, none, true, vA⟩ = (⟨cA, some dB, some w0, some w1, .complete, some ra.eph,
        some ⟨eb.hs.secret, .gcm, vB, vB⟩, none, true, vA⟩, some ⟨s, k'⟩) := by
    simp [hsFinalize, f11 ⟨cA, some dB, some w0, some w1, .pendingFinalization, some ra.eph,
        some ⟨eb.hs.secret, .gcm, vB, vB⟩, none, true, vA⟩ rfl rfl]
  have hdB : hsFinalize E ⟨cB, some dA, some w0, some w1, .pendingFinalization, none,
        some ⟨eb.hs.secret, .gcm, vB, vB⟩, none, false, vB⟩ = (⟨cB, some dA, some w0, some w1, .complete, none,
        some ⟨eb.hs.secret, .gcm, vB, vB⟩, none, false, vB⟩, some ⟨k', s⟩) := by
    simp [hsFinalize, f11 ⟨cB, some dA, some w0, some w1, .pendingFinalization, none,
        some ⟨eb.hs.secret, .gcm, vB, vB⟩, none, false, vB⟩ rfl rfl]
  let a0 : TCtx := ⟨none, none, cA, remA, .initialHandshake, vA,
    some ⟨cA, remA, some w0, none, .inProgress, some ra.eph, none, none, true, vA⟩, .noError⟩
  let b0 : TCtx := ⟨none, none, cB, remB, .fresh, vB, none, .noError⟩
  have sA : tRun E ⟨none, none, cA, remA, .fresh, vA, none, .noError⟩ [.start ra] =
      .ok (a0, [.state .initialHandshake, .tx w0]) := by
    simp [tRun, TOp.step, tStart, tCreateHandshake, kA, copyR kRA, hcA, hstart, b2, tUpdate, Res.bind, a0]
  have pB := tProcessHs_ok (E := E) (c := b0) (h := ⟨cB, remB, none, none, .unknown, none, none, none, false, vB⟩) (p := q0')
    (e := eb) (ow := some w1) (.inr ⟨rfl, by simp [tCreateHandshake, b0, kB, copyR kRB, hcB]⟩) hx1 hx2 hx3 rfl hdB (by simp [b0])
    wf2 wf1 act.2 ans.2 (.inr ⟨q1, w1, rfl, rfl, c2⟩)
  have pA := tProcessHs_ok (E := E) (c := a0) (p := q1')
    (e := ea) (ow := none) (.inl rfl) hz1 hz2 hz3 rfl hdA (by simp [a0])
    wf1 wf2 act.1 ans.1 (.inl ⟨rfl, rfl⟩)
  refine ⟨w0, w1, a0, tActive a0 ⟨s, k'⟩ ea.seed, tActive b0 ⟨k', s⟩ eb.seed, s, k', (x.2.ask.map TEv.ask).toList,
    (z.2.ask.map TEv.ask).toList, sA, ?_, ?_, wf1, wf2, rfl, rfl, rfl, rfl, rfl, rfl, rfl, rfl⟩
  · simp only [tRun, TOp.step, tRecv, reduceCtorEq, if_false, b3, tCanHandshake, handshake_isHandshake b5]
    have : tProcessHs E ⟨none, none, cB, remB, .fresh, vB, none, .noError⟩ q0' eb = _ := pB
    simp [this, Res.bind]
  · simp only [tRun, TOp.step, tRecv, a0, reduceCtorEq, if_false, c3, tCanHandshake, handshake_isHandshake c5]
    have : tProcessHs E ⟨none, none, cA, remA, .initialHandshake, vA,
      some ⟨cA, remA, some w0, none, .inProgress, some ra.eph, none, none, true, vA⟩, .noError⟩ q1' ea = _ := pA
    simp [this, Res.bind, a0]

/-! ### Data traffic -/

/-- `w` is a packet that carries `d` under number `s` of the stream with initial key `k`. -/
def Carries (E : Engine) (k : StreamKey) (s : UInt64) (d w : Bytes) : Prop :=
  ∃ r p, pktFromBuffer w = some p ∧ p.hdr = metaInitData s macAuthCipher ∧ cipherResultFromBuffer p.body = some r ∧
    E.decrypt r (some (pktMetaSerialize (metaInitData s macAuthCipher))) (evoKeyObj E k (epoch k s)).cipherKey true = some d

structure TxState (E : Engine) (k : StreamKey) (t : StreamCtx) : Prop where
  inv : StreamInv E k t
  dir : t.dir = .encode
  iv : ∃ f, t.iv = some f ∧ f.cipher = .gcm

structure RxState (E : Engine) (k : StreamKey) (t : StreamCtx) : Prop where
  inv : StreamInv E k t
  dir : t.dir = .decode

theorem tSend_ok {E : Engine} (hE : E.Lawful) {k : StreamKey} (hw : WfStreamKey k) {t : StreamCtx} (ht : TxState E k t)
    (hs : t.lastSeq.toNat + 1 < 2 ^ 64) {d : Bytes} (hd : 0 < d.length ∧ d.length + 38 ≤ maxBuffer) {c : TCtx}
    (hc : c.status = .active) (hx : c.tx = some t) :
    ∃ t' w, tSend E c (some d) = .ok ({ c with tx := some t' }, [.tx w]) ∧ TxState E k t' ∧
      t'.lastSeq.toNat = t.lastSeq.toNat + 1 ∧ Carries E k t'.lastSeq d w := by
  obtain ⟨f, hf, hfg⟩ := ht.iv
  have hlt : (t.lastSeq + 1).toNat = t.lastSeq.toNat + 1 := by
    rw [UInt64.toNat_add]; exact Nat.mod_eq_of_lt hs
  have hseq : t.lastSeq < t.lastSeq + 1 := by rw [UInt64.lt_iff_toNat_lt]; omega
  obtain ⟨s, hsd⟩ : ∃ s, s = t.lastSeq + 1 := ⟨_, rfl⟩
  rw [← hsd] at hlt hseq
  have hauth : ∀ c : Cipher, c.isAuth = true → c = .gcm := by intro c h; cases c <;> simp_all [Cipher.isAuth]
  have hkc : k.cipherKey.cipher = .gcm := hauth _ hw.auth
  have hkw := evoKeyObj_wf hE (epoch k s) hw
  obtain ⟨hm, -, hl, hee⟩ := streamEncode_eq hE hw ht.inv hf ht.dir hseq d
    (some (pktMetaSerialize (metaInitData s macAuthCipher)))
  have hiv : (hm.take f.cipher.ivLen).length = (evoKeyObj E k (epoch k s)).cipherKey.cipher.ivLen := by
    have : (evoKeyObj E k (epoch k s)).cipherKey.cipher = .gcm := hkc
    rw [this, hfg, List.length_take, hl]; rfl
  obtain ⟨r, ct, hr1, hr2, hr3, hr4, hr5, hr6, hdec⟩ := hE.enc_dec d
    (some (pktMetaSerialize (metaInitData s macAuthCipher))) (evoKeyObj E k (epoch k s)).cipherKey
    (hm.take f.cipher.ivLen) hd.1 (by omega) (by rw [keyLen_32]; exact hkw.key) hiv (fun _ => hkw.auth)
  have hrc : r.cipher = .gcm := by rw [hr2]; exact hkc
  obtain ⟨i1, i2, i3⟩ := hr4
  have i1' := i1
  have i2' := i2
  rw [hrc] at i1' i2'
  simp only [Cipher.isAuth, if_true] at i2'
  obtain ⟨tg, htg, htl⟩ := i2'
  have hlen : (cipherResultLayout r).length = d.length + 29 := by
    simp only [Cipher.ivLen, Cipher.tagLen] at i1' htl
    simp [cipherResultLayout, htg, hr5, opt, i1', htl, hr6]; omega
  obtain ⟨e1, e2⟩ := C10_cipher_result_round_trip r ⟨i1, i2, i3⟩ (by omega)
  have hwp : WfPacket (pktCreate (metaInitData s macAuthCipher) (cipherResultLayout r)) := by
    refine ⟨by simp [pktCreate, metaInitData, macAuthCipher], ?_, ?_⟩
    · intro h0
      have h1 : cipherResultLayout r = [] := h0
      rw [h1] at hlen; simp at hlen
    · rw [if_neg (by simp [pktCreate, metaInitData, macAuthCipher, macP521])]; rfl
  have hle : ∀ x : UInt64, (le64 x).length = 8 := by intro x; simp [le64]
  obtain ⟨p1, p2⟩ := C14_packet_round_trip _ hwp (by
    simp [pktLayout, pktCreate, metaInitData, pktHeaderLayout, opt, hlen, hle]; omega)
  refine ⟨{ t with iv := some { f with count := f.count + 1 }, key := evoKeyObj E k (epoch k s), lastSeq := s },
    pktLayout (pktCreate (metaInitData s macAuthCipher) (cipherResultLayout r)), ?_, ⟨⟨rfl⟩, ht.dir, _, rfl, hfg⟩, hlt, ?_⟩
  · simp [tSend, hc, hx, tEncode, ← hsd, hee, hr1, e1, p1]
  · exact ⟨r, _, p2, rfl, e2, hdec true (fun _ => hkw.auth)⟩

theorem tRecv_ok {E : Engine} (hE : E.Lawful) {k : StreamKey} (hw : WfStreamKey k) {t : StreamCtx} (ht : RxState E k t)
    {s : UInt64} {d w : Bytes} (hc : Carries E k s d w) (hs : t.lastSeq < s) {c : TCtx}
    (hst : c.status = .active) (hx : c.rx = some t) (e : TEnv) :
    ∃ t', tRecv E c (some w) e = .ok ({ c with rx := some t' }, [.rx d]) ∧ RxState E k t' ∧ t'.lastSeq = s := by
  obtain ⟨r, p, h1, h2, h3, h4⟩ := hc
  refine ⟨{ t with key := evoKeyObj E k (epoch k s), lastSeq := s }, ?_, ⟨⟨rfl⟩, ht.dir⟩, rfl⟩
  have hn : isHandshakePkt p = false := by simp [isHandshakePkt, h2, metaInitData]
  have hd := streamDecode_eq hE hw ht.inv ht.dir hs r (some (pktMetaSerialize (metaInitData s macAuthCipher)))
  have hq : pktSeq p e.junk = s := by simp [pktSeq, h2, metaInitData]
  have ht : tDecode E t p e.junk =
      ({ t with key := evoKeyObj E k (epoch k s), lastSeq := s }, some d) := by
    simp only [tDecode, h3, hq, h2, hd, h4]
    simp [metaInitData]
  simp [tRecv, hst, h1, hn, hx, ht]

/-! ### Two contexts and the network between them -/

/-- Two contexts, the packets under way in either direction, what either application was handed, and
every other callback invocation. -/
structure Net where
  a : TCtx
  b : TCtx
  ab : List Bytes
  ba : List Bytes
  gotA : List Bytes
  gotB : List Bytes
  other : List TEv

/-- What happens: an application sends, the network delivers or loses the oldest packet (`true` is the
direction from A to B). -/
inductive NetOp where
  | send (toB : Bool) (d : Bytes)
  | deliver (toB : Bool) (e : TEnv)
  | lose (toB : Bool)

def txOf (evs : List TEv) : List Bytes := evs.filterMap fun | .tx w => some w | _ => none
def rxOf (evs : List TEv) : List Bytes := evs.filterMap fun | .rx d => some d | _ => none
def otherOf (evs : List TEv) : List TEv := evs.filterMap fun | .tx _ => none | .rx _ => none | e => some e

/-- A call on context A or B and its callbacks. -/
def Net.callA (E : Engine) (n : Net) (op : TOp) : Res Net :=
  (op.step E n.a).bind fun x => .ok { n with
    a := x.1, ab := n.ab ++ txOf x.2, gotA := n.gotA ++ rxOf x.2, other := n.other ++ otherOf x.2 }
def Net.callB (E : Engine) (n : Net) (op : TOp) : Res Net :=
  (op.step E n.b).bind fun x => .ok { n with
    b := x.1, ba := n.ba ++ txOf x.2, gotB := n.gotB ++ rxOf x.2, other := n.other ++ otherOf x.2 }

def NetOp.step (E : Engine) (n : Net) : NetOp → Res Net
  | .send true d => n.callA E (.send (some d))
  | .send false d => n.callB E (.send (some d))
  | .deliver true e =>
    match n.ab with
    | [] => .ok n
    | w :: ws => { n with ab := ws }.callB E (.recv (some w) e)
  | .deliver false e =>
    match n.ba with
    | [] => .ok n
    | w :: ws => { n with ba := ws }.callA E (.recv (some w) e)
  | .lose true => .ok { n with ab := n.ab.drop 1 }
  | .lose false => .ok { n with ba := n.ba.drop 1 }

def netRun (E : Engine) (n : Net) : List NetOp → Res Net
  | [] => .ok n
  | op :: ops => (op.step E n).bind fun n => netRun E n ops

/-! The specification: a queue of messages that loses from the front. -/

/-- Messages under way and messages delivered. -/
structure Spec.Fifo where
  flying : List Bytes
  got : List Bytes

def Spec.Fifo.step (toB : Bool) (f : Spec.Fifo) : NetOp → Spec.Fifo
  | .send x d => if x = toB then ⟨f.flying ++ [d], f.got⟩ else f
  | .deliver x _ => if x = toB then ⟨f.flying.drop 1, f.got ++ f.flying.take 1⟩ else f
  | .lose x => if x = toB then ⟨f.flying.drop 1, f.got⟩ else f

def Spec.fifo (toB : Bool) (ops : List NetOp) : Spec.Fifo := ops.foldl (Spec.Fifo.step toB) ⟨[], []⟩

def Spec.sendsTo (toB : Bool) (ops : List NetOp) : List Bytes := ops.filterMap fun
  | .send x d => if x = toB then some d else none
  | _ => none

/-- One direction: the two streams, the packets under way and the messages they stand for. -/
structure Link (E : Engine) (k : StreamKey) (tx rx : Option StreamCtx) (q : List Bytes) (fl : List Bytes) (n : Nat) : Prop where
  ex : ∃ t r, tx = some t ∧ rx = some r ∧ TxState E k t ∧ RxState E k r ∧ t.lastSeq.toNat = n ∧ r.lastSeq ≤ t.lastSeq ∧
    ∃ l : List (UInt64 × Bytes × Bytes), q = l.map (fun x => x.2.2) ∧ fl = l.map (fun x => x.2.1) ∧
      l.Pairwise (fun x y => x.1 < y.1) ∧ ∀ x ∈ l, Carries E k x.1 x.2.1 x.2.2 ∧ r.lastSeq < x.1 ∧ x.1 ≤ t.lastSeq

theorem Link.lose {E : Engine} {k : StreamKey} {tx rx : Option StreamCtx} {q fl : List Bytes} {n : Nat}
    (h : Link E k tx rx q fl n) : Link E k tx rx (q.drop 1) (fl.drop 1) n := by
  obtain ⟨t, r, h1, h2, h3, h4, h5, h6, l, h7, h8, h9, h10⟩ := h.ex
  refine ⟨t, r, h1, h2, h3, h4, h5, h6, l.drop 1, by rw [h7, List.map_drop], by rw [h8, List.map_drop], ?_, ?_⟩
  · exact h9.sublist (List.drop_sublist 1 l)
  · intro x hx; exact h10 x (List.mem_of_mem_drop hx)

theorem Link.send {E : Engine} (hE : E.Lawful) {k : StreamKey} (hw : WfStreamKey k) {rx : Option StreamCtx}
    {q fl : List Bytes} {n : Nat} {c : TCtx} (h : Link E k c.tx rx q fl n) (hs : n + 1 < 2 ^ 64) {d : Bytes}
    (hd : 0 < d.length ∧ d.length + 38 ≤ maxBuffer) (hc : c.status = .active) :
    ∃ t' w, tSend E c (some d) = .ok ({ c with tx := some t' }, [.tx w]) ∧
      Link E k (some t') rx (q ++ [w]) (fl ++ [d]) (n + 1) := by
  obtain ⟨t, r, h1, h2, h3, h4, h5, h6, l, h7, h8, h9, h10⟩ := h.ex
  obtain ⟨t', w, a1, a2, a3, a4⟩ := tSend_ok hE hw h3 (by omega) hd hc h1
  have hlt : t.lastSeq < t'.lastSeq := by rw [UInt64.lt_iff_toNat_lt]; omega
  refine ⟨t', w, a1, t', r, rfl, h2, a2, h4, by omega, UInt64.le_of_lt (UInt64.lt_of_le_of_lt h6 hlt),
    l ++ [(t'.lastSeq, d, w)], by simp [h7], by simp [h8], ?_, ?_⟩
  · rw [List.pairwise_append]
    refine ⟨h9, by simp, ?_⟩
    intro x hx y hy
    rw [List.mem_singleton] at hy; subst hy
    exact UInt64.lt_of_le_of_lt (h10 x hx).2.2 hlt
  · intro x hx
    rcases List.mem_append.1 hx with hx | hx
    · obtain ⟨b1, b2, b3⟩ := h10 x hx
      exact ⟨b1, b2, UInt64.le_of_lt (UInt64.lt_of_le_of_lt b3 hlt)⟩
    · rw [List.mem_singleton] at hx; subst hx
      exact ⟨a4, UInt64.lt_of_le_of_lt h6 hlt, UInt64.le_refl _⟩

theorem Link.deliver {E : Engine} (hE : E.Lawful) {k : StreamKey} (hw : WfStreamKey k) {tx : Option StreamCtx}
    {w : Bytes} {q fl : List Bytes} {n : Nat} {c : TCtx} (h : Link E k tx c.rx (w :: q) fl n) (hc : c.status = .active)
    (e : TEnv) :
    ∃ d r', fl = d :: fl.drop 1 ∧ tRecv E c (some w) e = .ok ({ c with rx := some r' }, [.rx d]) ∧
      Link E k tx (some r') q (fl.drop 1) n := by
  obtain ⟨t, r, h1, h2, h3, h4, h5, h6, l, h7, h8, h9, h10⟩ := h.ex
  cases l with
  | nil => simp at h7
  | cons x l =>
    obtain ⟨s, d, w'⟩ := x
    simp only [List.map_cons, List.cons.injEq] at h7 h8
    obtain ⟨rfl, h7⟩ := h7
    obtain ⟨b1, b2, b3⟩ := h10 _ (List.mem_cons_self ..)
    obtain ⟨r', a1, a2, a3⟩ := tRecv_ok hE hw h4 b1 b2 hc h2 e
    rw [List.pairwise_cons] at h9
    refine ⟨d, r', by rw [h8]; rfl, a1, t, r', h1, rfl, h3, a2, h5, by rw [a3]; exact b3, l, h7, by rw [h8]; rfl, h9.2, ?_⟩
    intro y hy
    obtain ⟨c1, c2, c3⟩ := h10 y (List.mem_cons_of_mem _ hy)
    exact ⟨c1, by rw [a3]; exact h9.1 y hy, c3⟩

theorem Link.nil {E : Engine} {k : StreamKey} {tx rx : Option StreamCtx} {fl : List Bytes} {n : Nat}
    (h : Link E k tx rx [] fl n) : fl = [] := by
  obtain ⟨t, r, h1, h2, h3, h4, h5, h6, l, h7, h8, h9, h10⟩ := h.ex
  have : l = [] := by simpa using h7.symm
  rw [h8, this]; rfl

/-- The network refines two lossy queues. -/
structure NetInv (E : Engine) (ka kb : StreamKey) (n : Net) (fa fb : Spec.Fifo) (i j : Nat) : Prop where
  sa : n.a.status = .active
  sb : n.b.status = .active
  la : Link E ka n.a.tx n.b.rx n.ab fa.flying i
  lb : Link E kb n.b.tx n.a.rx n.ba fb.flying j
  ga : n.gotB = fa.got
  gb : n.gotA = fb.got
  ot : n.other = []

theorem netInv_step {E : Engine} (hE : E.Lawful) {ka kb : StreamKey} (hka : WfStreamKey ka) (hkb : WfStreamKey kb)
    {n : Net} {fa fb : Spec.Fifo} {i j : Nat} (h : NetInv E ka kb n fa fb i j) (op : NetOp)
    (hd : ∀ x d, op = .send x d → 0 < d.length ∧ d.length + 38 ≤ maxBuffer)
    (hi : i + (sendsTo true [op]).length < 2 ^ 64) (hj : j + (sendsTo false [op]).length < 2 ^ 64) :
    ∃ n', op.step E n = .ok n' ∧ NetInv E ka kb n' (fa.step true op) (fb.step false op)
      (i + (sendsTo true [op]).length) (j + (sendsTo false [op]).length) := by
  obtain ⟨sa, sb, la, lb, ga, gb, ot⟩ := h
  cases op with
  | lose x =>
    cases x
    · exact ⟨_, rfl, sa, sb, la, lb.lose, ga, gb, ot⟩
    · exact ⟨_, rfl, sa, sb, la.lose, lb, ga, gb, ot⟩
  | send x d =>
    cases x
    · obtain ⟨t', w, h1, h2⟩ := lb.send hE hkb (by simpa [sendsTo] using hj) (hd _ _ rfl) sb
      refine ⟨{ n with b := { n.b with tx := some t' }, ba := n.ba ++ txOf [.tx w], gotB := n.gotB ++ rxOf [.tx w], other := n.other ++ otherOf [.tx w] }, by simp only [NetOp.step, Net.callB, TOp.step, h1, Res.bind], sa, ?_, ?_, ?_, ?_, ?_, ?_⟩
      · exact sb
      · simpa [Spec.Fifo.step, sendsTo] using la
      · simpa [Spec.Fifo.step, sendsTo, txOf] using h2
      · simpa [Spec.Fifo.step, rxOf] using ga
      · simpa [Spec.Fifo.step, rxOf] using gb
      · simpa [otherOf] using ot
    · obtain ⟨t', w, h1, h2⟩ := la.send hE hka (by simpa [sendsTo] using hi) (hd _ _ rfl) sa
      refine ⟨{ n with a := { n.a with tx := some t' }, ab := n.ab ++ txOf [.tx w], gotA := n.gotA ++ rxOf [.tx w], other := n.other ++ otherOf [.tx w] }, by simp only [NetOp.step, Net.callA, TOp.step, h1, Res.bind], ?_, sb, ?_, ?_, ?_, ?_, ?_⟩
      · exact sa
      · simpa [Spec.Fifo.step, sendsTo, txOf] using h2
      · simpa [Spec.Fifo.step, sendsTo] using lb
      · simpa [Spec.Fifo.step, rxOf] using ga
      · simpa [Spec.Fifo.step, rxOf] using gb
      · simpa [otherOf] using ot
  | deliver x e =>
    cases x
    · cases hq : n.ba with
      | nil =>
        rw [hq] at lb
        have hf := lb.nil
        refine ⟨n, by simp only [NetOp.step, hq], sa, sb, la, ?_, ga, ?_, ot⟩
        · rw [hq]; simpa [Spec.Fifo.step, hf, sendsTo] using lb
        · simpa [Spec.Fifo.step, hf] using gb
      | cons w ws =>
        rw [hq] at lb
        obtain ⟨d, r', h1, h2, h3⟩ := lb.deliver hE hkb sa e
        refine ⟨{ n with a := { n.a with rx := some r' }, ba := ws, ab := n.ab ++ txOf [.rx d], gotA := n.gotA ++ rxOf [.rx d], other := n.other ++ otherOf [.rx d] }, by simp only [NetOp.step, hq, Net.callA, TOp.step, h2, Res.bind], ?_, sb, ?_, ?_, ?_, ?_, ?_⟩
        · exact sa
        · simpa [Spec.Fifo.step, sendsTo, txOf] using la
        · simpa [Spec.Fifo.step, sendsTo] using h3
        · simpa [Spec.Fifo.step, rxOf] using ga
        · rw [Spec.Fifo.step, if_pos rfl, h1]; simp [rxOf, gb]
        · simpa [otherOf] using ot
    · cases hq : n.ab with
      | nil =>
        rw [hq] at la
        have hf := la.nil
        refine ⟨n, by simp only [NetOp.step, hq], sa, sb, ?_, lb, ?_, gb, ot⟩
        · rw [hq]; simpa [Spec.Fifo.step, hf, sendsTo] using la
        · simpa [Spec.Fifo.step, hf] using ga
      | cons w ws =>
        rw [hq] at la
        obtain ⟨d, r', h1, h2, h3⟩ := la.deliver hE hka sb e
        refine ⟨{ n with b := { n.b with rx := some r' }, ab := ws, ba := n.ba ++ txOf [.rx d], gotB := n.gotB ++ rxOf [.rx d], other := n.other ++ otherOf [.rx d] }, by simp only [NetOp.step, hq, Net.callB, TOp.step, h2, Res.bind], sa, ?_, ?_, ?_, ?_, ?_, ?_⟩
        · exact sb
        · simpa [Spec.Fifo.step, sendsTo] using h3
        · simpa [Spec.Fifo.step, sendsTo, txOf] using lb
        · rw [Spec.Fifo.step, if_pos rfl, h1]; simp [rxOf, ga]
        · simpa [Spec.Fifo.step, rxOf] using gb
        · simpa [otherOf] using ot

theorem netInv_run {E : Engine} (hE : E.Lawful) {ka kb : StreamKey} (hka : WfStreamKey ka) (hkb : WfStreamKey kb) :
    ∀ (ops : List NetOp) {n : Net} {fa fb : Spec.Fifo} {i j : Nat}, NetInv E ka kb n fa fb i j →
      (∀ x d, .send x d ∈ ops → 0 < d.length ∧ d.length + 38 ≤ maxBuffer) →
      i + (sendsTo true ops).length < 2 ^ 64 → j + (sendsTo false ops).length < 2 ^ 64 →
      ∃ n' i' j', netRun E n ops = .ok n' ∧
        NetInv E ka kb n' (ops.foldl (Spec.Fifo.step true) fa) (ops.foldl (Spec.Fifo.step false) fb) i' j' := by
  intro ops
  induction ops with
  | nil => intro n fa fb i j h _ _ _; exact ⟨n, i, j, rfl, h⟩
  | cons op ops ih =>
    intro n fa fb i j h hd hi hj
    have split : ∀ b, (sendsTo b (op :: ops)).length = (sendsTo b [op]).length + (sendsTo b ops).length := by
      intro b
      have : op :: ops = [op] ++ ops := rfl
      rw [this, sendsTo, List.filterMap_append, List.length_append]; rfl
    rw [split] at hi hj
    obtain ⟨n1, h1, h2⟩ := netInv_step hE hka hkb h op (fun x d he => hd x d (by rw [he]; exact List.mem_cons_self ..))
      (by omega) (by omega)
    obtain ⟨n', i', j', h3, h4⟩ := ih h2 (fun x d he => hd x d (List.mem_cons_of_mem _ he)) (by omega) (by omega)
    exact ⟨n', i', j', by simp only [netRun, h1, Res.bind, h3], h4⟩

/-- C34, the data.  Two contexts as the handshake leaves them.  Whatever the applications send and
whatever the network loses, both stay ACTIVE without any further callback, and either application is
handed exactly what a queue that loses from the front would hand over: the same bytes, in order, each
message at most once, those not lost before they were delivered.  Any number of key evolutions. -/
theorem C34_traffic_is_lossy_queue (E : Engine) (hE : E.Lawful) (a b : TCtx) (ka kb : StreamKey)
    (hka : WfStreamKey ka) (hkb : WfStreamKey kb) (seedA seedB : Bytes)
    (ha : a.status = .active) (hatx : a.tx = some ⟨ka, some ⟨ka.cipherKey.cipher, seedA, 0⟩, 0, .encode, 1⟩)
    (harx : a.rx = some ⟨kb, none, 0, .decode, 1⟩)
    (hb : b.status = .active) (hbtx : b.tx = some ⟨kb, some ⟨kb.cipherKey.cipher, seedB, 0⟩, 0, .encode, 1⟩)
    (hbrx : b.rx = some ⟨ka, none, 0, .decode, 1⟩) (ops : List NetOp)
    (hd : ∀ x d, .send x d ∈ ops → 0 < d.length ∧ d.length + 38 ≤ maxBuffer)
    (hi : ∀ x, (sendsTo x ops).length < 2 ^ 64) :
    ∃ n, netRun E ⟨a, b, [], [], [], [], []⟩ ops = .ok n ∧ n.a.status = .active ∧ n.b.status = .active ∧
      n.gotB = (fifo true ops).got ∧ n.gotA = (fifo false ops).got ∧ n.other = [] := by
  have hauth : ∀ c : Cipher, c.isAuth = true → c = .gcm := by intro c h; cases c <;> simp_all [Cipher.isAuth]
  have hz : ∀ k : StreamKey, k = evoKeyObj E k (epoch k 0) := by
    intro k
    have : epoch k 0 = 0 := Nat.zero_div _
    rw [this, evoKeyObj_zero]
  have start : NetInv E ka kb ⟨a, b, [], [], [], [], []⟩ ⟨[], []⟩ ⟨[], []⟩ 0 0 := by
    refine ⟨ha, hb, ?_, ?_, rfl, rfl, rfl⟩
    · exact ⟨_, _, hatx, hbrx, ⟨⟨hz ka⟩, rfl, _, rfl, hauth _ hka.auth⟩, ⟨⟨hz ka⟩, rfl⟩, rfl, UInt64.le_refl _, [], rfl, rfl,
        List.Pairwise.nil, by simp⟩
    · exact ⟨_, _, hbtx, harx, ⟨⟨hz kb⟩, rfl, _, rfl, hauth _ hkb.auth⟩, ⟨⟨hz kb⟩, rfl⟩, rfl, UInt64.le_refl _, [], rfl, rfl,
        List.Pairwise.nil, by simp⟩
  obtain ⟨n, i', j', h1, h2⟩ := netInv_run hE hka hkb ops start hd (by simpa using hi true) (by simpa using hi false)
  exact ⟨n, h1, h2.sa, h2.sb, h2.ga, h2.gb, h2.ot⟩

/-- What the queue hands over is, in order, a part of what was sent; with nothing lost it is a prefix. -/
theorem fifo_split (toB : Bool) : ∀ (ops : List NetOp), ((fifo toB ops).got ++ (fifo toB ops).flying).Sublist (sendsTo toB ops) ∧
    ((∀ op ∈ ops, ¬ ∃ x, op = .lose x) → (fifo toB ops).got ++ (fifo toB ops).flying = sendsTo toB ops) := by
  intro ops
  induction ops using snocInd with
  | nil => exact ⟨List.Sublist.refl _, fun _ => rfl⟩
  | snoc ops op ih =>
    obtain ⟨ih1, ih2⟩ := ih
    have e1 : fifo toB (ops ++ [op]) = (fifo toB ops).step toB op := by simp [fifo]
    have e2 : sendsTo toB (ops ++ [op]) = sendsTo toB ops ++ sendsTo toB [op] := by simp [sendsTo]
    rw [e1, e2]
    have hl : (∀ o ∈ ops ++ [op], ¬ ∃ x, o = NetOp.lose x) → (fifo toB ops).got ++ (fifo toB ops).flying = sendsTo toB ops :=
      fun h => ih2 fun o ho => h o (List.mem_append_left _ ho)
    cases op with
    | send x d =>
      by_cases hx : x = toB
      · subst hx
        simp only [Spec.Fifo.step, if_pos, sendsTo, List.filterMap_cons, List.filterMap_nil, ← List.append_assoc]
        refine ⟨ih1.append (List.Sublist.refl _), fun h => congrArg (· ++ [d]) (hl h)⟩
      · simp only [Spec.Fifo.step, if_neg hx, sendsTo, List.filterMap_cons, List.filterMap_nil, List.append_nil]
        exact ⟨ih1, hl⟩
    | deliver x e =>
      have hs : sendsTo toB [.deliver x e] = [] := rfl
      rw [hs, List.append_nil]
      by_cases hx : x = toB
      · have : ((fifo toB ops).got ++ (fifo toB ops).flying.take 1) ++ (fifo toB ops).flying.drop 1 =
          (fifo toB ops).got ++ (fifo toB ops).flying := by rw [List.append_assoc, List.take_append_drop]
        simp only [Spec.Fifo.step, if_pos hx, this]
        exact ⟨ih1, hl⟩
      · simp only [Spec.Fifo.step, if_neg hx]
        exact ⟨ih1, hl⟩
    | lose x =>
      have hs : sendsTo toB [.lose x] = [] := rfl
      rw [hs, List.append_nil]
      refine ⟨?_, fun h => absurd ⟨x, rfl⟩ (h (.lose x) (by simp))⟩
      by_cases hx : x = toB
      · simp only [Spec.Fifo.step, if_pos hx]
        exact ((List.Sublist.refl _).append (List.drop_sublist 1 _)).trans ih1
      · simp only [Spec.Fifo.step, if_neg hx]
        exact ih1

/-- C34: two applications create contexts with genuine chains, each expecting the other or nobody in
particular, connect over a network that keeps order and accept what they are asked.  Then both are
ACTIVE, and from there every exchange of messages over a network that loses packets but keeps their
order delivers, in either direction, unaltered messages in the order sent; without loss, all those that
have arrived.  Neither context reports anything. -/
theorem C34_end_to_end (E : Engine) (hE : E.Lawful) (cA cB : Chain) (hA : Party E cA) (hB : Party E cB)
    (remA remB : Option Chain) (hrA : Expects E remA cB) (hrB : Expects E remB cA)
    (kA : chainCopy cA = some cA) (kB : chainCopy cB = some cB) (kRA : Copyable remA) (kRB : Copyable remB)
    (evoA evoB : UInt32) (a b : TCtx) (ha : tCreate cA remA evoA = some a) (hb : tCreate cB remB evoB = some b)
    (ra : HsRand) (ea eb : TEnv) (hea : E.KeyPair ra.eph) (heb : E.KeyPair eb.hs.eph) (hsec : eb.hs.secret.length = 32)
    (hiv : eb.hs.iv.length = 12) (ans : ea.answers = [true] ∧ eb.answers = [true])
    (act : ea.onActive = [] ∧ eb.onActive = []) :
    ∃ w0 w1 a0 a1 b1 ask ask',
      tRun E a [.start ra] = .ok (a0, [.state .initialHandshake, .tx w0]) ∧
      tRun E b [.recv (some w0) eb] = .ok (b1, ask ++ [.state .active, .tx w1]) ∧
      tRun E a0 [.recv (some w1) ea] = .ok (a1, ask' ++ [.state .active]) ∧
      ∀ ops : List NetOp, (∀ x d, .send x d ∈ ops → 0 < d.length ∧ d.length + 38 ≤ maxBuffer) →
        (∀ x, (sendsTo x ops).length < 2 ^ 64) →
        ∃ n, netRun E ⟨a1, b1, [], [], [], [], []⟩ ops = .ok n ∧ n.a.status = .active ∧ n.b.status = .active ∧
          n.other = [] ∧ n.gotB = (fifo true ops).got ∧ n.gotA = (fifo false ops).got ∧
          n.gotB.Sublist (sendsTo true ops) ∧ n.gotA.Sublist (sendsTo false ops) ∧
          ((∀ op ∈ ops, ¬ ∃ x, op = .lose x) → n.gotB <+: sendsTo true ops ∧ n.gotA <+: sendsTo false ops) := by
  obtain ⟨w0, w1, a0, a1, b1, ka, kb, ask, ask', h1, h2, h3, wa, wb, p1, p2, p3, -, q1, q2, q3, -⟩ :=
    C34_contexts_connect E hE cA cB hA hB remA remB hrA hrB kA kB kRA kRB evoA evoB a b ha hb ra ea eb hea heb hsec hiv ans act
  refine ⟨w0, w1, a0, a1, b1, ask, ask', h1, h2, h3, ?_⟩
  intro ops hd hi
  obtain ⟨n, r1, r2, r3, r4, r5, r6⟩ :=
    C34_traffic_is_lossy_queue E hE a1 b1 ka kb wa wb ea.seed eb.seed p1 p2 p3 q1 q2 q3 ops hd hi
  obtain ⟨t1, t2⟩ := fifo_split true ops
  obtain ⟨f1, f2⟩ := fifo_split false ops
  refine ⟨n, r1, r2, r3, r6, r4, r5, ?_, ?_, fun hl => ⟨?_, ?_⟩⟩
  · rw [r4]; exact (List.sublist_append_left _ _).trans t1
  · rw [r5]; exact (List.sublist_append_left _ _).trans f1
  · rw [r4]; exact ⟨_, t2 hl⟩
  · rw [r5]; exact ⟨_, f2 hl⟩

/-- The hypotheses hold for the toy parties. -/
example : ∃ w0 w1 a0 a1 b1 ask ask',
      tRun toyEngine toyInit [.start toyRand] = .ok (a0, [.state .initialHandshake, .tx w0]) ∧
      tRun toyEngine toyResp [.recv (some w0) (toyEnv [true])] = .ok (b1, ask ++ [.state .active, .tx w1]) ∧
      tRun toyEngine a0 [.recv (some w1) (toyEnv [true])] = .ok (a1, ask' ++ [.state .active]) ∧
      ∃ n, netRun toyEngine ⟨a1, b1, [], [], [], [], []⟩ [.send true [1], .send true [2, 2], .send false [3], .lose true,
        .deliver true (toyEnv []), .deliver false (toyEnv [])] = .ok n ∧ n.gotB = [[2, 2]] ∧ n.gotA = [[3]] := by
  obtain ⟨w0, w1, a0, a1, b1, ask, ask', h1, h2, h3, h4⟩ :=
    C34_end_to_end toyEngine toyEngine_lawful toyChain toyPeer toyChain_party toyPeer_party none none
      (by intro _ h; cases h) (by intro _ h; cases h) (by decide +kernel) (by decide +kernel) (by simp [Copyable]) (by simp [Copyable])
      0 0 toyInit toyResp (by decide) (by decide) toyRand (toyEnv [true]) (toyEnv [true]) (toyKey_pair 11 (by decide))
      (toyKey_pair 13 (by decide)) (by decide) (by decide) ⟨rfl, rfl⟩ ⟨rfl, rfl⟩
  refine ⟨w0, w1, a0, a1, b1, ask, ask', h1, h2, h3, ?_⟩
  obtain ⟨n, r1, r2, r3, r4, r5, r6, -⟩ := h4 [.send true [1], .send true [2, 2], .send false [3], .lose true,
        .deliver true (toyEnv []), .deliver false (toyEnv [])] (by
    have := maxBuffer_val
    intro x d h
    simp only [List.mem_cons, NetOp.send.injEq, reduceCtorEq, List.not_mem_nil, or_false, false_or] at h
    rcases h with ⟨-, rfl⟩ | ⟨-, rfl⟩ | ⟨-, rfl⟩ <;> simp <;> omega) (by
    intro x; cases x <;> decide)
  exact ⟨n, r1, r5, r6⟩

/-- C34, limit: the order must be kept.  A data packet whose number is not larger than the last one
received puts an ACTIVE context into ERROR, even if it is genuine. -/
theorem C34_reordering_is_fatal (E : Engine) (c : TCtx) (r : StreamCtx) (w : Bytes) (p : Packet) (s : UInt64) (e : TEnv)
    (hc : c.status = .active) (hr : c.rx = some r) (hp : pktFromBuffer w = some p) (hs : p.hdr.body = .data s)
    (hold : s ≤ r.lastSeq) :
    ∃ c', tRecv E c (some w) e = .ok (c', [.state .error]) ∧ c'.status = .error := by
  have hn : isHandshakePkt p = false := by simp [isHandshakePkt, hs]
  have hq : pktSeq p e.junk = s := by simp [pktSeq, hs]
  have hd : (tDecode E r p e.junk).2 = none := by
    unfold tDecode
    split
    · rfl
    · split
      · rfl
      · rw [hq, streamDecode_refused (.inl hold)]
  exact ⟨{ c with rx := some (tDecode E r p e.junk).1, status := .error, err := .packetDecodeFailed },
    by simp [tRecv, hc, hp, hn, hr, hd, tError, tUpdate], rfl⟩

/-- C34, limit: what the responder sends inside `on_state(ACTIVE)` leaves before the handshake's last
packet, so that the initiator, receiving both in order, ends in ERROR. -/
theorem C34_data_inside_active_callback : ∃ (wd w1 : Bytes) (b1 : TCtx) (ask : Chain),
    tRun toyEngine toyResp [.recv (some toySeedWire) { toyEnv [true] with onActive := [[7]] }] =
      .ok (b1, [.ask ask, .state .active, .tx wd, .tx w1]) ∧
    ∃ a1 evs, tRun toyEngine toyInit [.start toyRand, .recv (some wd) (toyEnv [true]), .recv (some w1) (toyEnv [true])] =
      .ok (a1, evs) ∧ a1.status = .error := by
  have hd : (match tRun toyEngine toyResp [.recv (some toySeedWire) { toyEnv [true] with onActive := [[7]] }] with
      | .ok (_, [.ask _, .state .active, .tx wd, .tx w1]) =>
        (match tRun toyEngine toyInit [.start toyRand, .recv (some wd) (toyEnv [true]), .recv (some w1) (toyEnv [true])] with
        | .ok (a1, _) => a1.status == .error
        | _ => false)
      | _ => false) = true := by decide +kernel
  split at hd
  next b1 ask wd w1 h1 =>
    refine ⟨wd, w1, b1, ask, h1, ?_⟩
    split at hd
    next a1 evs h2 => exact ⟨a1, evs, h2, by simpa using hd⟩
    · cases hd
  · cases hd

end Wickr
