import Verif.Lemmas.TransportCtx
import Verif.Props.HonestHandshake
/-
The transport context: C24, C29 - C33.
-/
set_option linter.unusedSimpArgs false
namespace Wickr
open Spec

/-! ### Keys and streams of a context -/

theorem hsFinalize_streamKeys {E : Engine} {h h' : Handshake} {ks : HsKeys} (hf : hsFinalize E h = (h', some ks)) :
    ∃ rk salt l1 l2 d1 d2, h.rootKey = some rk ∧ rootKeyToStreamKey E rk salt l1 d1 = some ks.localKey ∧
      rootKeyToStreamKey E rk salt l2 d2 = some ks.remoteKey := by
  unfold hsFinalize at hf
  split at hf
  · cases hf
  next rk hrk =>
  split at hf
  · cases hf
  split at hf
  · cases hf
  next ks' hd =>
  cases hf
  unfold hsDeriveKeys at hd
  simp only [Option.bind_eq_some_iff, Option.map_eq_some_iff] at hd
  obtain ⟨t, ht, hash, hhash, s, hs, r, hr, hk⟩ := hd
  split at hk
  · subst hk; exact ⟨_, _, _, _, _, _, hrk, hs, hr⟩
  · subst hk; exact ⟨_, _, _, _, _, _, hrk, hr, hs⟩

theorem rootKeyToStreamKey_wf {E : Engine} {rk : RootKey} {salt label : Bytes} {d : Dir} {k : StreamKey}
    (h : rootKeyToStreamKey E rk salt label d = some k) :
    k.cipherKey.cipher = rk.cipher ∧ (rk.cipher.isAuth = true → WfStreamKey k) ∧ streamKeyCopy k = some k := by
  obtain ⟨m, -, hl, hk⟩ := rootKeyToStreamKey_some h
  have hp : 1 ≤ k.ppe.toNat ∧ k.ppe.toNat ≤ 32768 := by
    unfold rootKeyToStreamKey at h
    simp only [Option.bind_eq_some_iff] at h
    obtain ⟨_, -, h⟩ := h
    split at h
    · cases h
    simp only [Option.bind_eq_some_iff] at h
    obtain ⟨_, -, _, -, h⟩ := h
    obtain ⟨rfl, hp⟩ := streamKeyCreate_some h
    exact hp
  have hmb := maxBuffer_val
  have e : ValidBuf (m.drop 32) := ⟨by simp only [List.length_drop]; omega, by simp only [List.length_drop]; omega⟩
  have hkl : (m.take 32).length = 32 := by simp only [List.length_take]; omega
  subst hk
  refine ⟨rfl, fun ha => ⟨ha, hkl, e, hp, by simp⟩, ?_⟩
  have c1 : cipherKeyCopy ⟨rk.cipher, m.take 32⟩ = some ⟨rk.cipher, m.take 32⟩ := by
    simp only [cipherKeyCopy, dup_of (b := m.take 32) ⟨by omega, by omega⟩, Option.map_some, Option.bind_some,
      cipherKeyCreate, keyLen_32, hkl, ne_eq, not_true, if_false]
  simp only [streamKeyCopy, c1, Option.bind_some, dup_of e, dupOpt]
  exact streamKeyCreate_of hp

/-- The streams of a context: none as long as it is not ACTIVE, both in working order and no handshake
left once it has been. -/
def Streams (c : TCtx) : Prop :=
  (c.tx = none ∧ c.rx = none ∧ c.status ≠ .active) ∨
  (∃ t r, c.tx = some t ∧ c.rx = some r ∧ TxOk t ∧ RxOk r ∧ c.pending = none ∧
    (c.status = .active ∨ c.status = .error))

theorem tUpdate_eq (c : TCtx) (s : TStatus) : (tUpdate c s).1 = { c with status := s } := by
  unfold tUpdate
  split
  · next h => rw [← h]
  · rfl

theorem tError_eq (c : TCtx) (x : TErr) : (tError c x).1 = { c with err := x, status := .error } := by
  unfold tError; rw [tUpdate_eq]

theorem tError_evs (c : TCtx) (x : TErr) :
    (tError c x).2 = if c.status = .error then [] else [.state .error] := by
  unfold tError tUpdate
  simp only
  split <;> rfl

theorem streams_created {E : Engine} {h h' : Handshake} {ks : HsKeys} {seed : Bytes} {t r : StreamCtx}
    (hf : hsFinalize E h = (h', some ks)) (ht : streamCtxCreate ks.localKey .encode seed = some t)
    (hr : streamCtxCreate ks.remoteKey .decode [] = some r) : TxOk t ∧ RxOk r ∧ t.lastSeq = 0 ∧ r.lastSeq = 0 := by
  obtain ⟨rk, salt, l1, l2, d1, d2, hrk, k1, k2⟩ := hsFinalize_streamKeys hf
  obtain ⟨ca, wa, -⟩ := rootKeyToStreamKey_wf k1
  obtain ⟨cb, wb, -⟩ := rootKeyToStreamKey_wf k2
  obtain ⟨rfl, at'⟩ := streamCtxCreate_some ht
  obtain ⟨rfl, ar⟩ := streamCtxCreate_some hr
  exact ⟨⟨rfl, wa (ca ▸ at'), _, rfl⟩, ⟨rfl, wb (cb ▸ ar)⟩, rfl, rfl⟩

theorem txOk_copy {t t' : StreamCtx} (h : TxOk t) (hc : streamCtxCopy t = some t') :
    TxOk t' ∧ t'.lastSeq = t.lastSeq := by
  obtain ⟨h1, h2, f, h3⟩ := h
  obtain ⟨k, l, d, i⟩ := streamCtxCopy_some hc
  exact ⟨⟨d.trans h1, k ▸ h2, f, (i h1).trans h3⟩, l⟩

theorem rxOk_copy {t t' : StreamCtx} (h : RxOk t) (hc : streamCtxCopy t = some t') :
    RxOk t' ∧ t'.lastSeq = t.lastSeq := by
  obtain ⟨h1, h2⟩ := h
  obtain ⟨k, l, d, i⟩ := streamCtxCopy_some hc
  exact ⟨⟨d.trans h1, k ▸ h2⟩, l⟩

theorem copyOpt_none {α : Type} {f : α → Option α} {x : Option α} (h : copyOpt f none = some x) : x = none := by
  cases h; rfl

theorem copyOpt_some {α : Type} {f : α → Option α} {a : α} {x : Option α} (h : copyOpt f (some a) = some x) :
    ∃ b, f a = some b ∧ x = some b := by
  simp only [copyOpt, Option.map_eq_some_iff] at h
  obtain ⟨b, h1, h2⟩ := h
  exact ⟨b, h1, h2.symm⟩

theorem Micro.streams {E : Engine} {op : TOp} {c c' : TCtx} {e : List TEv} (h : Micro E op c e c')
    (hs : Streams c) : Streams c' := by
  cases h with
  | fail x =>
    rw [tError_eq]
    rcases hs with ⟨h1, h2, -⟩ | ⟨t, r, h1, h2, h3, h4, h5, -⟩
    · exact .inl ⟨h1, h2, by simp⟩
    · exact .inr ⟨t, r, h1, h2, h3, h4, h5, .inr rfl⟩
  | create h hst hc _ =>
    rcases hs with ⟨h1, h2, h3⟩ | ⟨t, r, h1, h2, h3, h4, h5, h6⟩
    · exact .inl ⟨h1, h2, h3⟩
    · rw [hst] at h6; simp at h6
  | drop hst =>
    rcases hs with ⟨h1, h2, h3⟩ | ⟨t, r, h1, h2, h3, h4, h5, h6⟩
    · exact .inl ⟨h1, h2, h3⟩
    · exact .inr ⟨t, r, h1, h2, h3, h4, rfl, h6⟩
  | start h r ho hp hst =>
    rcases hs with ⟨h1, h2, h3⟩ | ⟨t, r, h1, h2, h3, h4, h5, h6⟩
    · exact .inl ⟨h1, h2, h3⟩
    · rw [h5] at hp; cases hp
  | begin hst h hp =>
    rcases hs with ⟨h1, h2, h3⟩ | ⟨t, r, h1, h2, h3, h4, h5, h6⟩
    · exact .inl ⟨h1, h2, by simp⟩
    · rw [h5] at hp; cases hp
  | process h h' b e p out ho hb hp hst hr =>
    rcases hs with ⟨h1, h2, h3⟩ | ⟨t, r, h1, h2, h3, h4, h5, h6⟩
    · exact .inl ⟨h1, h2, h3⟩
    · rw [h5] at hp; cases hp
  | verify h v ho hp =>
    rcases hs with ⟨h1, h2, h3⟩ | ⟨t, r, h1, h2, h3, h4, h5, h6⟩
    · exact .inl ⟨h1, h2, h3⟩
    · rw [h5] at hp; cases hp
  | noKeys h h' hp hf =>
    rcases hs with ⟨h1, h2, h3⟩ | ⟨t, r, h1, h2, h3, h4, h5, h6⟩
    · exact .inl ⟨h1, h2, h3⟩
    · rw [h5] at hp; cases hp
  | noStream h h' ks hp hf hn =>
    rcases hs with ⟨h1, h2, h3⟩ | ⟨t, r, h1, h2, h3, h4, h5, h6⟩
    · exact .inl ⟨h1, h2, h3⟩
    · rw [h5] at hp; cases hp
  | activate h h' ks seed t r hp hst hf ht hr =>
    obtain ⟨o1, o2, -⟩ := streams_created hf ht hr
    exact .inr ⟨t, r, rfl, rfl, o1, o2, rfl, .inl rfl⟩
  | volley q b hq hb => exact hs
  | encode s data ho hst ht =>
    rcases hs with ⟨h1, h2, h3⟩ | ⟨t, r, h1, h2, h3, h4, h5, h6⟩
    · exact absurd hst h3
    · rw [h1] at ht; cases ht
      exact .inr ⟨_, r, rfl, h2, tEncode_ok h3, h4, h5, h6⟩
  | send s s' data b p ho hst ht he hb =>
    rcases hs with ⟨h1, h2, h3⟩ | ⟨t, r, h1, h2, h3, h4, h5, h6⟩
    · exact absurd hst h3
    · rw [h1] at ht; cases ht
      have := tEncode_ok (E := E) (d := data) h3
      rw [he] at this
      exact .inr ⟨_, r, rfl, h2, this, h4, h5, h6⟩
  | decode s b e p ho hb hst hr =>
    rcases hs with ⟨h1, h2, h3⟩ | ⟨t, r, h1, h2, h3, h4, h5, h6⟩
    · rw [h2] at hr; cases hr
    · rw [h2] at hr; cases hr
      exact .inr ⟨t, _, h1, rfl, h3, tDecode_ok h4, h5, h6⟩
  | recv s s' b e p d ho hb hst hr hd =>
    rcases hs with ⟨h1, h2, h3⟩ | ⟨t, r, h1, h2, h3, h4, h5, h6⟩
    · rw [h2] at hr; cases hr
    · rw [h2] at hr; cases hr
      have := tDecode_ok (E := E) (p := p) (j := e.junk) h4
      rw [hd] at this
      exact .inr ⟨t, _, h1, rfl, h3, this, h5, h6⟩
  | copy _ ho hc =>
    obtain ⟨l, r0, r', tx, rx, -, -, -, htx, hrx, rfl⟩ := tCopy_some hc
    rcases hs with ⟨h1, h2, h3⟩ | ⟨t, r, h1, h2, h3, h4, h5, h6⟩
    · rw [h1] at htx; rw [h2] at hrx
      rw [copyOpt_none htx, copyOpt_none hrx]
      exact .inl ⟨rfl, rfl, h3⟩
    · rw [h1] at htx; rw [h2] at hrx
      obtain ⟨t', ct, rfl⟩ := copyOpt_some htx
      obtain ⟨r', cr, rfl⟩ := copyOpt_some hrx
      exact .inr ⟨t', r', rfl, rfl, (txOk_copy h3 ct).1, (rxOk_copy h4 cr).1, rfl, h6⟩

theorem streams_run {E : Engine} {c c' : TCtx} {evs : List TEv} {ops : List TOp} (hb : Base c) (hs : Streams c)
    (h : tRun E c ops = .ok (c', evs)) : Streams c' :=
  run_hist (P := fun c _ => Streams c) (fun _ _ _ _ _ m hs => m.streams hs) ops (evs0 := []) hb hs h

theorem streams_create {self : Chain} {remote : Option Chain} {evo : UInt32} {c : TCtx}
    (h : tCreate self remote evo = some c) : Streams c := by
  rw [tCreate_eq h]; exact .inl ⟨rfl, rfl, by simp⟩

/-! ### C33 -/

/-- C33: whenever a context reports ACTIVE it has a send stream and a receive stream, for an
authenticated cipher and with keys of the right sizes, and no handshake is pending any more; and it has
a stream at all only if it is or has been ACTIVE. -/
theorem C33_active_has_both_streams (E : Engine) (self : Chain) (remote : Option Chain) (evo : UInt32) (c0 c : TCtx)
    (ops : List TOp) (evs : List TEv) (h0 : tCreate self remote evo = some c0)
    (h : tRun E c0 ops = .ok (c, evs)) :
    (c.status = .active → ∃ t r, c.tx = some t ∧ c.rx = some r ∧ t.dir = .encode ∧ r.dir = .decode ∧
      WfStreamKey t.key ∧ WfStreamKey r.key ∧ (∃ f, t.iv = some f) ∧ c.pending = none) ∧
    (c.tx.isSome = c.rx.isSome) ∧ (c.tx.isSome → c.status = .active ∨ c.status = .error) := by
  rcases streams_run (base_create h0) (streams_create h0) h with ⟨h1, h2, h3⟩ | ⟨t, r, h1, h2, h3, h4, h5, h6⟩
  · exact ⟨fun ha => absurd ha h3, by rw [h1, h2], by rw [h1]; simp⟩
  · exact ⟨fun _ => ⟨t, r, h1, h2, h3.1, h4.1, h3.2.1, h4.2, h3.2.2, h5⟩, by rw [h1, h2]; simp, fun _ => h6⟩

/-! ### C30 -/

/-- The statuses announced by `on_state`, in order. -/
def Spec.statuses (evs : List TEv) : List TStatus :=
  evs.filterMap fun | .state s => some s | _ => none

/-- `l` starts from `s` and never repeats the status it is in. -/
def Spec.Changes (s : TStatus) : List TStatus → Prop
  | [] => True
  | t :: l => t ≠ s ∧ Changes t l

theorem statuses_append (a b : List TEv) : statuses (a ++ b) = statuses a ++ statuses b := by
  simp [statuses]

theorem changes_append {s : TStatus} {a b : List TStatus} (ha : Changes s a) (hb : Changes (a.getLastD s) b) :
    Changes s (a ++ b) := by
  induction a generalizing s with
  | nil => exact hb
  | cons t a ih =>
    refine ⟨ha.1, ih ha.2 ?_⟩
    have e : (t :: a).getLastD s = a.getLastD t := by cases a <;> simp [List.getLastD]
    rwa [e] at hb

theorem getLastD_append (a b : List TStatus) (s : TStatus) : (a ++ b).getLastD s = b.getLastD (a.getLastD s) := by
  cases b with
  | nil => simp
  | cons x l => simp [List.getLastD_eq_getLast?]

theorem Micro.status {E : Engine} {op : TOp} {c c' : TCtx} {e : List TEv} (h : Micro E op c e c') :
    (c'.status = c.status ∧ statuses e = []) ∨ (c'.status ≠ c.status ∧ statuses e = [c'.status]) := by
  cases h with
  | fail x =>
    rw [tError_eq, tError_evs]
    split
    · next h => exact .inl ⟨h.symm, rfl⟩
    · next h => exact .inr ⟨fun hc => h hc.symm, rfl⟩
  | create h hst hc _ => exact .inl ⟨rfl, rfl⟩
  | drop hst => exact .inl ⟨rfl, rfl⟩
  | start h r ho hp hst => exact .inl ⟨rfl, rfl⟩
  | begin hst h hp => exact .inr ⟨by rw [hst]; simp, rfl⟩
  | process h h' b e p out ho hb hp hst hr =>
    refine .inl ⟨rfl, ?_⟩
    cases out.ask <;> rfl
  | verify h v ho hp => exact .inl ⟨rfl, rfl⟩
  | noKeys h h' hp hf => exact .inl ⟨rfl, rfl⟩
  | noStream h h' ks hp hf hn => exact .inl ⟨rfl, rfl⟩
  | activate h h' ks seed t r hp hst hf ht hr => exact .inr ⟨fun hc => hst hc.symm, rfl⟩
  | volley q b hq hb => exact .inl ⟨rfl, rfl⟩
  | encode s data ho hst ht => exact .inl ⟨rfl, rfl⟩
  | send s s' data b p ho hst ht he hb => exact .inl ⟨rfl, rfl⟩
  | decode s b e p ho hb hst hr => exact .inl ⟨rfl, rfl⟩
  | recv s s' b e p d ho hb hst hr hd => exact .inl ⟨rfl, rfl⟩
  | copy _ ho hc =>
    obtain ⟨l, r0, r', tx, rx, -, -, -, -, -, rfl⟩ := tCopy_some hc
    exact .inl ⟨rfl, rfl⟩

/-- C30: over any history of calls, `on_state` announces every change of the status and nothing else:
the last status announced is the one the context is in, and no status is announced twice in a row. -/
theorem C30_state_callback_exact (E : Engine) (self : Chain) (remote : Option Chain) (evo : UInt32) (c0 c : TCtx)
    (ops : List TOp) (evs : List TEv) (h0 : tCreate self remote evo = some c0)
    (h : tRun E c0 ops = .ok (c, evs)) :
    c0.status = .fresh ∧ c.status = (statuses evs).getLastD .fresh ∧ Changes .fresh (statuses evs) := by
  have hf : c0.status = .fresh := by rw [tCreate_eq h0]
  refine ⟨hf, ?_⟩
  refine run_hist (P := fun c evs => c.status = (statuses evs).getLastD .fresh ∧ Changes .fresh (statuses evs))
    ?_ ops (evs0 := []) (base_create h0) ⟨hf, trivial⟩ h
  rintro op c e c' evs m ⟨h1, h2⟩
  rw [statuses_append, getLastD_append]
  rcases m.status with ⟨h3, h4⟩ | ⟨h3, h4⟩
  · rw [h4, List.append_nil]; exact ⟨h3.trans h1, h2⟩
  · rw [h4]; exact ⟨rfl, changes_append h2 ⟨h1 ▸ h3, trivial⟩⟩

/-! ### C24 -/

/-- The number written in little endian. -/
def Spec.leNat : Bytes → Nat
  | [] => 0
  | b :: bs => b.toNat + 256 * leNat bs

/-- The sequence number of a data packet, read from its bytes; none for other packets. -/
def Spec.dataSeq : Bytes → Option Nat
  | [] => none
  | t :: rest => if t.toNat / 16 = 1 then some (leNat (rest.take 8)) else none

/-- The sequence numbers of the data packets sent, in order. -/
def Spec.sentSeqs (evs : List TEv) : List Nat :=
  evs.filterMap fun | .tx b => dataSeq b | _ => none

theorem leNat_eq (bs : Bytes) : leNat bs = bs.foldr (fun b acc => acc * 256 + b.toNat) 0 := by
  induction bs with
  | nil => rfl
  | cons b bs ih => simp only [leNat, List.foldr_cons, ih]; omega

theorem leNat_le64 (n : UInt64) : leNat (le64 n) = n.toNat := by
  rw [leNat_eq, ← (fromLe64_toNat (le64 n) (by simp [le64_length])).2, fromLe64_le64]

theorem dataSeq_data (s : UInt64) (body : Bytes) : dataSeq (17 :: (le64 s ++ body)) = some s.toNat := by
  simp only [dataSeq]
  rw [if_pos (by decide), List.take_left' (le64_length s), leNat_le64]

theorem dataSeq_hs (rest : Bytes) : dataSeq (2 :: rest) = none := by
  simp only [dataSeq]
  rw [if_neg (by decide)]

theorem sentSeqs_append (a b : List TEv) : sentSeqs (a ++ b) = sentSeqs a ++ sentSeqs b := by
  simp [sentSeqs]

/-- What C24 carries along a history. -/
def SeqInv (c : TCtx) (evs : List TEv) : Prop :=
  Streams c ∧ (sentSeqs evs).Pairwise (· < ·) ∧
    ∀ s ∈ sentSeqs evs, 1 ≤ s ∧ ∃ t, c.tx = some t ∧ s ≤ t.lastSeq.toNat

theorem Micro.seqInv {E : Engine} {op : TOp} {c c' : TCtx} {e evs : List TEv} (h : Micro E op c e c')
    (hs : SeqInv c evs) : SeqInv c' (evs ++ e) := by
  obtain ⟨hst, hpw, hle⟩ := hs
  have quiet : sentSeqs e = [] → (∀ t, c.tx = some t → ∃ t', c'.tx = some t' ∧ t.lastSeq ≤ t'.lastSeq) →
      SeqInv c' (evs ++ e) := by
    intro he ht
    refine ⟨h.streams hst, by rw [sentSeqs_append, he, List.append_nil]; exact hpw, ?_⟩
    rw [sentSeqs_append, he, List.append_nil]
    intro s hs
    obtain ⟨h1, t, h2, h3⟩ := hle s hs
    obtain ⟨t', h4, h5⟩ := ht t h2
    exact ⟨h1, t', h4, Nat.le_trans h3 (UInt64.le_iff_toNat_le.1 h5)⟩
  have same : ∀ t, c.tx = some t → ∃ t', c.tx = some t' ∧ t.lastSeq ≤ t'.lastSeq :=
    fun t ht => ⟨t, ht, UInt64.le_refl _⟩
  cases h with
  | fail x =>
    refine quiet ?_ ?_
    · rw [tError_evs]; split <;> rfl
    · rw [tError_eq]; exact same
  | create h hst hc _ => exact quiet rfl same
  | drop hst => exact quiet rfl same
  | start h r ho hp hst => exact quiet rfl same
  | begin hst h hp => exact quiet rfl same
  | process h h' b e p out ho hb hp hst hr => exact quiet (by cases out.ask <;> rfl) same
  | verify h v ho hp => exact quiet rfl same
  | noKeys h h' hp hf => exact quiet rfl same
  | noStream h h' ks hp hf hn => exact quiet rfl same
  | activate h h' ks seed t r hp hst' hf ht hr =>
    refine quiet rfl ?_
    intro t0 ht0
    rcases hst with ⟨h1, -⟩ | ⟨t, r, h1, h2, h3, h4, h5, h6⟩
    · rw [h1] at ht0; cases ht0
    · rw [h5] at hp; cases hp
  | volley q b hq hb =>
    obtain ⟨rest, rfl⟩ := hs_wire hq hb
    exact quiet (by simp [sentSeqs, dataSeq_hs]) same
  | encode s data ho hst ht =>
    refine quiet rfl ?_
    intro t0 ht0
    rw [ht] at ht0; cases ht0
    exact ⟨_, rfl, tEncode_seq E s data⟩
  | send s s' data b p ho hst' ht he hb =>
    obtain ⟨r, body, h1, h2, rfl⟩ := tEncode_some he
    have h3 := data_wire hb
    obtain ⟨h4, -, f, iv, g, k, -, -, -, h5, -⟩ := streamEncode_some h1
    have hseq : sentSeqs [TEv.tx b] = [(s.lastSeq + 1).toNat] := by
      simp [sentSeqs, h3, dataSeq_data]
    have hlt := UInt64.lt_iff_toNat_lt.1 h4
    have hls : s'.lastSeq = s.lastSeq + 1 := by rw [h5]
    refine ⟨Micro.streams (.send c s s' data b _ ho hst' ht he hb) hst, ?_, ?_⟩
    · rw [sentSeqs_append, hseq, List.pairwise_append]
      refine ⟨hpw, by simp, ?_⟩
      intro a ha b hb
      simp only [List.mem_singleton] at hb
      subst hb
      obtain ⟨-, t, h6, h7⟩ := hle a ha
      rw [ht] at h6; cases h6
      omega
    · rw [sentSeqs_append, hseq]
      intro a ha
      simp only [List.mem_append, List.mem_singleton] at ha
      rcases ha with ha | rfl
      · obtain ⟨h0, t, h6, h7⟩ := hle a ha
        rw [ht] at h6; cases h6
        exact ⟨h0, s', rfl, by rw [hls]; omega⟩
      · exact ⟨by omega, s', rfl, by rw [hls]; exact Nat.le_refl _⟩
  | decode s b e p ho hb hst hr => exact quiet rfl same
  | recv s s' b e p d ho hb hst hr hd => exact quiet rfl same
  | copy _ ho hc =>
    obtain ⟨l, r0, r', tx, rx, -, -, -, htx, hrx, rfl⟩ := tCopy_some hc
    refine quiet rfl ?_
    intro t ht
    rw [ht] at htx
    obtain ⟨t', ct, rfl⟩ := copyOpt_some htx
    obtain ⟨-, l, -⟩ := streamCtxCopy_some ct
    exact ⟨t', rfl, by rw [l]; exact UInt64.le_refl _⟩

/-- C24: over any history of calls the sequence numbers on the data packets a context sends strictly
increase, starting at 1 or later. -/
theorem C24_sequence_numbers_increase (E : Engine) (self : Chain) (remote : Option Chain) (evo : UInt32) (c0 c : TCtx)
    (ops : List TOp) (evs : List TEv) (h0 : tCreate self remote evo = some c0)
    (h : tRun E c0 ops = .ok (c, evs)) :
    (sentSeqs evs).Pairwise (· < ·) ∧ ∀ s ∈ sentSeqs evs, 1 ≤ s ∧ s < 2 ^ 64 := by
  have hi : SeqInv c0 [] := ⟨streams_create h0, by simp [sentSeqs], by simp [sentSeqs]⟩
  obtain ⟨-, h1, h2⟩ := run_hist (P := SeqInv) (fun _ _ _ _ _ m hs => m.seqInv hs) ops (evs0 := [])
    (base_create h0) hi h
  refine ⟨h1, fun s hs => ⟨(h2 s hs).1, ?_⟩⟩
  obtain ⟨-, t, -, h3⟩ := h2 s hs
  have := t.lastSeq.toNat_lt
  omega

/-- C24, at the end: with the last sequence number used up a send reports an error and sends nothing,
whatever the data, and the numbers do not start over. -/
theorem C24_exhausted_refuses (E : Engine) (c : TCtx) (t : StreamCtx) (data : Bytes) (ha : c.status = .active)
    (ht : c.tx = some t) (hl : t.lastSeq.toNat = 2 ^ 64 - 1) :
    tSend E c (some data) =
      .ok ({ c with status := .error, err := .packetEncodeFailed }, [.state .error]) := by
  have e : t.lastSeq + 1 = 0 := by
    apply UInt64.toNat_inj.1
    rw [UInt64.toNat_add, hl]
    decide
  have h1 : tEncode E t data = (t, none) := by
    have : ∀ a, streamEncode E t data a 0 = (t, none) := fun a =>
      streamEncode_refused (Or.inl (by rw [UInt64.le_iff_toNat_le]; exact Nat.zero_le _))
    simp only [tEncode, e, this, Option.bind_none, Option.map_none]
  have hc : ({ c with tx := some t } : TCtx) = c := by rw [← ht]
  simp only [tSend, ha, ne_eq, not_true, if_false, ht, h1, hc]
  rw [Res.ok.injEq]
  refine Prod.ext ?_ ?_
  · rw [tError_eq]
  · rw [tError_evs]; simp

/-! ### C29 -/

/-- The cipher key that belongs to a sequence number. -/
def Spec.epochKey (E : Engine) (k : StreamKey) (seq : UInt64) : CipherKey :=
  ⟨k.cipherKey.cipher, (evo E (keyBytes k) (seq.toNat / k.ppe.toNat)).1⟩

/-- `b` is the data packet number `seq` with `data` encrypted under `k`, the header being
authenticated with it. -/
def Spec.Sealed (E : Engine) (k : StreamKey) (seq : UInt64) (data b : Bytes) : Prop :=
  ∃ iv r body, E.encrypt data (some (17 :: le64 seq)) (epochKey E k seq) iv = some r ∧
    cipherResultSerialize r = some body ∧ b = 17 :: (le64 seq ++ body)

/-- Authenticated decryption of the packet `b` under `k`, header included, gives `data`. -/
def Spec.Opened (E : Engine) (k : StreamKey) (seq : UInt64) (b data : Bytes) : Prop :=
  ∃ p r, pktFromBuffer b = some p ∧ p.hdr.mac = 1 ∧ cipherResultFromBuffer p.body = some r ∧
    (∀ s, p.hdr.body = .data s → seq = s) ∧
    E.decrypt r (some (pktMetaSerialize p.hdr)) (epochKey E k seq) true = some data

/-- A data packet with its number, its content and its bytes. -/
structure Spec.Rec where
  seq : UInt64
  data : Bytes
  wire : Bytes

/-- The data packets sent. -/
def Spec.dataSent (evs : List TEv) : List Bytes :=
  evs.filterMap fun | .tx b => if (dataSeq b).isSome then some b else none | _ => none

/-- The data delivered to the application. -/
def Spec.delivered (evs : List TEv) : List Bytes :=
  evs.filterMap fun | .rx d => some d | _ => none

theorem dataSent_append (a b : List TEv) : dataSent (a ++ b) = dataSent a ++ dataSent b := by
  simp [dataSent]

theorem delivered_append (a b : List TEv) : delivered (a ++ b) = delivered a ++ delivered b := by
  simp [delivered]

theorem data_hdr (s : UInt64) : pktMetaSerialize ⟨.data s, 1⟩ = 17 :: le64 s := by
  have h17 : ((1 : UInt8) <<< 4 ||| 1) = 17 := by decide
  simp [pktMetaSerialize, BodyMeta.typeId, h17]

theorem encode_inv {E : Engine} (hE : E.Lawful) {k : StreamKey} (hw : WfStreamKey k) {t : StreamCtx}
    (ht : TxOk t) (hi : StreamInv E k t) (d : Bytes) (a : Option Bytes) (s : UInt64) :
    StreamInv E k (streamEncode E t d a s).1 := by
  obtain ⟨hd, -, f, hf⟩ := ht
  by_cases hr : s ≤ t.lastSeq ∨ t.dir ≠ .encode
  · rw [streamEncode_refused hr]; exact hi
  · have h1 : t.lastSeq < s := not_le_u64.1 fun hc => hr (Or.inl hc)
    obtain ⟨hm, -, -, he⟩ := streamEncode_eq hE hw hi hf hd h1 d a
    rw [he]
    exact ⟨rfl⟩

theorem decode_inv {E : Engine} (hE : E.Lawful) {k : StreamKey} (hw : WfStreamKey k) {t : StreamCtx}
    (ht : RxOk t) (hi : StreamInv E k t) (d : CipherResult) (a : Option Bytes) (s : UInt64) :
    StreamInv E k (streamDecode E t d a s).1 := by
  obtain ⟨hd, -⟩ := ht
  by_cases hr : s ≤ t.lastSeq ∨ t.dir ≠ .decode
  · rw [streamDecode_refused hr]; exact hi
  · have h1 : t.lastSeq < s := not_le_u64.1 fun hc => hr (Or.inl hc)
    rw [streamDecode_eq hE hw hi hd h1]
    exact ⟨rfl⟩

theorem tDecode_inv {E : Engine} (hE : E.Lawful) {k : StreamKey} (hw : WfStreamKey k) {t : StreamCtx}
    (ht : RxOk t) (hi : StreamInv E k t) (p : Packet) (j : UInt64) : StreamInv E k (tDecode E t p j).1 := by
  unfold tDecode
  split
  · exact hi
  split
  · exact hi
  · exact decode_inv hE hw ht hi _ _ _

theorem copy_inv {E : Engine} {k : StreamKey} {t t' : StreamCtx} (hi : StreamInv E k t)
    (hc : streamCtxCopy t = some t') : StreamInv E k t' := by
  obtain ⟨h1, h2, -⟩ := streamCtxCopy_some hc
  exact ⟨by rw [h1, h2]; exact hi.key⟩

theorem evolve_key {E : Engine} (hE : E.Lawful) {k k' : StreamKey} (hw : WfStreamKey k) {t : StreamCtx} {s : UInt64}
    (hi : StreamInv E k t) (hs : t.lastSeq < s) (h : (streamEvolve E t s).2 = some k') :
    k'.cipherKey = epochKey E k s := by
  rw [hi.evolve hE hw (UInt64.le_of_lt hs)] at h
  cases h
  rfl

/-- The traffic on a channel with send key `kt` and receive key `kr`: what was sent is what the
application handed over, sealed under `kt`; what was delivered are packets fed in by the application
that open under `kr`; on either side the numbers increase. -/
structure Spec.Traffic (E : Engine) (ops : List TOp) (kt kr : StreamKey) (lt lr : UInt64) (evs : List TEv) : Prop where
  sent : ∃ log : List Rec, dataSent evs = log.map (·.wire) ∧ log.Pairwise (fun a b => a.seq < b.seq) ∧
    ∀ x ∈ log, x.seq ≤ lt ∧ (∃ op ∈ ops, HandsOver op x.data) ∧ Sealed E kt x.seq x.data x.wire
  received : ∃ log : List Rec, delivered evs = log.map (·.data) ∧ log.Pairwise (fun a b => a.seq < b.seq) ∧
    ∀ x ∈ log, x.seq ≤ lr ∧ (∃ e, TOp.recv (some x.wire) e ∈ ops) ∧ Opened E kr x.seq x.wire x.data

theorem Spec.Traffic.mono {E : Engine} {ops : List TOp} {kt kr : StreamKey} {lt lr lt' lr' : UInt64}
    {evs e : List TEv} (h : Traffic E ops kt kr lt lr evs) (h1 : lt ≤ lt') (h2 : lr ≤ lr')
    (e1 : dataSent e = []) (e2 : delivered e = []) : Traffic E ops kt kr lt' lr' (evs ++ e) := by
  obtain ⟨⟨ls, s1, s2, s3⟩, ⟨lr, r1, r2, r3⟩⟩ := h
  refine ⟨⟨ls, by rw [dataSent_append, e1, List.append_nil]; exact s1, s2, fun x hx => ?_⟩,
    ⟨lr, by rw [delivered_append, e2, List.append_nil]; exact r1, r2, fun x hx => ?_⟩⟩
  · exact ⟨UInt64.le_trans (s3 x hx).1 h1, (s3 x hx).2⟩
  · exact ⟨UInt64.le_trans (r3 x hx).1 h2, (r3 x hx).2⟩

theorem Spec.Traffic.send {E : Engine} {ops : List TOp} {kt kr : StreamKey} {lt lr : UInt64}
    {evs : List TEv} (h : Traffic E ops kt kr lt lr evs) (x : Rec) (hx : lt < x.seq)
    (hd : dataSent [.tx x.wire] = [x.wire])
    (ho : ∃ op ∈ ops, HandsOver op x.data) (hs : Sealed E kt x.seq x.data x.wire) :
    Traffic E ops kt kr x.seq lr (evs ++ [.tx x.wire]) := by
  obtain ⟨⟨ls, s1, s2, s3⟩, ⟨lr, r1, r2, r3⟩⟩ := h
  refine ⟨⟨ls ++ [x], by rw [dataSent_append, hd, s1]; simp, ?_, ?_⟩,
    ⟨lr, by rw [delivered_append, r1]; simp [delivered], r2, r3⟩⟩
  · rw [List.pairwise_append]
    refine ⟨s2, by simp, fun a ha b hb => ?_⟩
    simp only [List.mem_singleton] at hb
    subst hb
    exact UInt64.lt_of_le_of_lt (s3 a ha).1 hx
  · intro a ha
    simp only [List.mem_append, List.mem_singleton] at ha
    rcases ha with ha | rfl
    · exact ⟨UInt64.le_trans (s3 a ha).1 (UInt64.le_of_lt hx), (s3 a ha).2⟩
    · exact ⟨UInt64.le_refl _, ho, hs⟩

theorem Spec.Traffic.recv {E : Engine} {ops : List TOp} {kt kr : StreamKey} {lt lr : UInt64}
    {evs : List TEv} (h : Traffic E ops kt kr lt lr evs) (x : Rec) (hx : lr < x.seq)
    (ho : ∃ e, TOp.recv (some x.wire) e ∈ ops) (hs : Opened E kr x.seq x.wire x.data) :
    Traffic E ops kt kr lt x.seq (evs ++ [.rx x.data]) := by
  obtain ⟨⟨ls, s1, s2, s3⟩, ⟨lr, r1, r2, r3⟩⟩ := h
  refine ⟨⟨ls, by rw [dataSent_append, s1]; simp [dataSent], s2, s3⟩,
    ⟨lr ++ [x], by rw [delivered_append, r1]; simp [delivered], ?_, ?_⟩⟩
  · rw [List.pairwise_append]
    refine ⟨r2, by simp, fun a ha b hb => ?_⟩
    simp only [List.mem_singleton] at hb
    subst hb
    exact UInt64.lt_of_le_of_lt (r3 a ha).1 hx
  · intro a ha
    simp only [List.mem_append, List.mem_singleton] at ha
    rcases ha with ha | rfl
    · exact ⟨UInt64.le_trans (r3 a ha).1 (UInt64.le_of_lt hx), (r3 a ha).2⟩
    · exact ⟨UInt64.le_refl _, ho, hs⟩

/-- What C29 carries along a history. -/
def ChanInv (E : Engine) (ops : List TOp) (c : TCtx) (evs : List TEv) : Prop :=
  Streams c ∧
  (∀ b, TEv.tx b ∈ evs → dataSeq b = none → ∃ t rest, b = t :: rest ∧ t.toNat / 16 = 0) ∧
  ((c.tx = none ∧ dataSent evs = [] ∧ delivered evs = []) ∨
   ∃ kt kr t r, c.tx = some t ∧ c.rx = some r ∧ (∃ h h', hsFinalize E h = (h', some ⟨kt, kr⟩)) ∧
     WfStreamKey kt ∧ WfStreamKey kr ∧ StreamInv E kt t ∧ StreamInv E kr r ∧
     Traffic E ops kt kr t.lastSeq r.lastSeq evs)

theorem Micro.chanInv {E : Engine} (hE : E.Lawful) {ops : List TOp} {op : TOp} (hop : op ∈ ops) {c c' : TCtx}
    {e evs : List TEv} (h : Micro E op c e c') (hs : ChanInv E ops c evs) : ChanInv E ops c' (evs ++ e) := by
  obtain ⟨hst, hhs, hch⟩ := hs
  -- steps that neither send nor deliver data
  have quiet : dataSent e = [] → delivered e = [] →
      (∀ b, TEv.tx b ∈ e → dataSeq b = none → ∃ t rest, b = t :: rest ∧ t.toNat / 16 = 0) →
      (c.tx = none → c'.tx = none) →
      (∀ kt kr t r, WfStreamKey kt → WfStreamKey kr → TxOk t → RxOk r → StreamInv E kt t → StreamInv E kr r →
        c.tx = some t → c.rx = some r → ∃ t' r', c'.tx = some t' ∧ c'.rx = some r' ∧
        StreamInv E kt t' ∧ StreamInv E kr r' ∧ t.lastSeq ≤ t'.lastSeq ∧ r.lastSeq ≤ r'.lastSeq) →
      ChanInv E ops c' (evs ++ e) := by
    intro e1 e2 hb hn hk
    refine ⟨h.streams hst, ?_, ?_⟩
    · intro b hm
      rw [List.mem_append] at hm
      rcases hm with hm | hm
      · exact hhs b hm
      · exact hb b hm
    · rcases hch with ⟨h1, h2, h3⟩ | ⟨kt, kr, t, r, h1, h2, h3, h4, h5, h6, h7, h8⟩
      · exact .inl ⟨hn h1, by rw [dataSent_append, h2, e1]; rfl, by rw [delivered_append, h3, e2]; rfl⟩
      · rcases hst with ⟨g1, -⟩ | ⟨t0, r0, g1, g2, g3, g4, -⟩
        · rw [h1] at g1; cases g1
        rw [h1] at g1; cases g1
        rw [h2] at g2; cases g2
        obtain ⟨t', r', k1, k2, k3, k4, k5, k6⟩ := hk kt kr t r h4 h5 g3 g4 h6 h7 h1 h2
        exact .inr ⟨kt, kr, t', r', k1, k2, h3, h4, h5, k3, k4, h8.mono k5 k6 e1 e2⟩
  have same : ∀ kt kr t r, WfStreamKey kt → WfStreamKey kr → TxOk t → RxOk r → StreamInv E kt t → StreamInv E kr r →
      c.tx = some t → c.rx = some r → ∃ t' r', c.tx = some t' ∧ c.rx = some r' ∧
      StreamInv E kt t' ∧ StreamInv E kr r' ∧ t.lastSeq ≤ t'.lastSeq ∧ r.lastSeq ≤ r'.lastSeq :=
    fun kt kr t r _ _ _ _ h1 h2 h3 h4 => ⟨t, r, h3, h4, h1, h2, UInt64.le_refl _, UInt64.le_refl _⟩
  cases h with
  | fail x =>
    have ev : ∀ b, TEv.tx b ∉ (tError c x).2 := by
      intro b; rw [tError_evs]; split <;> simp
    refine quiet ?_ ?_ (fun b hb => absurd hb (ev b)) ?_ ?_
    · rw [tError_evs]; split <;> rfl
    · rw [tError_evs]; split <;> rfl
    · rw [tError_eq]; exact id
    · rw [tError_eq]; exact same
  | create h hst hc _ => exact quiet rfl rfl (by simp) id same
  | drop hst => exact quiet rfl rfl (by simp) id same
  | start h r ho hp hst => exact quiet rfl rfl (by simp) id same
  | begin hst h hp => exact quiet rfl rfl (by simp) id same
  | process h h' b e p out ho hb hp hst hr =>
    exact quiet (by cases out.ask <;> rfl) (by cases out.ask <;> rfl) (by cases out.ask <;> simp) id same
  | verify h v ho hp => exact quiet rfl rfl (by simp) id same
  | noKeys h h' hp hf => exact quiet rfl rfl (by simp) id same
  | noStream h h' ks hp hf hn => exact quiet rfl rfl (by simp) id same
  | activate h h' ks seed t r hp hst' hf ht hr =>
    have m : Micro E op c _ _ := .activate c h h' ks seed t r hp hst' hf ht hr
    refine ⟨m.streams hst, ?_, .inr ?_⟩
    · intro b hm
      simp only [List.mem_append, List.mem_singleton, reduceCtorEq, or_false] at hm
      exact hhs b hm
    · rcases hch with ⟨h1, h2, h3⟩ | ⟨kt, kr, t, r, h1, h2, -⟩
      · obtain ⟨o1, o2, -⟩ := streams_created hf ht hr
        refine ⟨ks.localKey, ks.remoteKey, t, r, rfl, rfl, ⟨h, h', hf⟩, ?_, ?_, streamCtxCreate_inv ht,
          streamCtxCreate_inv hr, ⟨⟨[], ?_, by simp, by simp⟩, ⟨[], ?_, by simp, by simp⟩⟩⟩
        · have := o1.2.1; rwa [(streamCtxCreate_some ht).1] at this
        · have := o2.2; rwa [(streamCtxCreate_some hr).1] at this
        · rw [dataSent_append, h2]; rfl
        · rw [delivered_append, h3]; rfl
      · rcases hst with ⟨g1, -⟩ | ⟨t0, r0, g1, g2, g3, g4, g5, -⟩
        · rw [h1] at g1; cases g1
        · rw [g5] at hp; cases hp
  | volley q b hq hb =>
    obtain ⟨rest, rfl⟩ := hs_wire hq hb
    refine quiet (by simp [dataSent, dataSeq_hs]) rfl ?_ id same
    intro b hb _
    simp only [List.mem_singleton, TEv.tx.injEq] at hb
    exact ⟨2, rest, hb, by decide⟩
  | encode s data ho hst ht =>
    refine quiet rfl rfl (by simp) (fun h => by rw [h] at ht; cases ht) ?_
    intro kt kr t r wt wr ot or it ir h1 h2
    rw [ht] at h1; cases h1
    exact ⟨_, r, rfl, h2, encode_inv hE wt ot it _ _ _, ir, tEncode_seq E s data, UInt64.le_refl _⟩
  | send s s' data b p ho hst' ht he hb =>
    have m : Micro E op c _ _ := .send c s s' data b p ho hst' ht he hb
    obtain ⟨r, body, h1, h2, rfl⟩ := tEncode_some he
    have h3 := data_wire hb
    obtain ⟨h4, -, f, iv, g, k, -, -, hk, h5, henc⟩ := streamEncode_some h1
    refine ⟨m.streams hst, ?_, .inr ?_⟩
    · intro b' hm hn
      simp only [List.mem_append, List.mem_singleton, TEv.tx.injEq] at hm
      rcases hm with hm | rfl
      · exact hhs b' hm hn
      · rw [h3, dataSeq_data] at hn; cases hn
    · rcases hch with ⟨h1, -⟩ | ⟨kt, kr, t, rr, e1, e2, e3, e4, e5, e6, e7, e8⟩
      · rw [h1] at ht; cases ht
      rw [ht] at e1; cases e1
      rcases hst with ⟨g1, -⟩ | ⟨t0, r0, g1, g2, g3, g4, g5, -⟩
      · rw [ht] at g1; cases g1
      rw [ht] at g1; cases g1
      have ls : s'.lastSeq = s.lastSeq + 1 := by rw [h5]
      have i' : StreamInv E kt s' := by
        have := encode_inv hE e4 g3 e6 data (some (pktMetaSerialize ⟨.data (s.lastSeq + 1), 1⟩)) (s.lastSeq + 1)
        rw [h1] at this
        exact this
      refine ⟨kt, kr, s', rr, rfl, e2, e3, e4, e5, i', e7, ?_⟩
      rw [ls]
      refine e8.send ⟨s.lastSeq + 1, data, b⟩ h4 ?_ ⟨op, hop, ho⟩ ?_
      · simp [dataSent, h3, dataSeq_data]
      · refine ⟨iv, r, body, ?_, h2, h3⟩
        rw [evolve_key hE e4 e6 h4 hk, data_hdr] at henc
        exact henc
  | decode s b e p ho hb hst hr =>
    refine quiet rfl rfl (by simp) id ?_
    intro kt kr t r wt wr ot or it ir h1 h2
    rw [hr] at h2; cases h2
    exact ⟨t, _, h1, rfl, it, tDecode_inv hE wr or ir p e.junk, UInt64.le_refl _, tDecode_seq E s p e.junk⟩
  | recv s s' b e p d ho hb hst' hr hd =>
    have m : Micro E op c _ _ := .recv c s s' b e p d ho hb hst' hr hd
    obtain ⟨r, h1, h2, h3⟩ := tDecode_some hd
    obtain ⟨h4, -, k, hk, h5, hdec⟩ := streamDecode_some h3
    refine ⟨m.streams hst, ?_, .inr ?_⟩
    · intro b' hm hn
      simp only [List.mem_append, List.mem_singleton, reduceCtorEq, or_false] at hm
      exact hhs b' hm hn
    · rcases hst with ⟨-, g1, -⟩ | ⟨t0, r0, g1, g2, g3, g4, g5, -⟩
      · rw [hr] at g1; cases g1
      rw [hr] at g2; cases g2
      rcases hch with ⟨h1, -⟩ | ⟨kt, kr, t, rr, e1, e2, e3, e4, e5, e6, e7, e8⟩
      · rw [h1] at g1; cases g1
      rw [hr] at e2; cases e2
      have ls : s'.lastSeq = pktSeq p e.junk := by rw [h5]
      have i' : StreamInv E kr s' := by
        have := tDecode_inv hE e5 g4 e7 p e.junk
        rw [hd] at this
        exact this
      refine ⟨kt, kr, t, s', e1, rfl, e3, e4, e5, e6, i', ?_⟩
      rw [ls]
      refine e8.recv ⟨pktSeq p e.junk, d, b⟩ h4 ⟨e, ho ▸ hop⟩ ⟨p, r, hb, h2, h1, ?_, ?_⟩
      · intro s hs
        simp only [pktSeq, hs]
      · rw [evolve_key hE e5 e7 h4 hk] at hdec
        exact hdec
  | copy _ ho hc =>
    obtain ⟨l, r0, r', tx, rx, -, -, -, htx, hrx, rfl⟩ := tCopy_some hc
    refine quiet rfl rfl (by simp) ?_ ?_
    · intro hn
      rw [hn] at htx
      exact copyOpt_none htx
    · intro kt kr t r wt wr ot or it ir h1 h2
      rw [h1] at htx; rw [h2] at hrx
      obtain ⟨t', ct, rfl⟩ := copyOpt_some htx
      obtain ⟨r', cr, rfl⟩ := copyOpt_some hrx
      exact ⟨t', r', rfl, rfl, copy_inv it ct, copy_inv ir cr, by rw [(streamCtxCopy_some ct).2.1]; exact UInt64.le_refl _,
        by rw [(streamCtxCopy_some cr).2.1]; exact UInt64.le_refl _⟩

/-- C29: over any history of calls, either no data packet was sent and nothing was delivered, or there
is one pair of stream keys, negotiated by a handshake, such that every packet sent is a handshake
packet or the cipher text, under the send key of its sequence number, of data the application handed
over, and everything delivered came out of authenticated decryption, under the receive key of its
sequence number, of a packet the application fed in; on both sides the sequence numbers strictly
increase, so nothing is delivered twice. -/
theorem C29_data_only_through_channel (E : Engine) (hE : E.Lawful) (self : Chain) (remote : Option Chain)
    (evo : UInt32) (c0 c : TCtx) (ops : List TOp) (evs : List TEv) (h0 : tCreate self remote evo = some c0)
    (h : tRun E c0 ops = .ok (c, evs)) :
    (∀ b, TEv.tx b ∈ evs → dataSeq b = none → ∃ t rest, b = t :: rest ∧ t.toNat / 16 = 0) ∧
    ((dataSent evs = [] ∧ delivered evs = []) ∨
     ∃ kt kr lt lr, (∃ h h', hsFinalize E h = (h', some ⟨kt, kr⟩)) ∧ WfStreamKey kt ∧ WfStreamKey kr ∧
       Traffic E ops kt kr lt lr evs) := by
  have hi : ChanInv E ops c0 [] := ⟨streams_create h0, by simp, .inl ⟨by rw [tCreate_eq h0], rfl, rfl⟩⟩
  obtain ⟨-, h1, h2⟩ := run_hist_mem (P := ChanInv E ops) ops (fun _ ho _ _ _ _ m hs => m.chanInv hE ho hs)
    (evs0 := []) (base_create h0) hi h
  refine ⟨h1, ?_⟩
  rcases h2 with ⟨-, h2⟩ | ⟨kt, kr, t, r, -, -, h3, h4, h5, -, -, h6⟩
  · exact .inl h2
  · exact .inr ⟨kt, kr, _, _, h3, h4, h5, h6⟩

theorem tError_silent (c : TCtx) (x : TErr) : delivered (tError c x).2 = [] ∧ ∀ w, TEv.tx w ∉ (tError c x).2 := by
  rw [tError_evs]; split <;> simp [delivered]

theorem tSend_evs {E : Engine} {c c' : TCtx} {b : Option Bytes} {e : List TEv} (h : tSend E c b = .ok (c', e)) :
    delivered e = [] ∧ ∀ w, TEv.tx w ∈ e → c.status = .active ∧ e = [.tx w] ∧ (dataSeq w).isSome := by
  have hq : ∀ {d : TCtx} {x : TErr}, (Res.ok (tError d x) : Res (TCtx × List TEv)) = .ok (c', e) →
      delivered e = [] ∧ ∀ w, TEv.tx w ∈ e → c.status = .active ∧ e = [.tx w] ∧ (dataSeq w).isSome := by
    intro d x h
    rw [Res.ok.injEq] at h
    have := congrArg Prod.snd h
    simp only at this
    subst this
    exact ⟨(tError_silent d x).1, fun w hw => absurd hw ((tError_silent d x).2 w)⟩
  unfold tSend at h
  split at h
  · exact hq h
  split at h
  · exact hq h
  next hst =>
  split at h
  · cases h
  simp only at h
  split at h
  · exact hq h
  next p hp =>
  split at h
  · exact hq h
  next s ht _ out ho =>
  cases h
  refine ⟨rfl, fun w hw => ?_⟩
  simp only [List.mem_singleton, TEv.tx.injEq] at hw
  subst hw
  obtain ⟨r, body, -, -, rfl⟩ := tEncode_some (Prod.ext rfl hp)
  rw [data_wire ho, dataSeq_data]
  exact ⟨Decidable.byContradiction hst, rfl, rfl⟩

theorem tSends_evs {E : Engine} {bs : List Bytes} : ∀ {c c' : TCtx} {e : List TEv},
    tSends E c bs = .ok (c', e) → delivered e = [] := by
  induction bs with
  | nil => intro c c' e h; cases h; rfl
  | cons b bs ih =>
    intro c c' e h
    obtain ⟨⟨c1, e1⟩, s1, r1⟩ := Res.bind_eq_ok.1 h
    obtain ⟨⟨c2, e2⟩, s2, r2⟩ := Res.bind_eq_ok.1 r1
    cases r2
    rw [delivered_append, (tSend_evs s1).1, ih s2]; rfl

theorem tFinalize_evs {E : Engine} {c c' : TCtx} {env : TEnv} {e : List TEv}
    (h : tFinalizeIfReady E c env = .ok (c', e)) : delivered e = [] := by
  unfold tFinalizeIfReady at h
  split at h
  case isFalse => cases h; rfl
  unfold tFinalize at h
  split at h
  · cases h; rfl
  split at h
  · cases h; rfl
  split at h
  · cases h; rfl
  split at h
  · cases h; rfl
  unfold tActivate at h
  split at h
  · cases h; rfl
  obtain ⟨⟨c1, e1⟩, s1, r1⟩ := Res.bind_eq_ok.1 h
  cases r1
  have := tSends_evs s1
  simpa [delivered] using this

theorem tVolley_evs (c : TCtx) (q : Option Packet) (f v : TErr) : delivered (tVolley c q f v).2 = [] := by
  unfold tVolley
  split
  · exact (tError_silent _ _).1
  split
  · rfl
  split
  · exact (tError_silent _ _).1
  · rfl

theorem tAnswer_evs {E : Engine} {c c' : TCtx} {v : Bool} {env : TEnv} {e : List TEv}
    (h : tAnswer E c v env = .ok (c', e)) : delivered e = [] := by
  unfold tAnswer at h
  split at h
  · cases h; rfl
  obtain ⟨⟨c1, e1⟩, s1, r1⟩ := Res.bind_eq_ok.1 h
  cases r1
  rw [delivered_append, tFinalize_evs s1, tVolley_evs]; rfl

theorem tAnswers_evs {E : Engine} {env : TEnv} {vs : List Bool} : ∀ {c c' : TCtx} {e : List TEv},
    tAnswers E c env vs = .ok (c', e) → delivered e = [] := by
  induction vs with
  | nil => intro c c' e h; cases h; rfl
  | cons b bs ih =>
    intro c c' e h
    obtain ⟨⟨c1, e1⟩, s1, r1⟩ := Res.bind_eq_ok.1 h
    obtain ⟨⟨c2, e2⟩, s2, r2⟩ := Res.bind_eq_ok.1 r1
    cases r2
    rw [delivered_append, tAnswer_evs s1, ih s2]; rfl

theorem tProcessHs_evs {E : Engine} {c c' : TCtx} {p : Packet} {env : TEnv} {e : List TEv}
    (h : tProcessHs E c p env = .ok (c', e)) : delivered e = [] := by
  unfold tProcessHs at h
  split at h
  · rw [Res.ok.injEq] at h
    have := congrArg Prod.snd h
    simp only at this
    subst this
    exact (tError_silent _ _).1
  obtain ⟨⟨c1, e1⟩, s1, r1⟩ := Res.bind_eq_ok.1 h
  obtain ⟨⟨c2, e2⟩, s2, r2⟩ := Res.bind_eq_ok.1 r1
  obtain ⟨⟨c3, e3⟩, s3, r3⟩ := Res.bind_eq_ok.1 r2
  cases r3
  have h2 : delivered e2 = [] := by
    unfold tAsk at s2
    split at s2
    · cases s2; rfl
    obtain ⟨⟨c4, e4⟩, s4, r4⟩ := Res.bind_eq_ok.1 s2
    cases r4
    have := tAnswers_evs s4
    simpa [delivered] using this
  rw [delivered_append, delivered_append, h2, tFinalize_evs s3, tVolley_evs]; rfl

theorem tStart_evs (E : Engine) (c : TCtx) (r : HsRand) : delivered (tStart E c r).2 = [] := by
  unfold tStart
  split
  · exact (tError_silent _ _).1
  split
  · exact (tError_silent _ _).1
  split
  · exact (tError_silent _ _).1
  split
  · exact (tError_silent _ _).1
  split
  · exact (tError_silent _ _).1
  · simp only [tUpdate]
    split <;> rfl

/-- C29, when: a call that delivers data is a `process_rx_buffer` on an ACTIVE context; a
`process_tx_buffer` sends nothing unless the context is ACTIVE, and at most one data packet otherwise. -/
theorem C29_data_only_when_active (E : Engine) (self : Chain) (remote : Option Chain) (evo : UInt32) (c0 c c' : TCtx)
    (ops : List TOp) (op : TOp) (evs e : List TEv) (h0 : tCreate self remote evo = some c0)
    (h : tRun E c0 ops = .ok (c, evs)) (hop : op.step E c = .ok (c', e)) :
    (delivered e ≠ [] → c.status = .active ∧ ∃ b env d, op = .recv (some b) env ∧ e = [.rx d]) ∧
    (∀ b, op = .send b → c.status ≠ .active → ∀ w, TEv.tx w ∉ e) ∧
    (∀ b, op = .send b → ∀ w, TEv.tx w ∈ e → e = [.tx w] ∧ (dataSeq w).isSome) := by
  have hs := streams_run (base_create h0) (streams_create h0) h
  have send : ∀ b, op = .send b → delivered e = [] ∧
      ∀ w, TEv.tx w ∈ e → c.status = .active ∧ e = [.tx w] ∧ (dataSeq w).isSome := by
    rintro b rfl
    exact tSend_evs hop
  refine ⟨?_, fun b hb hn w hw => hn (((send b hb).2 w hw).1), fun b hb w hw => ((send b hb).2 w hw).2⟩
  intro hd
  cases op with
  | start r =>
    simp only [TOp.step] at hop
    rw [Res.ok.injEq] at hop
    have := tStart_evs E c r
    rw [hop] at this
    exact absurd this hd
  | send b => exact absurd (send b rfl).1 hd
  | answer v env => exact absurd (tAnswer_evs hop) hd
  | copy => simp only [TOp.step, Res.ok.injEq, Prod.mk.injEq] at hop; rw [← hop.2] at hd; exact absurd rfl hd
  | recv b env =>
    simp only [TOp.step] at hop
    have hq : ∀ {d : TCtx} {x : TErr}, (Res.ok (tError d x) : Res (TCtx × List TEv)) = .ok (c', e) → False := by
      intro d x h
      rw [Res.ok.injEq] at h
      have := congrArg Prod.snd h
      simp only at this
      subst this
      exact hd (tError_silent d x).1
    unfold tRecv at hop
    split at hop
    · exact (hq hop).elim
    next b =>
    split at hop
    · next he =>
      simp only [tUpdate, he, if_true, Res.ok.injEq, Prod.mk.injEq] at hop
      rw [← hop.2] at hd; exact absurd rfl hd
    next he =>
    split at hop
    · exact (hq hop).elim
    split at hop
    · exact absurd (tProcessHs_evs hop) hd
    split at hop
    · exact (hq hop).elim
    next s hr =>
    simp only at hop
    split at hop
    · exact (hq hop).elim
    next d hdd =>
    cases hop
    refine ⟨?_, b, env, d, rfl, rfl⟩
    rcases hs with ⟨-, g1, -⟩ | ⟨t0, r0, g1, g2, g3, g4, g5, g6⟩
    · rw [hr] at g1; cases g1
    · exact g6.resolve_right he

end Wickr
