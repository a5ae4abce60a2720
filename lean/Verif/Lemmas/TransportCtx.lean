import Verif.Model.TransportCtx
import Verif.Lemmas.Handshake
import Verif.Lemmas.Stream
set_option linter.unusedSimpArgs false
/-
The calls on a transport context decomposed into elementary steps, so that invariants need to be
checked for those only.
-/
namespace Wickr
open Spec

/-! ### Packets the handshake wants sent -/

/-- The header of a signed handshake packet. -/
def HsOutPkt (q : Packet) : Prop := q.hdr = ⟨.handshake 1 0, macP521⟩

theorem pktSign_hdr {E : Engine} {p q : Packet} {c : Chain} {n : Bytes} (h : pktSign E p c n = (q, true)) :
    q.hdr = { p.hdr with mac := macP521 } := by
  unfold pktSign at h
  split at h
  · cases h
  · split at h
    · cases h
    · have := congrArg Prod.fst h
      simp only [] at this
      subst this; rfl

theorem hsBuildSigned_out {E : Engine} {h h' : Handshake} {m : PHandshake} {n : Bytes} {b : Bool} {q : Packet}
    (e : hsBuildSigned E h m n b = (h', some q)) : HsOutPkt q := by
  unfold hsBuildSigned at e
  split at e
  · cases e
  next p hp =>
  split at e
  · cases e
  next p' hs =>
  cases e
  unfold handshakeToPacket at hp
  simp only [Option.map_eq_some_iff] at hp
  obtain ⟨b, -, rfl⟩ := hp
  exact pktSign_hdr hs

theorem hsStart_out {E : Engine} {h h' : Handshake} {r : HsRand} {q : Packet}
    (e : hsStart E h r = (h', some q)) : HsOutPkt q := by
  unfold hsStart at e
  split at e
  · cases e
  simp only [] at e
  split at e
  · cases e
  exact hsBuildSigned_out e

theorem hsProcessInitial_out {E : Engine} {h h' : Handshake} {p : Packet} {r : HsRand} {q : Packet}
    (e : hsProcessInitial E h p r = .ok (h', some q)) : HsOutPkt q := by
  unfold hsProcessInitial at e
  simp only [] at e
  split at e
  · cases e
  · cases e
  · cases e
  split at e
  case h_2 => cases e
  split at e
  · cases e
  split at e
  case h_2 => cases e
  split at e
  · cases e
  split at e
  · cases e
  next hb =>
  cases e
  exact hsBuildSigned_out hb

/-- The packet kept back while the identity is being verified is one of ours. -/
def PendOk (h : Handshake) : Prop := ∀ q, h.pendingPkt = some q → HsOutPkt q

theorem hsProcess_out {E : Engine} {h h' : Handshake} {p : Option Packet} {r : HsRand} {out : HsOut}
    (hp : PendOk h) (e : hsProcess E h p r = .ok (h', out)) :
    PendOk h' ∧ ∀ q, out.send = some q → HsOutPkt q := by
  unfold hsProcess at e
  cases p with
  | none => cases e; exact ⟨hp, by simp⟩
  | some pk =>
    simp only [] at e
    split at e
    · cases e; exact ⟨hp, by simp⟩
    obtain ⟨⟨g, q⟩, e1, e2⟩ := Res.bind_eq_ok.1 e
    have key : PendOk g ∧ ∀ q', q = some q' → HsOutPkt q' := by
      split at e1
      · next hs =>
        refine ⟨?_, fun q' hq => by subst hq; exact hsProcessInitial_out e1⟩
        intro q' hq
        rw [(hsProcessInitial_spec hs e1).1.pend] at hq
        exact hp q' hq
      · next hs =>
        obtain ⟨g', e3, e4⟩ := Res.bind_eq_ok.1 e1
        cases e4
        refine ⟨?_, by simp⟩
        intro q' hq
        rw [(hsProcessResponse_spec hs e3).pend] at hq
        exact hp q' hq
      · cases e1; exact ⟨hp, by simp⟩
    obtain ⟨k1, k2⟩ := key
    simp only [] at e2
    split at e2
    · cases e2; exact ⟨k1, by simp⟩
    split at e2
    · cases e2; exact ⟨k2, by simp⟩
    · cases e2; exact ⟨k1, k2⟩

theorem hsVerify_out {h : Handshake} {v : Bool} (hp : PendOk h) :
    PendOk (hsVerify h v).1 ∧ ∀ q, (hsVerify h v).2 = some q → HsOutPkt q := by
  unfold hsVerify
  split
  · exact ⟨hp, by simp⟩
  · exact ⟨fun q hq => by simp at hq, hp⟩

theorem hsFinalize_pend {E : Engine} {h h' : Handshake} {o : Option HsKeys} (hp : PendOk h)
    (e : hsFinalize E h = (h', o)) : PendOk h' := by
  unfold hsFinalize at e
  split at e
  · cases e; exact hp
  split at e
  · cases e; exact hp
  split at e <;> (cases e; exact hp)

theorem hsStart_pend {E : Engine} {h : Handshake} {r : HsRand} (hp : PendOk h) : PendOk (hsStart E h r).1 := by
  unfold hsStart
  split
  · exact hp
  simp only []
  split
  · exact hp
  rcases hb : hsBuildSigned E { h with isInitiator := true, status := .inProgress, eph := some r.eph } _ _ false
    with ⟨g, q⟩
  rcases hsBuildSigned_cases hb with ⟨rfl, rfl⟩ | ⟨pk, rfl, rfl⟩
  · exact hp
  · intro q hq
    rw [(hsSetSlot_fields _ _ _).2.2.2.2.2.1] at hq
    exact hp q hq

theorem hsCreate_eq {l : Chain} {r : Option Chain} {e : UInt32} {h : Handshake} (he : hsCreate l r e = some h) :
    h = ⟨l, r, none, none, .unknown, none, none, none, false, e⟩ := by
  unfold hsCreate at he
  split at he
  · simp at he
  · cases he; rfl

/-! ### Elementary steps -/

/-- The application's decision `v` is part of the call. -/
def Decides (op : TOp) (v : Bool) : Prop :=
  (∃ e, op = .answer v e) ∨ ∃ b e, op = .recv b e ∧ v ∈ e.answers

/-- The application hands over `data` for sending during the call. -/
def HandsOver (op : TOp) (data : Bytes) : Prop :=
  op = .send (some data) ∨ (∃ v e, op = .answer v e ∧ data ∈ e.onActive) ∨
    ∃ b e, op = .recv b e ∧ data ∈ e.onActive

inductive Micro (E : Engine) (op : TOp) : TCtx → List TEv → TCtx → Prop where
  | fail (c : TCtx) (x : TErr) : Micro E op c (tError c x).2 (tError c x).1
  | create (c : TCtx) (h : Handshake) (hs : c.status = .fresh) (hc : tCreateHandshake c = some h)
      (ho : c.pending = none ∨ ∃ r, op = .start r) :
      Micro E op c [] { c with pending := some h }
  | drop (c : TCtx) (hs : c.status = .fresh) (ho : ∃ r, op = .start r) : Micro E op c [] { c with pending := none }
  | start (c : TCtx) (h : Handshake) (r : HsRand) (ho : op = .start r) (hp : c.pending = some h)
      (hs : c.status = .fresh) : Micro E op c [] { c with pending := some (hsStart E h r).1 }
  | begin (c : TCtx) (hs : c.status = .fresh) (h : Handshake) (hp : c.pending = some h) :
      Micro E op c [.state .initialHandshake] { c with status := .initialHandshake }
  | process (c : TCtx) (h h' : Handshake) (b : Bytes) (e : TEnv) (p : Packet) (out : HsOut)
      (ho : op = .recv (some b) e) (hb : pktFromBuffer b = some p) (hp : c.pending = some h)
      (hst : c.status ≠ .error)
      (hr : hsProcess E h (some p) e.hs = .ok (h', out)) :
      Micro E op c (out.ask.map TEv.ask).toList { c with pending := some h' }
  | verify (c : TCtx) (h : Handshake) (v : Bool) (ho : Decides op v) (hp : c.pending = some h) :
      Micro E op c [] { c with pending := some (hsVerify h v).1 }
  | noKeys (c : TCtx) (h h' : Handshake) (hp : c.pending = some h) (hf : hsFinalize E h = (h', none)) :
      Micro E op c [] { c with pending := some h' }
  | noStream (c : TCtx) (h h' : Handshake) (ks : HsKeys) (hp : c.pending = some h)
      (hf : hsFinalize E h = (h', some ks))
      (hn : (streamKeyCopy ks.localKey).bind (streamCtxCreate · .encode []) = none ∨
        (streamKeyCopy ks.remoteKey).bind (streamCtxCreate · .decode []) = none) :
      Micro E op c [] { c with pending := none }
  | activate (c : TCtx) (h h' : Handshake) (ks : HsKeys) (seed : Bytes) (t r : StreamCtx)
      (hp : c.pending = some h) (hst : c.status ≠ .active) (hf : hsFinalize E h = (h', some ks))
      (ht : streamCtxCreate ks.localKey .encode seed = some t)
      (hr : streamCtxCreate ks.remoteKey .decode [] = some r) :
      Micro E op c [.state .active] { c with pending := none, rx := some r, tx := some t, status := .active }
  | volley (c : TCtx) (q : Packet) (b : Bytes) (hq : HsOutPkt q) (hb : pktSerialize q = some b) :
      Micro E op c [.tx b] c
  | encode (c : TCtx) (s : StreamCtx) (data : Bytes) (ho : HandsOver op data) (hst : c.status = .active)
      (ht : c.tx = some s) : Micro E op c [] { c with tx := some (tEncode E s data).1 }
  | send (c : TCtx) (s s' : StreamCtx) (data b : Bytes) (p : Packet) (ho : HandsOver op data)
      (hst : c.status = .active) (ht : c.tx = some s) (he : tEncode E s data = (s', some p))
      (hb : pktSerialize p = some b) : Micro E op c [.tx b] { c with tx := some s' }
  | decode (c : TCtx) (s : StreamCtx) (b : Bytes) (e : TEnv) (p : Packet) (ho : op = .recv (some b) e)
      (hb : pktFromBuffer b = some p) (hst : c.status ≠ .error) (hr : c.rx = some s) :
      Micro E op c [] { c with rx := some (tDecode E s p e.junk).1 }
  | recv (c : TCtx) (s s' : StreamCtx) (b : Bytes) (e : TEnv) (p : Packet) (d : Bytes)
      (ho : op = .recv (some b) e) (hb : pktFromBuffer b = some p) (hst : c.status ≠ .error)
      (hr : c.rx = some s) (hd : tDecode E s p e.junk = (s', some d)) :
      Micro E op c [.rx d] { c with rx := some s' }
  | copy (c c' : TCtx) (ho : op = .copy) (hc : tCopy c = some c') : Micro E op c [] c'

inductive Micros (E : Engine) (op : TOp) : TCtx → List TEv → TCtx → Prop where
  | nil (c : TCtx) : Micros E op c [] c
  | cons {c c1 c2 : TCtx} {e1 e2 : List TEv} (h : Micro E op c e1 c1) (t : Micros E op c1 e2 c2) :
      Micros E op c (e1 ++ e2) c2

theorem Micros.one {E : Engine} {op : TOp} {c c' : TCtx} {e : List TEv} (h : Micro E op c e c') :
    Micros E op c e c' := by
  have := Micros.cons h (.nil c')
  rwa [List.append_nil] at this

theorem Micros.append {E : Engine} {op : TOp} {c c1 c2 : TCtx} {e1 e2 : List TEv} (h : Micros E op c e1 c1)
    (t : Micros E op c1 e2 c2) : Micros E op c (e1 ++ e2) c2 := by
  induction h with
  | nil => exact t
  | cons h _ ih => rw [List.append_assoc]; exact .cons h (ih t)

theorem Micros.silent {E : Engine} {op : TOp} {c c1 c2 : TCtx} {e2 : List TEv} (h : Micro E op c [] c1)
    (t : Micros E op c1 e2 c2) : Micros E op c e2 c2 := .cons h t

/-- Induction along elementary steps. -/
theorem Micros.inv {E : Engine} {op : TOp} {P : TCtx → Prop}
    (hm : ∀ c e c', Micro E op c e c' → P c → P c') {c c' : TCtx} {e : List TEv}
    (h : Micros E op c e c') (hc : P c) : P c' := by
  induction h with
  | nil => exact hc
  | cons h _ ih => exact ih (hm _ _ _ h hc)

/-- Every handshake the context keeps satisfies `PendOk`. -/
def CtxPendOk (c : TCtx) : Prop := ∀ h, c.pending = some h → PendOk h

theorem tUpdate_pending (c : TCtx) (s : TStatus) : (tUpdate c s).1.pending = c.pending := by
  unfold tUpdate; split <;> rfl

theorem tCreateHandshake_eq {c : TCtx} {h : Handshake} (e : tCreateHandshake c = some h) :
    ∃ l, chainCopy c.self = some l ∧ hsCreate l (c.remote.bind chainCopy) c.evo = some h := by
  unfold tCreateHandshake at e
  exact Option.bind_eq_some_iff.1 e

theorem tCopy_some {c c' : TCtx} (h : tCopy c = some c') :
    ∃ l r0 r tx rx, chainCopy c.self = some l ∧ c.remote = some r0 ∧ chainCopy r0 = some r ∧
      copyOpt streamCtxCopy c.tx = some tx ∧ copyOpt streamCtxCopy c.rx = some rx ∧
      c' = ⟨rx, tx, l, some r, c.status, c.evo, none, .noError⟩ := by
  unfold tCopy at h
  obtain ⟨l, h1, h⟩ := Option.bind_eq_some_iff.1 h
  obtain ⟨r, h2, h⟩ := Option.bind_eq_some_iff.1 h
  obtain ⟨r0, h2, h3⟩ := Option.bind_eq_some_iff.1 h2
  obtain ⟨tx, h4, h⟩ := Option.bind_eq_some_iff.1 h
  obtain ⟨rx, h5, h⟩ := Option.map_eq_some_iff.1 h
  exact ⟨l, r0, r, tx, rx, h1, h2, h3, h4, h5, h.symm⟩

theorem Micro.pendOk {E : Engine} {op : TOp} {c c' : TCtx} {e : List TEv} (h : Micro E op c e c')
    (hc : CtxPendOk c) : CtxPendOk c' := by
  cases h with
  | fail x => intro g hg; rw [tError, tUpdate_pending] at hg; exact hc g hg
  | create h hs he _ =>
    intro g hg
    cases hg
    obtain ⟨l, -, he⟩ := tCreateHandshake_eq he
    rw [hsCreate_eq he]
    intro q hq; cases hq
  | drop => intro g hg; cases hg
  | start h r ho hp => intro g hg; cases hg; exact hsStart_pend (hc h hp)
  | begin => exact hc
  | process h h' b e p out ho hb hp hst hr => intro g hg; cases hg; exact (hsProcess_out (hc h hp) hr).1
  | verify h v ho hp => intro g hg; cases hg; exact (hsVerify_out (hc h hp)).1
  | noKeys h h' hp hf => intro g hg; cases hg; exact hsFinalize_pend (hc h hp) hf
  | noStream => intro g hg; cases hg
  | activate => intro g hg; cases hg
  | volley => exact hc
  | encode => exact hc
  | send => exact hc
  | decode => exact hc
  | recv => exact hc
  | copy _ ho hcp =>
    obtain ⟨l, r0, r, tx, rx, -, -, -, -, -, rfl⟩ := tCopy_some hcp
    intro g hg; cases hg

theorem Micros.pendOk {E : Engine} {op : TOp} {c c' : TCtx} {e : List TEv} (h : Micros E op c e c')
    (hc : CtxPendOk c) : CtxPendOk c' := h.inv (fun _ _ _ h => h.pendOk) hc

/-! ### Every call is a sequence of elementary steps -/

theorem failP {E : Engine} {op : TOp} {d c' : TCtx} {x : TErr} {evs : List TEv}
    (h : tError d x = (c', evs)) : Micros E op d evs c' := by
  have h1 := congrArg Prod.fst h
  have h2 := congrArg Prod.snd h
  replace h1 : (tError d x).1 = c' := h1
  replace h2 : (tError d x).2 = evs := h2
  subst h1 h2
  exact .one (.fail d x)

theorem failR {E : Engine} {op : TOp} {d c' : TCtx} {x : TErr} {evs : List TEv}
    (h : (Res.ok (tError d x)) = .ok (c', evs)) : Micros E op d evs c' := failP (Res.ok.inj h)

theorem tSend_micros {E : Engine} {op : TOp} {c c' : TCtx} {b : Bytes} {evs : List TEv} (ho : HandsOver op b)
    (h : tSend E c (some b) = .ok (c', evs)) : Micros E op c evs c' := by
  simp only [tSend] at h
  split at h
  · exact failR h
  next hst =>
  have hst : c.status = .active := Decidable.byContradiction hst
  split at h
  · cases h
  next s hs =>
  split at h
  · exact .silent (.encode c s b ho hst hs) (failR h)
  next p hp =>
  split at h
  · exact .silent (.encode c s b ho hst hs) (failR h)
  next out hout =>
  cases h
  exact .one (.send c s _ b out p ho hst hs (by rw [← hp]) hout)

theorem tSends_micros {E : Engine} {op : TOp} {bs : List Bytes} (ho : ∀ b ∈ bs, HandsOver op b) :
    ∀ {c c' : TCtx} {evs : List TEv}, tSends E c bs = .ok (c', evs) → Micros E op c evs c' := by
  induction bs with
  | nil => intro c c' evs h; cases h; exact .nil c
  | cons b bs ih =>
    intro c c' evs h
    obtain ⟨⟨c1, e1⟩, h1, h2⟩ := Res.bind_eq_ok.1 h
    obtain ⟨⟨c2, e2⟩, h3, h4⟩ := Res.bind_eq_ok.1 h2
    cases h4
    exact (tSend_micros (ho b (by simp)) h1).append (ih (fun b hb => ho b (by simp [hb])) h3)

theorem streamCtxCreate_none {k : StreamKey} {d : Dir} {s s' : Bytes} (h : streamCtxCreate k d s = none) :
    streamCtxCreate k d s' = none := by
  unfold streamCtxCreate at *
  split at h
  · next hn => rw [if_pos hn]
  · cases h

/-- No activation happens twice: used with `NotActive`. -/
def NotActive (c : TCtx) : Prop := c.pending.isSome → c.status ≠ .active

theorem tFinalize_micros {E : Engine} {op : TOp} {c c' : TCtx} {e : TEnv} {evs : List TEv} (hna : NotActive c)
    (ho : ∀ b ∈ e.onActive, HandsOver op b) (h : tFinalize E c e = .ok (c', evs)) : Micros E op c evs c' := by
  unfold tFinalize at h
  split at h
  · cases h; exact .nil c
  next h0 hp =>
  split at h
  · next h1 hf => cases h; exact .one (.noKeys c h0 h1 hp hf)
  next h1 ks hf =>
  split at h
  · next hn =>
    cases h
    refine .one (.noStream c h0 h1 ks hp hf (Or.inl ?_))
    cases hk : streamKeyCopy ks.localKey with
    | none => rfl
    | some k => rw [hk] at hn; exact streamCtxCreate_none hn
  next t ht =>
  split at h
  · next hn => cases h; exact .one (.noStream c h0 h1 ks hp hf (Or.inr hn))
  next r hr =>
  have hst : c.status ≠ .active := hna (by rw [hp]; rfl)
  obtain ⟨k1, hk1, ht⟩ := Option.bind_eq_some_iff.1 ht
  obtain ⟨k2, hk2, hr⟩ := Option.bind_eq_some_iff.1 hr
  rw [streamKeyCopy_some hk1] at ht
  rw [streamKeyCopy_some hk2] at hr
  unfold tActivate at h
  rw [if_neg hst] at h
  obtain ⟨⟨c1, e1⟩, h2, h3⟩ := Res.bind_eq_ok.1 h
  cases h3
  exact .cons (.activate c h0 h1 ks e.seed t r hp hst hf ht hr) (tSends_micros ho h2)

theorem tFinalizeIfReady_micros {E : Engine} {op : TOp} {c c' : TCtx} {e : TEnv} {evs : List TEv}
    (hna : NotActive c) (ho : ∀ b ∈ e.onActive, HandsOver op b)
    (h : tFinalizeIfReady E c e = .ok (c', evs)) : Micros E op c evs c' := by
  unfold tFinalizeIfReady at h
  split at h
  · exact tFinalize_micros hna ho h
  · cases h; exact .nil c

theorem tVolley_micros {E : Engine} {op : TOp} {c : TCtx} {q : Option Packet} {x y : TErr}
    (hq : ∀ q', q = some q' → HsOutPkt q') : Micros E op c (tVolley c q x y).2 (tVolley c q x y).1 := by
  unfold tVolley
  split
  · exact .one (.fail c x)
  · split
    · exact .nil c
    · next q' =>
      split
      · exact .one (.fail c y)
      · next b hb => exact .one (.volley c q' b (hq q' rfl) hb)

/-- A pending handshake excludes ACTIVE. -/
theorem Micro.notActive {E : Engine} {op : TOp} {c c' : TCtx} {e : List TEv} (h : Micro E op c e c')
    (hc : NotActive c) : NotActive c' := by
  unfold NotActive at *
  cases h with
  | fail x =>
    rw [tError, tUpdate_pending]
    intro hp
    have := hc hp
    unfold tUpdate
    split
    · next hs => simpa using this
    · simp
  | create h hs he _ => intro _; simp [hs]
  | drop => simp
  | start h r ho hp hs => intro _; simp [hs]
  | begin => intro _; simp
  | process h h' b e p out ho hb hp hst hr => intro _; exact hc (by rw [hp]; rfl)
  | verify h v ho hp => intro _; exact hc (by rw [hp]; rfl)
  | noKeys h h' hp hf => intro _; exact hc (by rw [hp]; rfl)
  | noStream => simp
  | activate => simp
  | volley => exact hc
  | encode => exact hc
  | send => exact hc
  | decode => exact hc
  | recv => exact hc
  | copy _ ho hcp =>
    obtain ⟨l, r0, r, tx, rx, -, -, -, -, -, rfl⟩ := tCopy_some hcp
    simp

theorem Micros.notActive {E : Engine} {op : TOp} {c c' : TCtx} {e : List TEv} (h : Micros E op c e c')
    (hc : NotActive c) : NotActive c' := h.inv (fun _ _ _ h => h.notActive) hc

theorem tAnswer_micros {E : Engine} {op : TOp} {c c' : TCtx} {v : Bool} {e : TEnv} {evs : List TEv}
    (hpo : CtxPendOk c) (hna : NotActive c) (hv : Decides op v) (ho : ∀ b ∈ e.onActive, HandsOver op b)
    (h : tAnswer E c v e = .ok (c', evs)) : Micros E op c evs c' := by
  unfold tAnswer at h
  split at h
  · cases h; exact .nil c
  next h0 hp =>
  obtain ⟨⟨c1, e1⟩, h1, h2⟩ := Res.bind_eq_ok.1 h
  cases h2
  have m1 : Micro E op c [] { c with pending := some (hsVerify h0 v).1 } := .verify c h0 v hv hp
  have m2 := tFinalizeIfReady_micros (m1.notActive hna) ho h1
  exact .silent m1 (m2.append (tVolley_micros (hsVerify_out (hpo h0 hp)).2))

theorem tAnswers_micros {E : Engine} {op : TOp} {e : TEnv} (ho : ∀ b ∈ e.onActive, HandsOver op b) {vs : List Bool}
    (hv : ∀ v ∈ vs, Decides op v) : ∀ {c c' : TCtx} {evs : List TEv}, CtxPendOk c → NotActive c →
      tAnswers E c e vs = .ok (c', evs) → Micros E op c evs c' := by
  induction vs with
  | nil => intro c c' evs _ _ h; cases h; exact .nil c
  | cons v vs ih =>
    intro c c' evs hpo hna h
    obtain ⟨⟨c1, e1⟩, h1, h2⟩ := Res.bind_eq_ok.1 h
    obtain ⟨⟨c2, e2⟩, h3, h4⟩ := Res.bind_eq_ok.1 h2
    cases h4
    have m := tAnswer_micros hpo hna (hv v (by simp)) ho h1
    exact m.append (ih (fun v hb => hv v (by simp [hb])) (m.pendOk hpo) (m.notActive hna) h3)

theorem tProcessHs_micros {E : Engine} {c c' : TCtx} {b : Bytes} {p : Packet} {e : TEnv} {evs : List TEv}
    (hpo : CtxPendOk c) (hna : NotActive c) (hst : c.status ≠ .error) (hb : pktFromBuffer b = some p)
    (hcan : tCanHandshake c = true)
    (h : tProcessHs E c p e = .ok (c', evs)) : Micros E (.recv (some b) e) c evs c' := by
  have ho : ∀ d ∈ e.onActive, HandsOver (.recv (some b) e) d := fun d hd => Or.inr (Or.inr ⟨_, _, rfl, hd⟩)
  have hv : ∀ v ∈ e.answers, Decides (.recv (some b) e) v := fun v hv => Or.inr ⟨_, _, rfl, hv⟩
  unfold tProcessHs at h
  split at h
  · exact failR h
  next h0 hh =>
  -- the handshake exists or is created
  have m0 : Micros E (.recv (some b) e) c [] { c with pending := some h0 } := by
    cases hp : c.pending with
    | some g =>
      rw [hp] at hh
      cases hh
      have : { c with pending := some h0 } = c := by rw [← hp]
      rw [this]; exact .nil c
    | none =>
      rw [hp] at hh
      have hfresh : c.status = .fresh := by simpa [tCanHandshake, hp] using hcan
      exact .one (.create c h0 hfresh hh (.inl hp))
  have p0 := m0.pendOk hpo
  have n0 := m0.notActive hna
  obtain ⟨⟨h1, out⟩, hpr, h2⟩ := Res.bind_eq_ok.1 h
  obtain ⟨⟨c1, e1⟩, hask, h3⟩ := Res.bind_eq_ok.1 h2
  obtain ⟨⟨c2, e2⟩, hfin, h4⟩ := Res.bind_eq_ok.1 h3
  cases h4
  have m1 : Micro E (.recv (some b) e) { c with pending := some h0 } (out.ask.map TEv.ask).toList
      { c with pending := some h1 } :=
    .process { c with pending := some h0 } h0 h1 b e p out rfl hb rfl hst hpr
  have p1 := m1.pendOk p0
  have n1 := m1.notActive n0
  have m2 : ∃ e1', Micros E (.recv (some b) e) { c with pending := some h1 } e1' c1 ∧
      (out.ask.map TEv.ask).toList ++ e1' = e1 := by
    unfold tAsk at hask
    split at hask
    · next hn => cases hask; rw [hn]; exact ⟨[], .nil _, rfl⟩
    · next ch hn =>
      obtain ⟨⟨c3, e3⟩, ha, h5⟩ := Res.bind_eq_ok.1 hask
      cases h5
      rw [hn]
      exact ⟨e3, tAnswers_micros ho hv p1 n1 ha, rfl⟩
  obtain ⟨e1', m2, rfl⟩ := m2
  have m3 := tFinalizeIfReady_micros (m2.notActive n1) ho hfin
  have m4 := tVolley_micros (E := E) (op := .recv (some b) e) (c := c2) (q := out.send)
    (x := .processHandshakeFailed) (y := .packetSerializationFailed) (hsProcess_out (p0 h0 rfl) hpr).2
  exact m0.append (Micros.append (.cons m1 m2) (m3.append m4))

theorem step_micros {E : Engine} {c c' : TCtx} {op : TOp} {evs : List TEv} (hpo : CtxPendOk c)
    (hna : NotActive c) (h : op.step E c = .ok (c', evs)) : Micros E op c evs c' := by
  cases op with
  | start r =>
    simp only [TOp.step, Res.ok.injEq] at h
    unfold tStart at h
    split at h
    · exact failP h
    next hst =>
    have hst : c.status = .fresh := Decidable.byContradiction hst
    split at h
    · exact .silent (.drop c hst ⟨r, rfl⟩) (failP h)
    next h0 hc =>
    have m0 : Micro E (.start r) c [] { c with pending := some h0 } := .create c h0 hst hc (.inr ⟨r, rfl⟩)
    have m1 : Micro E (.start r) { c with pending := some h0 } [] { c with pending := some (hsStart E h0 r).1 } :=
      .start _ h0 r rfl rfl hst
    have fl : ∀ x, tError { c with pending := none } x = (c', evs) → Micros E (.start r) c evs c' :=
      fun x h => .silent (.drop c hst ⟨r, rfl⟩) (failP h)
    rcases hs : hsStart E h0 r with ⟨h1, q⟩
    rw [hs] at h m1
    cases q with
    | none => simp only [] at h; exact fl _ h
    | some q =>
      simp only [] at h
      split at h
      · exact fl _ h
      split at h
      · exact fl _ h
      next b hb =>
      have hu : tUpdate { c with pending := some h1 } .initialHandshake =
          ({ c with pending := some h1, status := .initialHandshake }, [.state .initialHandshake]) := by
        unfold tUpdate; simp [hst]
      rw [hu] at h
      cases h
      refine .silent m0 (.silent m1 (.cons (.begin { c with pending := some h1 } hst h1 rfl) (.one (.volley _ q b (hsStart_out hs) hb))))
  | send b =>
    cases b with
    | none => simp only [TOp.step, tSend, Res.ok.injEq] at h; exact failP h
    | some b => exact tSend_micros (Or.inl rfl) h
  | recv b e =>
    cases b with
    | none => simp only [TOp.step, tRecv, Res.ok.injEq] at h; exact failP h
    | some b =>
      simp only [TOp.step, tRecv] at h
      split at h
      · next hst => rw [tUpdate, if_pos hst] at h; cases h; exact .nil c
      next hst =>
      split at h
      · exact failR h
      next p hp =>
      split at h
      · next hh => exact tProcessHs_micros hpo hna hst hp (by simp at hh; exact hh.1) h
      split at h
      · exact failR h
      next s hs =>
      split at h
      · exact .silent (.decode c s b e p rfl hp hst hs) (failR h)
      · next d hd =>
        cases h
        exact .one (.recv c s _ b e p d rfl hp hst hs (by rw [← hd]))
  | answer v e =>
    exact tAnswer_micros hpo hna (Or.inl ⟨e, rfl⟩) (fun d hd => Or.inr (Or.inl ⟨_, _, rfl, hd⟩)) h
  | copy =>
    simp only [TOp.step, Res.ok.injEq] at h
    cases h
    cases hc : tCopy c with
    | none => exact .nil c
    | some c' => exact .one (.copy c c' rfl hc)

/-! ### Histories -/

theorem tRun_append (E : Engine) (c : TCtx) (a b : List TOp) :
    tRun E c (a ++ b) =
      (tRun E c a).bind fun x => (tRun E x.1 b).bind fun y => .ok (y.1, x.2 ++ y.2) := by
  induction a generalizing c with
  | nil =>
    simp only [List.nil_append, tRun, Res.bind, List.nil_append]
    cases tRun E c b <;> rfl
  | cons op a ih =>
    simp only [List.cons_append, tRun]
    cases op.step E c with
    | ub => rfl
    | null => rfl
    | ok x =>
      simp only [Res.bind, ih]
      cases tRun E x.1 a with
      | ub => rfl
      | null => rfl
      | ok y =>
        simp only []
        cases tRun E y.1 b with
        | ub => rfl
        | null => rfl
        | ok z => simp [List.append_assoc]

theorem tRun_snoc {E : Engine} {c c' : TCtx} {ops : List TOp} {op : TOp} {evs : List TEv}
    (h : tRun E c (ops ++ [op]) = .ok (c', evs)) :
    ∃ c1 e1 e2, tRun E c ops = .ok (c1, e1) ∧ op.step E c1 = .ok (c', e2) ∧ evs = e1 ++ e2 := by
  rw [tRun_append] at h
  obtain ⟨⟨c1, e1⟩, s1, r1⟩ := Res.bind_eq_ok.1 h
  obtain ⟨⟨c2, e2⟩, s2, r2⟩ := Res.bind_eq_ok.1 r1
  cases r2
  obtain ⟨⟨c3, e3⟩, s3, r3⟩ := Res.bind_eq_ok.1 s2
  simp only [tRun, Res.bind] at r3
  cases r3
  exact ⟨c1, e1, e3, s1, s3, by simp⟩

/-- What every reachable context satisfies and `step_micros` needs. -/
def Base (c : TCtx) : Prop := CtxPendOk c ∧ NotActive c

theorem Micros.base {E : Engine} {op : TOp} {c c' : TCtx} {e : List TEv} (h : Micros E op c e c')
    (hb : Base c) : Base c' := ⟨h.pendOk hb.1, h.notActive hb.2⟩

theorem base_run {E : Engine} {c c' : TCtx} {evs : List TEv} (ops : List TOp) (hb : Base c)
    (h : tRun E c ops = .ok (c', evs)) : Base c' := by
  induction ops generalizing c evs with
  | nil => cases h; exact hb
  | cons op ops ih =>
    obtain ⟨⟨c1, e1⟩, s1, r1⟩ := Res.bind_eq_ok.1 h
    obtain ⟨⟨c2, e2⟩, s2, r2⟩ := Res.bind_eq_ok.1 r1
    cases r2
    exact ih ((step_micros hb.1 hb.2 s1).base hb) s2

theorem tCreate_eq {self : Chain} {remote : Option Chain} {evo : UInt32} {c : TCtx}
    (h : tCreate self remote evo = some c) :
    c = ⟨none, none, self, remote, .fresh, if evo = 0 then ppeDefault else evo, none, .noError⟩ := by
  unfold tCreate at h
  split at h
  · cases h
  · cases h; rfl

theorem base_create {self : Chain} {remote : Option Chain} {evo : UInt32} {c : TCtx}
    (h : tCreate self remote evo = some c) : Base c := by
  rw [tCreate_eq h]
  exact ⟨fun h hh => (by cases hh), fun hh => (by cases hh)⟩

/-- A property of the context and of everything seen so far, preserved by elementary steps, holds
after every history. -/
theorem micros_hist {E : Engine} {op : TOp} {P : TCtx → List TEv → Prop}
    (hm : ∀ c e c' evs, Micro E op c e c' → P c evs → P c' (evs ++ e)) {c c' : TCtx} {e : List TEv}
    (h : Micros E op c e c') : ∀ evs, P c evs → P c' (evs ++ e) := by
  induction h with
  | nil => intro evs hp; simpa using hp
  | cons h _ ih => intro evs hp; rw [← List.append_assoc]; exact ih _ (hm _ _ _ _ h hp)

theorem run_hist_mem {E : Engine} {P : TCtx → List TEv → Prop} (ops : List TOp) :
    (∀ op ∈ ops, ∀ c e c' evs, Micro E op c e c' → P c evs → P c' (evs ++ e)) →
    ∀ {c c' : TCtx} {evs0 evs : List TEv}, Base c → P c evs0 → tRun E c ops = .ok (c', evs) →
      P c' (evs0 ++ evs) := by
  induction ops with
  | nil => intro _ c c' evs0 evs _ hp h; cases h; simpa using hp
  | cons op ops ih =>
    intro hm c c' evs0 evs hb hp h
    obtain ⟨⟨c1, e1⟩, s1, r1⟩ := Res.bind_eq_ok.1 h
    obtain ⟨⟨c2, e2⟩, s2, r2⟩ := Res.bind_eq_ok.1 r1
    cases r2
    have m := step_micros hb.1 hb.2 s1
    have := ih (fun o ho => hm o (List.mem_cons_of_mem _ ho)) (m.base hb)
      (micros_hist (hm op List.mem_cons_self) m evs0 hp) s2
    rwa [List.append_assoc] at this

theorem run_hist {E : Engine} {P : TCtx → List TEv → Prop}
    (hm : ∀ op c e c' evs, Micro E op c e c' → P c evs → P c' (evs ++ e)) (ops : List TOp) :
    ∀ {c c' : TCtx} {evs0 evs : List TEv}, Base c → P c evs0 → tRun E c ops = .ok (c', evs) →
      P c' (evs0 ++ evs) := run_hist_mem ops fun op _ => hm op

/-! ### The streams -/

theorem streamKeyFromEvo_wf {k k' : StreamKey} {h : Bytes} (hw : WfStreamKey k)
    (e : streamKeyFromEvo k h = some k') : WfStreamKey k' ∧ k'.ppe = k.ppe := by
  unfold streamKeyFromEvo at e
  obtain ⟨ck, h1, e⟩ := Option.bind_eq_some_iff.1 e
  obtain ⟨ek, h2, e⟩ := Option.bind_eq_some_iff.1 e
  obtain ⟨ck', h3, e⟩ := Option.bind_eq_some_iff.1 e
  obtain ⟨rfl, hp⟩ := streamKeyCreate_some e
  have hek : ek.length = 32 :=
     (copySection_some h2).2.2.2
  unfold cipherKeyCreate at h3
  split at h3
  · cases h3
  next hl =>
  cases h3
  have hmb := maxBuffer_val
  refine ⟨⟨hw.auth, ?_, ⟨by simp only [hek]; omega, by simp only [hek]; omega⟩, hp, by simp⟩, rfl⟩
  rw [keyLen_32] at hl
  simp only
  omega

theorem evolveLoop_wf {E : Engine} : ∀ (n : Nat) {k k' : StreamKey}, WfStreamKey k →
    (evolveLoop E n k).2 = some k' → WfStreamKey k' ∧ k'.ppe = k.ppe := by
  intro n
  induction n with
  | zero => intro k k' hw h; cases h; exact ⟨hw, rfl⟩
  | succ n ih =>
    intro k k' hw h
    unfold evolveLoop at h
    split at h
    · cases h
    next k1 hk =>
    obtain ⟨x, -, hx⟩ := Option.bind_eq_some_iff.1 hk
    obtain ⟨w1, p1⟩ := streamKeyFromEvo_wf hw hx
    obtain ⟨w2, p2⟩ := ih w1 h
    exact ⟨w2, p2.trans p1⟩

theorem streamEvolve_wf {E : Engine} {c : StreamCtx} {s : UInt64} {k : StreamKey} (hw : WfStreamKey c.key)
    (h : (streamEvolve E c s).2 = some k) : WfStreamKey k := by
  unfold streamEvolve at h
  simp only [] at h
  split at h
  · cases h
  split at h
  · cases h; exact hw
  split at h
  · cases h
  next k0 hk =>
  rw [streamKeyCopy_some hk] at h
  exact (evolveLoop_wf _ hw h).1

theorem streamEncode_some {E : Engine} {t t' : StreamCtx} {d : Bytes} {a : Option Bytes} {s : UInt64}
    {r : CipherResult} (h : streamEncode E t d a s = (t', some r)) :
    t.lastSeq < s ∧ t.dir = .encode ∧ ∃ f iv g k, t.iv = some f ∧ streamIvGenerate E f = some (iv, g) ∧
      (streamEvolve E t s).2 = some k ∧ t' = { t with iv := some g, key := k, lastSeq := s } ∧
      E.encrypt d a k.cipherKey iv = some r := by
  unfold streamEncode at h
  split at h
  · cases h
  next hn =>
  have h1 : t.lastSeq < s := not_le_u64.1 fun hc => hn (Or.inl hc)
  have h2 : t.dir = .encode := Decidable.byContradiction fun hc => hn (Or.inr hc)
  split at h
  · cases h
  next iv g hi =>
  obtain ⟨f, hf, hg⟩ := Option.bind_eq_some_iff.1 hi
  split at h
  · cases h
  next k hk =>
  have e1 := congrArg Prod.fst h
  have e2 := congrArg Prod.snd h
  exact ⟨h1, h2, f, iv, g, k, hf, hg, hk, e1.symm, e2⟩

theorem streamDecode_some {E : Engine} {t t' : StreamCtx} {r : CipherResult} {a : Option Bytes} {s : UInt64}
    {d : Bytes} (h : streamDecode E t r a s = (t', some d)) :
    t.lastSeq < s ∧ t.dir = .decode ∧ ∃ k, (streamEvolve E t s).2 = some k ∧
      t' = { t with key := k, lastSeq := s } ∧ E.decrypt r a k.cipherKey true = some d := by
  unfold streamDecode at h
  split at h
  · cases h
  next hn =>
  have h1 : t.lastSeq < s := not_le_u64.1 fun hc => hn (Or.inl hc)
  have h2 : t.dir = .decode := Decidable.byContradiction fun hc => hn (Or.inr hc)
  split at h
  · cases h
  next k hk =>
  have e1 := congrArg Prod.fst h
  have e2 := congrArg Prod.snd h
  exact ⟨h1, h2, k, hk, e1.symm, e2⟩

theorem tEncode_some {E : Engine} {t t' : StreamCtx} {d : Bytes} {p : Packet} (h : tEncode E t d = (t', some p)) :
    ∃ r body, streamEncode E t d (some (pktMetaSerialize ⟨.data (t.lastSeq + 1), 1⟩)) (t.lastSeq + 1) = (t', some r) ∧
      cipherResultSerialize r = some body ∧ p = pktCreate ⟨.data (t.lastSeq + 1), 1⟩ body := by
  unfold tEncode at h
  simp only [] at h
  have e1 := congrArg Prod.fst h
  have e2 := congrArg Prod.snd h
  simp only [Option.map_eq_some_iff, Option.bind_eq_some_iff] at e2
  obtain ⟨body, ⟨r, hr, hb⟩, hp⟩ := e2
  exact ⟨r, body, Prod.ext e1 hr, hb, hp.symm⟩

theorem tDecode_some {E : Engine} {t t' : StreamCtx} {d : Bytes} {p : Packet} {j : UInt64}
    (h : tDecode E t p j = (t', some d)) :
    ∃ r, cipherResultFromBuffer p.body = some r ∧ p.hdr.mac = 1 ∧
      streamDecode E t r (some (pktMetaSerialize p.hdr)) (pktSeq p j) = (t', some d) := by
  unfold tDecode at h
  split at h
  · cases h
  next r hr =>
  split at h
  · cases h
  next hm => exact ⟨r, hr, Decidable.byContradiction hm, h⟩

/-- A failed call does not make the sequence number smaller. -/
theorem tEncode_seq (E : Engine) (t : StreamCtx) (d : Bytes) : t.lastSeq ≤ (tEncode E t d).1.lastSeq :=
  (streamEncode_seq E t d _ _).2.1

theorem tDecode_seq (E : Engine) (t : StreamCtx) (p : Packet) (j : UInt64) : t.lastSeq ≤ (tDecode E t p j).1.lastSeq := by
  unfold tDecode
  split
  · exact UInt64.le_refl _
  split
  · exact UInt64.le_refl _
  · exact (streamDecode_seq E t _ _ _).2.1

theorem data_wire {s : UInt64} {body b : Bytes} (h : pktSerialize (pktCreate ⟨.data s, 1⟩ body) = some b) :
    b = 17 :: (le64 s ++ body) := by
  unfold pktSerialize at h
  have := (concatMulti_some.1 h).1
  have h17 : ((1 : UInt8) <<< 4 ||| 1) = 17 := by decide
  simpa [pktCreate, pktMetaSerialize, BodyMeta.typeId, optBytes, h17] using this

theorem hs_wire {q : Packet} {b : Bytes} (hq : HsOutPkt q) (h : pktSerialize q = some b) :
    ∃ rest, b = 2 :: rest := by
  unfold pktSerialize at h
  have := (concatMulti_some.1 h).1
  rw [hq] at this
  refine ⟨1 :: (le64 0 ++ (q.body ++ optBytes q.mac)), ?_⟩
  simpa [pktMetaSerialize, BodyMeta.typeId, macP521, optBytes] using this

/-- A send stream in working order. -/
def TxOk (t : StreamCtx) : Prop := t.dir = .encode ∧ WfStreamKey t.key ∧ ∃ f, t.iv = some f
/-- A receive stream in working order. -/
def RxOk (r : StreamCtx) : Prop := r.dir = .decode ∧ WfStreamKey r.key

theorem streamEncode_ok {E : Engine} {t : StreamCtx} {d : Bytes} {a : Option Bytes} {s : UInt64} (h : TxOk t) :
    TxOk (streamEncode E t d a s).1 := by
  obtain ⟨h1, h2, f, h3⟩ := h
  unfold streamEncode
  split
  · exact ⟨h1, h2, f, h3⟩
  split
  · exact ⟨h1, h2, f, h3⟩
  next iv g _ =>
  split
  · exact ⟨h1, h2, g, rfl⟩
  next k hk => exact ⟨h1, streamEvolve_wf (c := { t with iv := some g }) h2 hk, g, rfl⟩

theorem streamDecode_ok {E : Engine} {t : StreamCtx} {d : CipherResult} {a : Option Bytes} {s : UInt64}
    (h : RxOk t) : RxOk (streamDecode E t d a s).1 := by
  obtain ⟨h1, h2⟩ := h
  unfold streamDecode
  split
  · exact ⟨h1, h2⟩
  split
  · exact ⟨h1, h2⟩
  next k hk => exact ⟨h1, streamEvolve_wf h2 hk⟩

theorem tEncode_ok {E : Engine} {t : StreamCtx} {d : Bytes} (h : TxOk t) : TxOk (tEncode E t d).1 :=
  streamEncode_ok h

theorem tDecode_ok {E : Engine} {t : StreamCtx} {p : Packet} {j : UInt64} (h : RxOk t) :
    RxOk (tDecode E t p j).1 := by
  unfold tDecode
  split
  · exact h
  split
  · exact h
  · exact streamDecode_ok h

end Wickr
