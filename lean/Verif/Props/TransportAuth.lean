import Verif.Props.TransportCtx
/-
C59: an active transport context has an authenticated peer.
-/
set_option linter.unusedSimpArgs false
namespace Wickr
open Spec

theorem identityCreate_some {t : IdType} {id : Bytes} {k : EcKey} {s : Option EcdsaResult} {i : Identity}
    (h : identityCreate t id k s = some i) : i = ⟨t, id, k, s⟩ := by
  unfold identityCreate at h
  split at h
  · cases h
  · cases h; rfl

theorem identityCopy_twice {i j : Identity} (h : identityCopy i = some j) : ∃ k, identityCopy j = some k := by
  have h0 := h
  unfold identityCopy at h
  obtain ⟨id, h1, h⟩ := Option.bind_eq_some_iff.1 h
  obtain ⟨k, h2, h⟩ := Option.bind_eq_some_iff.1 h
  have hj := identityCreate_some h
  obtain ⟨v1, e1⟩ := dup_eq_some.1 h1
  unfold ecKeyCopy at h2
  obtain ⟨p, p1, h2⟩ := Option.bind_eq_some_iff.1 h2
  obtain ⟨q, q1, rfl⟩ := Option.map_eq_some_iff.1 h2
  obtain ⟨v2, e2⟩ := dup_eq_some.1 p1
  obtain ⟨e3, v3⟩ := dupOpt_eq_some.1 q1
  subst hj e1 e2 e3
  have c1 : ecKeyCopy ⟨i.key.curve, i.key.pub, i.key.pri⟩ = some ⟨i.key.curve, i.key.pub, i.key.pri⟩ := by
    simp only [ecKeyCopy, p1, Option.bind_some, q1, Option.map_some]
  have c2 : (i.sig.bind ecdsaCopy).bind ecdsaCopy = i.sig.bind ecdsaCopy := by
    cases hs : i.sig.bind ecdsaCopy with
    | none => rfl
    | some s =>
      obtain ⟨s0, -, hs⟩ := Option.bind_eq_some_iff.1 hs
      unfold ecdsaCopy at hs
      obtain ⟨b, hb, rfl⟩ := Option.map_eq_some_iff.1 hs
      obtain ⟨v, rfl⟩ := dup_eq_some.1 hb
      simp only [Option.bind_some, ecdsaCopy, hb, Option.map_some]
  refine ⟨⟨i.type, i.identifier, ⟨i.key.curve, i.key.pub, i.key.pri⟩, i.sig.bind ecdsaCopy⟩, ?_⟩
  simp only [identityCopy, h1, Option.bind_some, c1, c2]
  exact h

theorem chainCopy_twice {c d : Chain} (h : chainCopy c = some d) : ∃ e, chainCopy d = some e := by
  unfold chainCopy at h
  obtain ⟨r, h1, h⟩ := Option.bind_eq_some_iff.1 h
  obtain ⟨n, h2, h⟩ := Option.bind_eq_some_iff.1 h
  obtain ⟨q, h3, rfl⟩ := Option.map_eq_some_iff.1 h
  obtain ⟨r', k1⟩ := identityCopy_twice h1
  obtain ⟨n', k2⟩ := identityCopy_twice h2
  obtain ⟨e, v⟩ := dupOpt_eq_some.1 h3
  subst e
  exact ⟨⟨r', n', c.status, c.cache⟩, by simp only [chainCopy, k1, k2, Option.bind_some, h3, Option.map_some]⟩

/-- The application has no effective remote identity configured: none at all, or one whose copy fails. -/
def Spec.Unpinned (R : Option Chain) : Prop := ∀ R0, R = some R0 → chainCopy R0 = none

/-- The packet `p` was fed to the context. -/
def Spec.Fed (ops : List TOp) (p : Packet) : Prop :=
  ∃ b e, TOp.recv (some b) e ∈ ops ∧ pktFromBuffer b = some p

theorem Spec.Fed.mono {ops : List TOp} {p : Packet} (h : Fed ops p) (more : List TOp) : Fed (ops ++ more) p := by
  obtain ⟨b, e, h1, h2⟩ := h
  exact ⟨b, e, List.mem_append_left _ h1, h2⟩

theorem hsStart_spec (E : Engine) (h : Handshake) (r : HsRand) :
    (hsStart E h r).1.status = .failed ∨
      (h.status = .unknown ∧ (hsStart E h r).1.status = .inProgress ∧ (hsStart E h r).1.remote = h.remote) := by
  unfold hsStart
  split
  · exact .inl rfl
  next hst =>
  have hst : h.status = .unknown := Decidable.byContradiction hst
  simp only []
  split
  · exact .inl rfl
  next seed hseed =>
  rcases hb : hsBuildSigned E { h with isInitiator := true, status := .inProgress, eph := some r.eph }
    (.seed seed) r.nonce false with ⟨g, q⟩
  rcases hsBuildSigned_cases hb with ⟨rfl, rfl⟩ | ⟨pk, rfl, rfl⟩
  · exact .inl rfl
  · obtain ⟨k1, k2, k3, k4, k5, k6, k7, k8⟩ := hsSetSlot_fields
      { h with isInitiator := true, status := .inProgress, eph := some r.eph } false pk.network
    exact .inr ⟨hst, k3, k2⟩

theorem hsFinalize_status {E : Engine} {h h' : Handshake} {o : Option HsKeys} (e : hsFinalize E h = (h', o)) :
    (o = none → h'.status = .failed) ∧ (o ≠ none → h.status = .pendingFinalization) := by
  unfold hsFinalize at e
  split at e
  · cases e; exact ⟨fun _ => rfl, by simp⟩
  split at e
  · cases e; exact ⟨fun _ => rfl, by simp⟩
  next hst =>
  split at e
  · cases e; exact ⟨fun _ => rfl, by simp⟩
  · cases e; exact ⟨by simp, fun _ => Decidable.byContradiction hst⟩

/-- The invariant behind C59.  `A` says, from what was seen so far, that the peer is authenticated. -/
structure AuthInv (E : Engine) (R : Option Chain) (F : Packet → Prop) (A : List TEv → Prop) (c : TCtx)
    (evs : List TEv) : Prop where
  remote : ∀ R0, R = some R0 → ∃ d, c.remote = some d ∧ Pinned E R0 d ∧ ((chainCopy R0).isSome → (chainCopy d).isSome)
  bare : R = none → c.remote = none
  fresh : ∀ h, c.pending = some h → (h.status = .unknown ∨ h.status = .inProgress) →
    (h.remote = none ∧ Unpinned R) ∨ ∃ R0 d, R = some R0 ∧ h.remote = some d ∧ Pinned E R0 d
  pv : ∀ h, c.pending = some h → h.status = .pendingVerification → h.rootKey.isSome ∧ Unpinned R ∧
    ∃ p d, F p ∧ Authentic E p d ∧ TEv.ask d ∈ evs
  fin : ∀ h, c.pending = some h → h.status = .pendingFinalization → A evs
  active : TEv.state .active ∈ evs → A evs
  asked : ∀ d, TEv.ask d ∈ evs → Unpinned R

theorem AuthInv.failed {E : Engine} {R : Option Chain} {F : Packet → Prop} {A : List TEv → Prop} {c c' : TCtx}
    {evs : List TEv} (hi : AuthInv E R F A c evs) (hr : c'.remote = c.remote)
    (hp : ∀ h, c'.pending = some h → c.pending = some h ∨ h.status = .failed) : AuthInv E R F A c' evs := by
  refine ⟨by rw [hr]; exact hi.remote, by rw [hr]; exact hi.bare, ?_, ?_, ?_, hi.active, hi.asked⟩
  · intro h hh hs
    rcases hp h hh with h1 | h1
    · exact hi.fresh h h1 hs
    · rw [h1] at hs; simp at hs
  · intro h hh hs
    rcases hp h hh with h1 | h1
    · exact hi.pv h h1 hs
    · rw [h1] at hs; cases hs
  · intro h hh hs
    rcases hp h hh with h1 | h1
    · exact hi.fin h h1 hs
    · rw [h1] at hs; cases hs

/-- More events do no harm as long as they are neither questions nor the ACTIVE state. -/
theorem AuthInv.more {E : Engine} {R : Option Chain} {F : Packet → Prop} {A : List TEv → Prop} {c : TCtx}
    {evs e : List TEv} (hA : ∀ evs e, A evs → A (evs ++ e)) (hi : AuthInv E R F A c evs)
    (h1 : TEv.state .active ∉ e) (h2 : ∀ d, TEv.ask d ∉ e) : AuthInv E R F A c (evs ++ e) := by
  refine ⟨hi.remote, hi.bare, hi.fresh, ?_, fun h hp hs => hA _ _ (hi.fin h hp hs), ?_, ?_⟩
  · intro h hp hs
    obtain ⟨a, b, p, d, k1, k2, k3⟩ := hi.pv h hp hs
    exact ⟨a, b, p, d, k1, k2, List.mem_append_left _ k3⟩
  · intro hm
    rcases List.mem_append.1 hm with hm | hm
    · exact hA _ _ (hi.active hm)
    · exact absurd hm h1
  · intro d hm
    rcases List.mem_append.1 hm with hm | hm
    · exact hi.asked d hm
    · exact absurd hm (h2 d)

theorem Micro.auth {E : Engine} (hE : SaneOutputs E) {R : Option Chain} {F : Packet → Prop} {A : List TEv → Prop}
    (hA : ∀ evs e, A evs → A (evs ++ e)) {op : TOp} (hF : ∀ b e p, op = .recv (some b) e → pktFromBuffer b = some p → F p)
    (hpin : ∀ R0 p, R = some R0 → F p → Authentic E p R0 → ∀ evs, A evs)
    (hask : Decides op true → ∀ p d evs, Unpinned R → F p → Authentic E p d → TEv.ask d ∈ evs → A evs)
    {c c' : TCtx} {e evs : List TEv} (h : Micro E op c e c') (hi : AuthInv E R F A c evs) :
    AuthInv E R F A c' (evs ++ e) := by
  cases h with
  | fail x =>
    have hi := hi.more hA (e := (tError c x).2) (by rw [tError_evs]; split <;> simp)
      (by intro d; rw [tError_evs]; split <;> simp)
    rw [tError_eq]
    exact hi.failed rfl (fun h hh => .inl hh)
  | create h hst hc _ =>
    rw [List.append_nil]
    obtain ⟨l, -, hc⟩ := tCreateHandshake_eq hc
    have := hsCreate_eq hc
    subst this
    refine ⟨hi.remote, hi.bare, ?_, ?_, ?_, hi.active, hi.asked⟩
    · intro h hh _
      cases hh
      cases hR : R with
      | none =>
        refine .inl ⟨?_, fun _ h => by cases h⟩
        show c.remote.bind chainCopy = none
        rw [hi.bare hR]; rfl
      | some R0 =>
        obtain ⟨d, h1, h2, h3⟩ := hi.remote R0 hR
        cases hd : chainCopy d with
        | none =>
          refine .inl ⟨?_, ?_⟩
          · show c.remote.bind chainCopy = none
            rw [h1]; exact hd
          · intro R1 h; cases h
            cases hc : chainCopy R0 with
            | none => rfl
            | some x => rw [hc, hd] at h3; simp at h3
        | some d' =>
          refine .inr ⟨R0, d', rfl, ?_, h2.copy hd⟩
          show c.remote.bind chainCopy = some d'
          rw [h1]; exact hd
    · intro h hh hs; cases hh; cases hs
    · intro h hh hs; cases hh; cases hs
  | drop hst =>
    rw [List.append_nil]
    exact hi.failed rfl (fun h hh => by cases hh)
  | start h r ho hp hst =>
    rw [List.append_nil]
    rcases hsStart_spec E h r with hf | ⟨hu, hs, hr⟩
    · exact hi.failed rfl (fun g hg => by cases hg; exact .inr hf)
    · refine ⟨hi.remote, hi.bare, ?_, ?_, ?_, hi.active, hi.asked⟩
      · intro g hg _; cases hg
        rw [hr]; exact hi.fresh h hp (.inl hu)
      · intro g hg hs'; cases hg; rw [hs] at hs'; cases hs'
      · intro g hg hs'; cases hg; rw [hs] at hs'; cases hs'
  | begin hst h hp =>
    have hi := hi.more hA (e := [.state .initialHandshake]) (by simp) (by simp)
    exact hi.failed rfl (fun h hh => .inl hh)
  | process h h' b e p out ho hb hp hst hr =>
    have hfed : F p := hF b e p ho hb
    obtain ⟨-, ⟨hf, rfl⟩ | ⟨pk, d, hpk, hst, hck, hv, hrem, hrk, hcase⟩⟩ := hsProcess_spec hr
    · have hi := hi.more hA (e := []) (by simp) (by simp)
      exact hi.failed rfl (fun g hg => by cases hg; exact .inr hf)
    cases hpk
    have hfr := hi.fresh h hp hst
    rcases hcase with ⟨hr0, hgs, rfl⟩ | ⟨hr0, hgs, hask'⟩
    · -- the packet brought its own chain
      have hun : Unpinned R := by
        rcases hfr with ⟨-, h1⟩ | ⟨R0, d', -, h2, -⟩
        · exact h1
        · rw [hr0] at h2; cases h2
      obtain ⟨pc, hpc⟩ : ∃ pc, chainFromProto E pc = some d := by
        rcases hck with h1 | ⟨-, h1⟩
        · rw [hr0] at h1; cases h1
        · exact h1
      have ha : Authentic E p d := checked_authentic (fresh_truthful (chainFromProto_spec hpc).1) hv
      have hcopy : h'.remote.bind chainCopy = some (pktVerify E p d).2.1 := by
        rw [hrem]; exact asked_copy hE hpc
      simp only [hcopy, Option.map_some, Option.toList_some]
      refine ⟨hi.remote, hi.bare, ?_, ?_, ?_, ?_, ?_⟩
      · intro g hg hs; cases hg; rw [hgs] at hs; simp at hs
      · intro g hg _; cases hg
        exact ⟨hrk, hun, p, _, hfed, ha.after (q := p), by simp⟩
      · intro g hg hs; cases hg; rw [hgs] at hs; simp at hs
      · intro hm
        simp only [List.mem_append, List.mem_singleton, reduceCtorEq, or_false] at hm
        exact hA _ _ (hi.active hm)
      · intro _ _; exact hun
    · -- the remote identity was pinned
      obtain ⟨R0, d', hR, h2, hpn⟩ : ∃ R0 d', R = some R0 ∧ h.remote = some d' ∧ Pinned E R0 d' := by
        rcases hfr with ⟨h1, -⟩ | h1
        · exact absurd h1 hr0
        · exact h1
      have hcc : d = d' := by
        rcases hck with h1 | ⟨h1, -⟩
        · rw [h1] at h2; cases h2; rfl
        · exact absurd h1 hr0
      subst hcc
      have hall := hpin R0 p hR hfed (pinned_authentic hpn hv)
      have hi := hi.more hA (e := (out.ask.map TEv.ask).toList) (by rw [hask']; simp) (by rw [hask']; simp)
      refine ⟨hi.remote, hi.bare, ?_, ?_, fun _ _ _ => hall _, hi.active, hi.asked⟩
      · intro g hg hs; cases hg; rw [hgs] at hs; simp at hs
      · intro g hg hs; cases hg; rw [hgs] at hs; simp at hs
  | verify h v ho hp =>
    rw [List.append_nil]
    by_cases hbad : (!v) = true ∨ h.status ≠ .pendingVerification
    · refine hi.failed rfl (fun g hg => ?_)
      cases hg
      right
      simp only [hsVerify, if_pos hbad]
    · have hv : v = true := by cases v <;> simp_all
      have hst : h.status = .pendingVerification := Decidable.byContradiction fun hc => hbad (Or.inr hc)
      subst hv
      obtain ⟨hrk, hun, p, d, h1, h2, h3⟩ := hi.pv h hp hst
      have hs : (hsVerify h true).1.status = .pendingFinalization := by
        simp only [hsVerify, if_neg hbad, hrk, if_true]
      refine ⟨hi.remote, hi.bare, ?_, ?_, fun _ _ _ => hask ho p d evs hun h1 h2 h3, hi.active, hi.asked⟩
      · intro g hg hs'; cases hg; rw [hs] at hs'; simp at hs'
      · intro g hg hs'; cases hg; rw [hs] at hs'; simp at hs'
  | noKeys h h' hp hf =>
    rw [List.append_nil]
    exact hi.failed rfl (fun g hg => by cases hg; exact .inr ((hsFinalize_status hf).1 rfl))
  | noStream h h' ks hp hf hn =>
    rw [List.append_nil]
    exact hi.failed rfl (fun g hg => by cases hg)
  | activate h h' ks seed t r hp hst' hf ht hr =>
    have ha := hi.fin h hp ((hsFinalize_status hf).2 (by simp))
    refine ⟨hi.remote, hi.bare, fun g hg => (by cases hg), fun g hg => (by cases hg), fun g hg => (by cases hg),
      fun _ => hA _ _ ha, ?_⟩
    intro d hd
    simp only [List.mem_append, List.mem_singleton, reduceCtorEq, or_false] at hd
    exact hi.asked d hd
  | volley q b hq hb => exact hi.more hA (by simp) (by simp)
  | encode s data ho hst ht => rw [List.append_nil]; exact hi.failed rfl (fun h hh => .inl hh)
  | send s s' data b p ho hst' ht he hb =>
    exact (hi.more hA (e := [.tx b]) (by simp) (by simp)).failed rfl (fun h hh => .inl hh)
  | decode s b e p ho hb hst hr => rw [List.append_nil]; exact hi.failed rfl (fun h hh => .inl hh)
  | recv s s' b e p d ho hb hst' hr hd =>
    exact (hi.more hA (e := [.rx d]) (by simp) (by simp)).failed rfl (fun h hh => .inl hh)
  | copy _ ho hc =>
    obtain ⟨l, r0, r', tx, rx, -, h1, h2, htx, hrx, rfl⟩ := tCopy_some hc
    rw [List.append_nil]
    refine ⟨?_, ?_, fun g hg => (by cases hg), fun g hg => (by cases hg), fun g hg => (by cases hg), hi.active, hi.asked⟩
    · intro R0 hR
      obtain ⟨d, k1, k2, -⟩ := hi.remote R0 hR
      rw [h1] at k1; cases k1
      refine ⟨r', rfl, k2.copy h2, fun _ => ?_⟩
      obtain ⟨x, hx⟩ := chainCopy_twice h2
      rw [hx]; rfl
    · intro hR
      have := hi.bare hR
      rw [h1] at this; cases this

/-- Who vouches for the peer of a context created with the remote identity `R`, after the calls
`ops`: a packet fed in is authentic under `R`; or, without `R`, the application accepted an identity
and had by then been asked about a chain under which a packet fed in is authentic. -/
def Spec.ContextPeer (E : Engine) (c0 : TCtx) (R : Option Chain) (ops : List TOp) : Prop :=
  (∃ R0 p, R = some R0 ∧ Fed ops p ∧ Authentic E p R0) ∨
  (Unpinned R ∧ ∃ pre op post c1 e1 p d, ops = pre ++ op :: post ∧ Decides op true ∧
    tRun E c0 (pre ++ [op]) = .ok (c1, e1) ∧ TEv.ask d ∈ e1 ∧ Fed (pre ++ [op]) p ∧ Authentic E p d)

theorem Spec.ContextPeer.mono {E : Engine} {c0 : TCtx} {R : Option Chain} {ops : List TOp}
    (h : ContextPeer E c0 R ops) (op : TOp) : ContextPeer E c0 R (ops ++ [op]) := by
  rcases h with ⟨R0, p, h1, h2, h3⟩ | ⟨hu, pre, o, post, c1, e1, p, d, rfl, h⟩
  · exact .inl ⟨R0, p, h1, h2.mono _, h3⟩
  · exact .inr ⟨hu, pre, o, post ++ [op], c1, e1, p, d, by simp, h⟩

theorem authInv_run {E : Engine} (hE : SaneOutputs E) {self : Chain} {R : Option Chain} {evo : UInt32} {c0 : TCtx}
    (h0 : tCreate self R evo = some c0) (hR : ∀ R0, R = some R0 → CacheTruthful E R0) (ops : List TOp) :
    ∀ {c : TCtx} {evs : List TEv}, tRun E c0 ops = .ok (c, evs) →
      AuthInv E R (Fed ops) (fun _ => ContextPeer E c0 R ops) c evs := by
  induction ops using snocInd with
  | nil =>
    intro c evs h
    cases h
    have := tCreate_eq h0
    subst this
    exact ⟨fun R0 h => ⟨R0, h, .self (hR R0 h), id⟩, id, fun h hh => (by cases hh), fun h hh => (by cases hh),
      fun h hh => (by cases hh), by simp, by simp⟩
  | snoc ops op ih =>
    intro c evs h
    obtain ⟨c1, e1, e2, r1, s2, rfl⟩ := tRun_snoc h
    have hb := base_run ops (base_create h0) r1
    have m := step_micros hb.1 hb.2 s2
    have i1 := ih r1
    -- during the call: authenticated before, or by this call
    let A : List TEv → Prop := fun evs => ContextPeer E c0 R ops ∨
      (∃ R0 p, R = some R0 ∧ Fed (ops ++ [op]) p ∧ Authentic E p R0) ∨
      (Decides op true ∧ ∃ p d, Unpinned R ∧ Fed (ops ++ [op]) p ∧ Authentic E p d ∧ TEv.ask d ∈ evs)
    have hA : ∀ evs e, A evs → A (evs ++ e) := by
      rintro evs e (h | h | ⟨h1, p, d, h2, h3, h4, h5⟩)
      · exact .inl h
      · exact .inr (.inl h)
      · exact .inr (.inr ⟨h1, p, d, h2, h3, h4, List.mem_append_left _ h5⟩)
    have i2 : AuthInv E R (Fed (ops ++ [op])) A c1 e1 := by
      refine ⟨i1.remote, i1.bare, i1.fresh, ?_, fun h hp hs => .inl (i1.fin h hp hs), fun h => .inl (i1.active h), i1.asked⟩
      intro h hp hs
      obtain ⟨a, b, p, d, k1, k2, k3⟩ := i1.pv h hp hs
      exact ⟨a, b, p, d, k1.mono _, k2, k3⟩
    have i3 := micros_hist (P := AuthInv E R (Fed (ops ++ [op])) A)
      (fun c e c' evs mm => mm.auth hE hA
        (fun b env p ho hb => ⟨b, env, by rw [ho]; simp, hb⟩)
        (fun R0 p h1 h2 h3 evs => .inr (.inl ⟨R0, p, h1, h2, h3⟩))
        (fun ho p d evs h1 h2 h3 h4 => .inr (.inr ⟨ho, p, d, h1, h2, h3, h4⟩))) m e1 i2
    have hfin : A (e1 ++ e2) → ContextPeer E c0 R (ops ++ [op]) := by
      rintro (h' | ⟨R0, p, h'⟩ | ⟨ho, p, d, h1, h2, h3, h4⟩)
      · exact h'.mono op
      · exact .inl ⟨R0, p, h'⟩
      · exact .inr ⟨h1, ops, op, [], c, e1 ++ e2, p, d, rfl, ho, h, h4, h2, h3⟩
    exact ⟨i3.remote, i3.bare, i3.fresh, i3.pv, fun h hp hs => hfin (i3.fin h hp hs), fun h => hfin (i3.active h), i3.asked⟩

/-- C59.  In every history of calls with arbitrary packets and decisions, if a transport context ever
reported ACTIVE its peer was authenticated: a context created with a remote identity got a packet that
is authentic under it; one created without (or with one that cannot be copied, which the code treats
the same) got a packet that is authentic under a chain the application was asked about, and the
application accepted an identity at or after that point. -/
theorem C59_active_peer_authenticated (E : Engine) (hE : SaneOutputs E) (self : Chain) (R : Option Chain)
    (evo : UInt32) (c0 c : TCtx) (ops : List TOp) (evs : List TEv) (h0 : tCreate self R evo = some c0)
    (hR : ∀ R0, R = some R0 → CacheTruthful E R0) (h : tRun E c0 ops = .ok (c, evs))
    (ha : TEv.state .active ∈ evs) : ContextPeer E c0 R ops :=
  (authInv_run hE h0 hR ops h).active ha

/-- C59 for the state, and for the traffic: a context that is ACTIVE, and one that has sent or delivered
any data, has an authenticated peer. -/
theorem C59_traffic_peer_authenticated (E : Engine) (hE : SaneOutputs E) (hL : E.Lawful) (self : Chain) (R : Option Chain)
    (evo : UInt32) (c0 c : TCtx) (ops : List TOp) (evs : List TEv) (h0 : tCreate self R evo = some c0)
    (hR : ∀ R0, R = some R0 → CacheTruthful E R0) (h : tRun E c0 ops = .ok (c, evs))
    (ha : c.status = .active ∨ dataSent evs ≠ [] ∨ delivered evs ≠ []) : ContextPeer E c0 R ops := by
  refine C59_active_peer_authenticated E hE self R evo c0 c ops evs h0 hR h ?_
  -- a context with a stream has announced ACTIVE
  have key : c.tx ≠ none → TEv.state .active ∈ evs := by
    refine run_hist (P := fun c evs => c.tx ≠ none → TEv.state .active ∈ evs) ?_ ops (evs0 := [])
      (base_create h0) (by rw [tCreate_eq h0]; simp) h
    intro op c e c' evs m hp ht
    rw [List.mem_append]
    cases m with
    | fail x => rw [tError_eq] at ht; exact .inl (hp ht)
    | activate h h' ks seed t r hp' hst' hf ht' hr => exact .inr (by simp)
    | encode s data ho hst ht' => exact .inl (hp (by rw [ht']; simp))
    | send s s' data b p ho hst' ht' he hb => exact .inl (hp (by rw [ht']; simp))
    | copy _ ho hc =>
      obtain ⟨l, r0, r', tx, rx, -, -, -, htx, hrx, rfl⟩ := tCopy_some hc
      refine .inl (hp fun hn => ht ?_)
      rw [hn] at htx
      exact copyOpt_none htx
    | _ => exact .inl (hp ht)
  apply key
  have hch : ChanInv E ops c0 [] := ⟨streams_create h0, by simp, .inl ⟨by rw [tCreate_eq h0], rfl, rfl⟩⟩
  obtain ⟨hs, h1, h2⟩ := run_hist_mem (P := ChanInv E ops) ops (fun _ ho _ _ _ _ m hs => m.chanInv hL ho hs)
    (evs0 := []) (base_create h0) hch h
  intro hn
  rcases ha with ha | ha
  · rcases hs with ⟨-, -, g⟩ | ⟨t, r, g, -⟩
    · exact g ha
    · rw [hn] at g; cases g
  · rcases h2 with ⟨-, k1, k2⟩ | ⟨kt, kr, t, r, g, -⟩
    · simp only [List.nil_append] at k1 k2
      rcases ha with ha | ha
      · exact ha k1
      · exact ha k2
    · rw [hn] at g; cases g

/-- C59, nobody is asked: with a remote identity (that can be copied) the identity callback is never
invoked. -/
theorem C59_pinned_context_never_asks (E : Engine) (hE : SaneOutputs E) (self R0 : Chain)
    (evo : UInt32) (c0 c : TCtx) (ops : List TOp) (evs : List TEv) (h0 : tCreate self (some R0) evo = some c0)
    (hR : CacheTruthful E R0) (hc : (chainCopy R0).isSome) (h : tRun E c0 ops = .ok (c, evs)) (d : Chain) :
    TEv.ask d ∉ evs := by
  intro hm
  have := (authInv_run hE h0 (by intro R h; cases h; exact hR) ops h).asked d hm R0 rfl
  rw [this] at hc; cases hc

end Wickr
