import Verif.Lemmas.Handshake
import Verif.Props.TransportSign
set_option linter.unusedSimpArgs false
/-
C25-C27 and C58: what a handshake does under arbitrary calls and packets.
-/
namespace Wickr
open Spec

/-! ### C25 -/

theorem step_failed {E : Engine} {h : Handshake} (hf : h.status = .failed) (op : HsOp) :
    ∃ h', op.step E h = .ok (h', []) ∧ h'.status = .failed := by
  cases op with
  | start r => exact ⟨_, by simp [HsOp.step, hsStart, hf]; rfl, rfl⟩
  | process p r =>
    cases p with
    | none => exact ⟨_, rfl, rfl⟩
    | some p =>
      refine ⟨hsFail h, ?_, rfl⟩
      simp only [HsOp.step, hsProcess, hf]
      split <;> simp [Res.bind, hsFail]
  | verify b => exact ⟨_, by simp [HsOp.step, hsVerify, hf]; rfl, rfl⟩
  | finalize =>
    refine ⟨hsFail h, ?_, rfl⟩
    simp only [HsOp.step, hsFinalize]
    cases h.rootKey <;> simp [hf]
  | copy =>
    cases hc : hsCopy h with
    | none => exact ⟨h, by simp [HsOp.step, hc], hf⟩
    | some g => exact ⟨g, by simp [HsOp.step, hc], by rw [(hsCopy_some hc).1, hf]⟩

/-- C25.  A failed handshake stays failed under every sequence of calls, with any packets; nothing
is sent, nobody is asked and no keys come out (and nothing undefined happens). -/
theorem C25_failed_is_final (E : Engine) (h : Handshake) (hf : h.status = .failed) (ops : List HsOp) :
    ∃ h', hsRun E h ops = .ok (h', []) ∧ h'.status = .failed := by
  induction ops generalizing h with
  | nil => exact ⟨h, rfl, hf⟩
  | cons op ops ih =>
    obtain ⟨h1, e1, f1⟩ := step_failed (E := E) hf op
    obtain ⟨h2, e2, f2⟩ := ih h1 f1
    exact ⟨h2, by simp [hsRun, e1, e2, Res.bind], f2⟩

theorem step_complete {E : Engine} {h : Handshake} (hf : h.status = .complete) (op : HsOp) :
    ∃ h', op.step E h = .ok (h', []) ∧ (h'.status = .failed ∨ h'.status = .complete) := by
  cases op with
  | start r => exact ⟨_, by simp [HsOp.step, hsStart, hf]; rfl, Or.inl rfl⟩
  | process p r =>
    cases p with
    | none => exact ⟨_, rfl, Or.inl rfl⟩
    | some p =>
      refine ⟨hsFail h, ?_, Or.inl rfl⟩
      simp only [HsOp.step, hsProcess, hf]
      split <;> simp [Res.bind, hsFail]
  | verify b => exact ⟨_, by simp [HsOp.step, hsVerify, hf]; rfl, Or.inl rfl⟩
  | finalize =>
    refine ⟨hsFail h, ?_, Or.inl rfl⟩
    simp only [HsOp.step, hsFinalize]
    cases h.rootKey <;> simp [hf]
  | copy =>
    cases hc : hsCopy h with
    | none => exact ⟨h, by simp [HsOp.step, hc], Or.inr hf⟩
    | some g => exact ⟨g, by simp [HsOp.step, hc], Or.inr (by rw [(hsCopy_some hc).1, hf])⟩

/-- C25.  A completed handshake yields nothing any more. -/
theorem C25_complete_is_final (E : Engine) (h : Handshake) (hf : h.status = .complete) (ops : List HsOp) :
    ∃ h', hsRun E h ops = .ok (h', []) ∧ (h'.status = .failed ∨ h'.status = .complete) := by
  induction ops generalizing h with
  | nil => exact ⟨h, rfl, Or.inr hf⟩
  | cons op ops ih =>
    obtain ⟨h1, e1, f1⟩ := step_complete (E := E) hf op
    rcases f1 with f1 | f1
    · obtain ⟨h2, e2, f2⟩ := C25_failed_is_final E h1 f1 ops
      exact ⟨h2, by simp [hsRun, e1, e2, Res.bind], Or.inl f2⟩
    · obtain ⟨h2, e2, f2⟩ := ih h1 f1
      exact ⟨h2, by simp [hsRun, e1, e2, Res.bind], f2⟩

def Spec.HsEv.isKeys : HsEv → Bool
  | .keys _ => true
  | _ => false

/-- A step either yields no keys, or it yields just them and completes the handshake. -/
theorem step_keys {E : Engine} {h h' : Handshake} {op : HsOp} {evs : List HsEv}
    (e : op.step E h = .ok (h', evs)) :
    evs.filter HsEv.isKeys = [] ∨ ∃ ks, evs = [.keys ks] ∧ h'.status = .complete ∧
      op = .finalize ∧ h.status = .pendingFinalization := by
  have hs : ∀ q : Option Packet, ((q.map HsEv.sent).toList).filter HsEv.isKeys = [] := by
    intro q; cases q <;> rfl
  cases op with
  | start r => cases e; exact Or.inl (hs _)
  | process p r =>
    left
    obtain ⟨⟨g, o⟩, -, e2⟩ := Res.bind_eq_ok.1 e
    cases e2
    obtain ⟨a, b⟩ := o
    cases a <;> cases b <;> rfl
  | verify b => cases e; exact Or.inl (hs _)
  | finalize =>
    simp only [HsOp.step] at e
    cases e
    unfold hsFinalize
    split
    · exact Or.inl rfl
    · split
      · exact Or.inl rfl
      · next hst =>
        split
        · exact Or.inl rfl
        · exact Or.inr ⟨_, rfl, rfl, rfl, Decidable.byContradiction fun hc => hst hc⟩
  | copy => cases e; exact Or.inl rfl

/-- C25.  In a whole history, keys come out at most once, from any state whatsoever. -/
theorem C25_keys_at_most_once (E : Engine) (h h' : Handshake) (ops : List HsOp) (evs : List HsEv)
    (hr : hsRun E h ops = .ok (h', evs)) : (evs.filter HsEv.isKeys).length ≤ 1 := by
  induction ops generalizing h evs with
  | nil => cases hr; simp
  | cons op ops ih =>
    obtain ⟨⟨h1, e1⟩, s1, r1⟩ := Res.bind_eq_ok.1 hr
    obtain ⟨⟨h2, e2⟩, s2, r2⟩ := Res.bind_eq_ok.1 r1
    cases r2
    rcases step_keys s1 with h0 | ⟨ks, rfl, hc, -, -⟩
    · simp only [List.filter_append, h0, List.nil_append]
      exact ih _ _ s2
    · obtain ⟨g, hg, -⟩ := C25_complete_is_final E h1 hc ops
      simp only at s2
      rw [hg] at s2
      cases s2
      exact Nat.le_refl 1

/-! ### C26, C27 -/

/-- Who vouches for the keys of a history `ops` starting at `h0`. -/
def Spec.PeerAuthenticated (E : Engine) (h0 : Handshake) (remote : Option Chain) (ops : List HsOp) : Prop :=
  (∃ R p r, remote = some R ∧ .process (some p) r ∈ ops ∧ Authentic E p R) ∨
  (remote = none ∧ ∃ pre post h1 evs1 p r c, ops = pre ++ .verify true :: post ∧
    hsRun E h0 pre = .ok (h1, evs1) ∧ .process (some p) r ∈ pre ∧ .asked c ∈ evs1 ∧ Authentic E p c)

theorem Spec.PeerAuthenticated.mono {E : Engine} {h0 : Handshake} {remote : Option Chain} {ops : List HsOp}
    (h : PeerAuthenticated E h0 remote ops) (op : HsOp) : PeerAuthenticated E h0 remote (ops ++ [op]) := by
  rcases h with ⟨R, p, r, h1, h2, h3⟩ | ⟨h0, pre, post, h1, evs1, p, r, c, rfl, h2⟩
  · exact Or.inl ⟨R, p, r, h1, List.mem_append_left _ h2, h3⟩
  · exact Or.inr ⟨h0, pre, post ++ [op], h1, evs1, p, r, c, by simp, h2⟩

structure HsInv (E : Engine) (h0 : Handshake) (remote : Option Chain) (ops : List HsOp) (evs : List HsEv)
    (h : Handshake) : Prop where
  same : ∀ R, remote = some R → ∃ c, h.remote = some c ∧ SameChain R c
  fresh : (h.status = .unknown ∨ h.status = .inProgress) →
    (∀ R, remote = some R → ∃ c, h.remote = some c ∧ Pinned E R c) ∧ (remote = none → h.remote = none)
  root : h.status = .pendingVerification → h.rootKey.isSome
  pv : h.status = .pendingVerification → remote = none ∧
    ∃ p r c, .process (some p) r ∈ ops ∧ .asked c ∈ evs ∧ Authentic E p c
  fin : (h.status = .pendingFinalization ∨ h.status = .complete) → PeerAuthenticated E h0 remote ops
  keys : ∀ ks, .keys ks ∈ evs → PeerAuthenticated E h0 remote ops
  quiet : remote ≠ none → ∀ c, .asked c ∉ evs

theorem checked_authentic {E : Engine} {p : Packet} {c : Chain} (ht : CacheTruthful E c)
    (hv : (pktVerify E p c).2.2 = true) : Authentic E p c :=
  ⟨ht (pktVerify_true hv).1, (pktVerify_true hv).2⟩

/-- A packet that a descendant of the pinned chain accepts is authentic under the pinned chain. -/
theorem pinned_authentic {E : Engine} {p : Packet} {R c : Chain} (hp : Pinned E R c)
    (hv : (pktVerify E p c).2.2 = true) : Authentic E p R := by
  obtain ⟨h1, h2⟩ := pktVerify_true hv
  refine ⟨(hp.2 h1).2, ?_⟩
  rw [← hp.1.2.2.2.1]; exact h2

theorem Spec.Authentic.after {E : Engine} {p q : Packet} {c : Chain} (h : Authentic E p c) :
    Authentic E p (pktVerify E q c).2.1 := by
  obtain ⟨v1, v2⟩ := pktVerify_chain E q c
  refine ⟨(ChainGenuine.congr (by rw [v1]) (by rw [v2]) (by rw [v2])).2 h.1, ?_⟩
  rw [v2]; exact h.2

theorem HsInv.snoc {E : Engine} (hE : SaneOutputs E) {h0 h h' : Handshake} {remote : Option Chain}
    {ops : List HsOp} {evs : List HsEv} {op : HsOp} {e : List HsEv} (hi : HsInv E h0 remote ops evs h)
    (hrun : hsRun E h0 ops = .ok (h, evs)) (hs : op.step E h = .ok (h', e)) :
    HsInv E h0 remote (ops ++ [op]) (evs ++ e) h' := by
  have hkeys : ∀ {e}, (∀ ks, HsEv.keys ks ∉ e) → ∀ ks, .keys ks ∈ evs ++ e →
      PeerAuthenticated E h0 remote (ops ++ [op]) := by
    intro e hne ks hk
    rcases List.mem_append.1 hk with hk | hk
    · exact (hi.keys ks hk).mono op
    · exact absurd hk (hne ks)
  have hquiet : ∀ {e}, (∀ c, HsEv.asked c ∉ e) → remote ≠ none → ∀ c, .asked c ∉ evs ++ e := by
    intro e hne hr c hc
    rcases List.mem_append.1 hc with hc | hc
    · exact hi.quiet hr c hc
    · exact hne c hc
  have hsent' : ∀ (q : Option Packet) c, HsEv.asked c ∉ (q.map HsEv.sent).toList := by
    intro q c; cases q <;> simp
  have hsent : ∀ (q : Option Packet) ks, HsEv.keys ks ∉ (q.map HsEv.sent).toList := by
    intro q ks; cases q <;> simp
  have hdead : ∀ {e} {g : Handshake}, g.status = .failed → (∀ R, remote = some R → ∃ c, g.remote = some c ∧ SameChain R c) →
      (∀ ks, HsEv.keys ks ∉ e) → (∀ c, HsEv.asked c ∉ e) → HsInv E h0 remote (ops ++ [op]) (evs ++ e) g := by
    intro e g hg hsame hne hna
    exact ⟨hsame, by simp [hg], by simp [hg], by simp [hg], by simp [hg], hkeys hne, hquiet hna⟩
  cases op with
  | start r =>
    simp only [HsOp.step, Res.ok.injEq, Prod.mk.injEq] at hs
    obtain ⟨rfl, rfl⟩ := hs
    unfold hsStart
    split
    · exact hdead rfl hi.same (by simp) (by simp)
    next hst =>
    have hst : h.status = .unknown := Decidable.byContradiction hst
    simp only []
    split
    · next hseed => exact hdead rfl hi.same (by simp) (by simp)
    next seed hseed =>
    rcases hb : hsBuildSigned E { h with isInitiator := true, status := .inProgress, eph := some r.eph }
      (.seed seed) r.nonce false with ⟨g, q⟩
    rcases hsBuildSigned_cases hb with ⟨rfl, rfl⟩ | ⟨pk, rfl, rfl⟩
    · exact hdead rfl hi.same (by simp) (by simp)
    · obtain ⟨k1, k2, k3, k4, k5, k6, k7, k8⟩ := hsSetSlot_fields
        { h with isInitiator := true, status := .inProgress, eph := some r.eph } false pk.network
      simp only at k2 k3 k5
      refine ⟨?_, fun _ => ?_, ?_, ?_, ?_, hkeys (hsent _), hquiet (hsent' _)⟩
      · rw [k2]; exact hi.same
      · rw [k2]; exact hi.fresh (Or.inl hst)
      · rw [k3]; simp
      · rw [k3]; simp
      · rw [k3]; simp
  | process p r =>
    obtain ⟨⟨g, o⟩, hp, e2⟩ := Res.bind_eq_ok.1 hs
    cases e2
    obtain ⟨hpin, hcase⟩ := hsProcess_spec hp
    have hne : ∀ ks, HsEv.keys ks ∉ (o.send.map HsEv.sent).toList ++ (o.ask.map HsEv.asked).toList := by
      intro ks; obtain ⟨a, b⟩ := o; cases a <;> cases b <;> simp
    have hsame : ∀ R, remote = some R → ∃ c, g.remote = some c ∧ SameChain R c := by
      intro R hR
      obtain ⟨c, hc, hcs⟩ := hi.same R hR
      rcases hpin c hc with h1 | ⟨pk, -, h1⟩
      · exact ⟨c, h1, hcs⟩
      · exact ⟨_, h1, hcs.trans (pktVerify_same E pk c)⟩
    rcases hcase with ⟨hf, ho⟩ | ⟨pk, c, rfl, hst, hck, hv, hrem, hrk, hcase⟩
    · exact hdead hf hsame hne (by simp [ho])
    obtain ⟨f1, f2⟩ := hi.fresh hst
    rcases hcase with ⟨hr0, hgs, rfl⟩ | ⟨hr0, hgs, hask⟩
    · -- the packet brought its own chain
      have hnone : remote = none := by
        cases hR : remote with
        | none => rfl
        | some R => obtain ⟨c, hc, -⟩ := f1 R hR; rw [hr0] at hc; cases hc
      obtain ⟨pc, hpc⟩ : ∃ pc, chainFromProto E pc = some c := by
        rcases hck with h1 | ⟨-, h1⟩
        · rw [hr0] at h1; cases h1
        · exact h1
      have ha : Authentic E pk c := checked_authentic (fresh_truthful (chainFromProto_spec hpc).1) hv
      refine ⟨hsame, by simp [hgs], fun _ => hrk, fun _ => ⟨hnone, pk, r, _, ?_, ?_, ha.after (q := pk)⟩,
        by simp [hgs], hkeys hne, fun hr => absurd hnone hr⟩
      · simp
      · simp [hrem, asked_copy hE hpc]
    · -- the remote identity was pinned
      obtain ⟨R, hR⟩ : ∃ R, remote = some R := by
        cases hR : remote with
        | none => exact absurd (f2 hR) hr0
        | some R => exact ⟨R, rfl⟩
      obtain ⟨c', hc', hpn⟩ := f1 R hR
      have hcc : c = c' := by
        rcases hck with h1 | ⟨h1, -⟩
        · rw [h1] at hc'; cases hc'; rfl
        · exact absurd h1 hr0
      subst hcc
      exact ⟨hsame, by simp [hgs], by simp [hgs], by simp [hgs],
        fun _ => Or.inl ⟨R, pk, r, hR, by simp, pinned_authentic hpn hv⟩, hkeys hne,
        hquiet (by intro c; obtain ⟨a, b⟩ := o; simp only at hask; subst hask; cases a <;> simp)⟩
  | verify b =>
    simp only [HsOp.step, Res.ok.injEq, Prod.mk.injEq] at hs
    obtain ⟨rfl, rfl⟩ := hs
    unfold hsVerify
    split
    · next hb => exact hdead rfl hi.same (by simp) (by simp)
    next hb =>
    have hbt : b = true := by cases b <;> simp_all
    have hst : h.status = .pendingVerification := by
      apply Decidable.byContradiction; intro hc; exact hb (Or.inr hc)
    subst hbt
    obtain ⟨hnone, p, r, c, h1, h2, h3⟩ := hi.pv hst
    have hrk := hi.root hst
    refine ⟨hi.same, by simp [hrk], by simp [hrk], by simp [hrk], fun _ => ?_, hkeys (hsent _), hquiet (hsent' _)⟩
    exact Or.inr ⟨hnone, ops, [], h, evs, p, r, c, rfl, hrun, h1, h2, h3⟩
  | finalize =>
    simp only [HsOp.step, Res.ok.injEq, Prod.mk.injEq] at hs
    obtain ⟨rfl, rfl⟩ := hs
    unfold hsFinalize
    split
    · next hk => exact hdead rfl hi.same (by simp) (by simp)
    next rk hk =>
    split
    · next hst => exact hdead rfl hi.same (by simp) (by simp)
    next hst =>
    have hst : h.status = .pendingFinalization := Decidable.byContradiction fun hc => hst hc
    split
    · next hd => exact hdead rfl hi.same (by simp) (by simp)
    · have hpa := (hi.fin (Or.inl hst)).mono .finalize
      exact ⟨hi.same, by simp, by simp, by simp, fun _ => hpa, fun _ _ => hpa, hquiet (by simp)⟩
  | copy =>
    simp only [HsOp.step, Res.ok.injEq, Prod.mk.injEq] at hs
    obtain ⟨rfl, rfl⟩ := hs
    rw [List.append_nil]
    have hmem : ∀ {p r}, HsOp.process p r ∈ ops → HsOp.process p r ∈ ops ++ [.copy] :=
      fun hm => List.mem_append_left _ hm
    cases hc : hsCopy h with
    | none =>
      refine ⟨hi.same, hi.fresh, hi.root, fun hst => ?_, fun hst => (hi.fin hst).mono _,
        fun ks hk => (hi.keys ks hk).mono _, hi.quiet⟩
      obtain ⟨h1, p, r, c, h2, h3⟩ := hi.pv hst
      exact ⟨h1, p, r, c, hmem h2, h3⟩
    | some g =>
      obtain ⟨c1, c2, c3, c4, c5, c6, c7, c8, c9, c10, -, -⟩ := hsCopy_some hc
      simp only [Option.getD_some]
      refine ⟨?_, ?_, ?_, ?_, ?_, fun ks hk => (hi.keys ks hk).mono _, hi.quiet⟩
      · intro R hR
        obtain ⟨c, h1, h2⟩ := hi.same R hR
        obtain ⟨d, h3, h4⟩ := c10 c h1
        exact ⟨d, h3, h2.trans (chainCopy_same h4).1⟩
      · rw [c1]; intro hst
        obtain ⟨f1, f2⟩ := hi.fresh hst
        refine ⟨?_, fun hn => c9 (f2 hn)⟩
        intro R hR
        obtain ⟨c, h1, h2⟩ := f1 R hR
        obtain ⟨d, h3, h4⟩ := c10 c h1
        exact ⟨d, h3, h2.copy h4⟩
      · rw [c1, c5]; exact hi.root
      · rw [c1]; intro hst
        obtain ⟨h1, p, r, c, h2, h3⟩ := hi.pv hst
        exact ⟨h1, p, r, c, hmem h2, h3⟩
      · rw [c1]; intro hst; exact (hi.fin hst).mono _

theorem hsInv_run {E : Engine} (hE : SaneOutputs E) {self : Chain} {remote : Option Chain} {evo : UInt32}
    {h0 : Handshake} (h0e : hsCreate self remote evo = some h0)
    (hR : ∀ R, remote = some R → CacheTruthful E R) (ops : List HsOp) :
    ∀ {h : Handshake} {evs : List HsEv}, hsRun E h0 ops = .ok (h, evs) → HsInv E h0 remote ops evs h := by
  induction ops using snocInd with
  | nil =>
    intro h evs hr
    cases hr
    unfold hsCreate at h0e
    split at h0e
    · simp at h0e
    · cases h0e
      refine ⟨fun R hr => ⟨R, hr, .refl _⟩, fun _ => ⟨fun R hr => ⟨R, hr, .self (hR R hr)⟩, id⟩, ?_, ?_, ?_, ?_, ?_⟩ <;>
        simp
  | snoc ops op ih =>
    intro h evs hr
    rw [hsRun_append] at hr
    obtain ⟨⟨h1, e1⟩, s1, r1⟩ := Res.bind_eq_ok.1 hr
    obtain ⟨⟨h2, e2⟩, s2, r2⟩ := Res.bind_eq_ok.1 r1
    cases r2
    obtain ⟨⟨h3, e3⟩, s3, r3⟩ := Res.bind_eq_ok.1 s2
    simp only [hsRun, Res.bind] at r3
    cases r3
    rw [List.append_nil]
    exact (ih s1).snoc hE s1 s3

/-- C26.  In every history of calls with arbitrary packets that is defined at all: if keys came out
of a handshake created without a remote identity, then at some point the application accepted an
identity, before that it had been asked about a chain `c`, and a packet had been processed that is
signed by the node of `c`, for which the root of `c` vouches; if the handshake was created with a
remote identity `R`, then a packet was processed that is authentic under `R`. -/
theorem C26_keys_need_authentication (E : Engine) (hE : SaneOutputs E) (self : Chain)
    (remote : Option Chain) (evo : UInt32) (h0 : Handshake) (h0e : hsCreate self remote evo = some h0)
    (hR : ∀ R, remote = some R → CacheTruthful E R) (ops : List HsOp) (h : Handshake) (evs : List HsEv)
    (hr : hsRun E h0 ops = .ok (h, evs)) (ks : HsKeys) (hk : .keys ks ∈ evs) :
    PeerAuthenticated E h0 remote ops :=
  (hsInv_run hE h0e hR ops hr).keys ks hk

/-- C26 for the state: a handshake that can be finalized, or was, has an authenticated peer. -/
theorem C26_ready_needs_authentication (E : Engine) (hE : SaneOutputs E) (self : Chain)
    (remote : Option Chain) (evo : UInt32) (h0 : Handshake) (h0e : hsCreate self remote evo = some h0)
    (hR : ∀ R, remote = some R → CacheTruthful E R) (ops : List HsOp) (h : Handshake) (evs : List HsEv)
    (hr : hsRun E h0 ops = .ok (h, evs)) (hs : h.status = .pendingFinalization ∨ h.status = .complete) :
    PeerAuthenticated E h0 remote ops :=
  (hsInv_run hE h0e hR ops hr).fin hs

/-- C27.  A handshake created with a remote identity keeps it: after every history its remote
identity has the same identifiers and keys.  Nobody is asked about an identity, and a further packet
leaves the handshake alive only if it is authentic under the original identity. -/
theorem C27_pinned_identity (E : Engine) (hE : SaneOutputs E) (self R : Chain) (evo : UInt32)
    (h0 : Handshake) (h0e : hsCreate self (some R) evo = some h0) (hR : CacheTruthful E R)
    (ops : List HsOp) (h : Handshake) (evs : List HsEv) (hr : hsRun E h0 ops = .ok (h, evs)) :
    (∃ c, h.remote = some c ∧ SameChain R c) ∧ h.status ≠ .pendingVerification ∧ (∀ c, .asked c ∉ evs) ∧
    ∀ p r h' out, hsProcess E h p r = .ok (h', out) → h'.status ≠ .failed →
      ∃ pk, p = some pk ∧ Authentic E pk R ∧ out.ask = none := by
  have hi := hsInv_run hE h0e (by intro R' hR'; cases hR'; exact hR) ops hr
  refine ⟨hi.same R rfl, fun hst => ?_, hi.quiet (by simp), ?_⟩
  · have := (hi.pv hst).1
    cases this
  intro p r h' out hp hne
  obtain ⟨-, hf | ⟨pk, c, rfl, hst, hck, hv, -, -, hcase⟩⟩ := hsProcess_spec hp
  · exact absurd hf.1 hne
  · obtain ⟨c', hc', hpn⟩ := (hi.fresh hst).1 R rfl
    rcases hcase with ⟨h1, -⟩ | ⟨-, -, h3⟩
    · rw [h1] at hc'; cases hc'
    · rcases hck with h1 | ⟨h1, -⟩
      · rw [h1] at hc'; cases hc'
        exact ⟨pk, rfl, pinned_authentic hpn hv, h3⟩
      · rw [h1] at hc'; cases hc'

/-! ### C58 -/

/-- C58.  `wickr_transport_handshake_process` is undefined in exactly these two cases: a handshake
that has not started gets a response, or one that has started gets a seed.  The signature is not
looked at before that. -/
theorem C58_undefined_iff_partial (E : Engine) (h : Handshake) (p : Option Packet) (r : HsRand) :
    hsProcess E h p r = .ub ↔ ∃ pk, p = some pk ∧ pktVersionByte pk = 1 ∧
      ((h.status = .unknown ∧ ∃ m, handshakeFromPacket pk = some (.response m)) ∨
       (h.status = .inProgress ∧ ∃ m, handshakeFromPacket pk = some (.seed m))) := by
  have hpost : ∀ x : Res (Handshake × Option Packet), (x.bind fun (h, q) =>
      if h.status = .failed then (.ok (h, ⟨none, none⟩) : Res (Handshake × HsOut))
      else if h.status = .pendingVerification then
        .ok ({ h with pendingPkt := q }, ⟨none, h.remote.bind chainCopy⟩)
      else .ok (h, ⟨q, none⟩)) = .ub ↔ x = .ub := by
    intro x
    cases x with
    | ub => simp [Res.bind]
    | null => simp [Res.bind]
    | ok y =>
      simp only [Res.bind]
      split
      · simp
      · split <;> simp
  cases p with
  | none => simp [hsProcess]
  | some pk =>
    unfold hsProcess
    simp only []
    by_cases hv : pktVersionByte pk ≠ hsVersion
    · rw [if_pos hv]
      simp only [reduceCtorEq, false_iff]
      rintro ⟨pk', h1, h2, -⟩
      cases h1; exact hv h2
    · rw [if_neg hv]
      have hv : pktVersionByte pk = 1 := Decidable.byContradiction hv
      rw [hpost]
      have hinit : hsProcessInitial E h pk r = .ub ↔ ∃ m, handshakeFromPacket pk = some (.response m) := by
        unfold hsProcessInitial
        cases handshakeFromPacket pk with
        | none => simp
        | some m =>
          cases m with
          | unset => simp
          | response m => simp
          | seed s =>
            simp only [Option.some.injEq, reduceCtorEq, exists_false, iff_false]
            split
            · split
              · simp
              · split
                · split
                  · simp
                  · split <;> simp
                · simp
            · simp
      have hresp : ((hsProcessResponse E h pk).bind fun h => .ok (h, none) : Res (Handshake × Option Packet)) = .ub ↔
          ∃ m, handshakeFromPacket pk = some (.seed m) := by
        have : ∀ x : Res Handshake, (x.bind fun h => .ok (h, none) : Res (Handshake × Option Packet)) = .ub ↔ x = .ub := by
          intro x; cases x <;> simp [Res.bind]
        rw [this]
        unfold hsProcessResponse
        cases handshakeFromPacket pk with
        | none => simp
        | some m =>
          cases m with
          | unset => simp
          | seed m => simp
          | response s =>
            simp only [Option.some.injEq, reduceCtorEq, exists_false, iff_false]
            split
            · split
              · simp
              · split
                · split
                  · simp
                  · split <;> simp
                · simp
            · simp
      cases hs : h.status <;> simp [hv, hinit, hresp]

/-- A toy handshake of each role. -/
def toyRand : HsRand := ⟨toyKey 11, List.replicate 12 4, List.replicate 32 6, []⟩
def toyRand2 : HsRand := ⟨toyKey 13, List.replicate 12 5, List.replicate 32 8, []⟩
def toyHs (remote : Option Chain) : Handshake :=
  ⟨toyChain, remote, none, none, .unknown, none, none, none, false, 512⟩

/-- C58 is false: anybody can make a handshake that waits for its first packet, or one that has sent
its seed, leave the defined part of C, with a packet of a few bytes and no signature.  (Read through
the seed's type, the first packet's response has the flag `has_ephemeral_pubkey` where a pointer is
expected; read through the response's type, the second packet's seed ends before the fields that are
read.) -/
theorem C58_wrong_kind_undefined :
    (((pktFromBuffer [0, 1, 0, 0, 0, 0, 0, 0, 0, 0, 26, 6, 18, 1, 5, 26, 1, 7]).map fun p =>
      hsProcess toyEngine (toyHs none) (some p) toyRand) = some .ub) ∧
    ((pktFromBuffer [0, 1, 0, 0, 0, 0, 0, 0, 0, 0, 18, 7, 18, 0, 26, 1, 7, 32, 1]).map fun p =>
      hsProcess toyEngine (hsStart toyEngine (toyHs none) toyRand).1 (some p) toyRand2) = some .ub := by
  constructor <;> decide +kernel

end Wickr
