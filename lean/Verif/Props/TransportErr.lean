import Verif.Props.TransportAuth
/-
C31, C32: errors of a transport context; C58 for contexts; C24 for copies; C60: which question a
decision answers; examples for all theorems about transport contexts.
-/
set_option linter.unusedSimpArgs false
namespace Wickr
open Spec

/-! ### Toy contexts -/

def toyInit : TCtx := ⟨none, none, toyChain, none, .fresh, 512, none, .noError⟩
def toyResp : TCtx := ⟨none, none, toyPeer, none, .fresh, 512, none, .noError⟩
def toyEnv (answers : List Bool) : TEnv := ⟨toyRand2, List.replicate 64 9, 0, answers, []⟩

/-- The packets sent, in order. -/
def Spec.sent (evs : List TEv) : List Bytes := evs.filterMap fun | .tx b => some b | _ => none

/-- The identities asked about, in order. -/
def Spec.asks (evs : List TEv) : List Chain := evs.filterMap fun | .ask d => some d | _ => none

/-- The last packet sent in a run. -/
def lastTx : Res (TCtx × List TEv) → Bytes
  | .ok (_, evs) => (sent evs).getLastD []
  | _ => []

/-- Status, error code, whether there is a handshake, statuses reported, number of packets sent, data
delivered and number of questions. -/
structure Outline where
  status : TStatus
  err : TErr
  pending : Bool
  reported : List TStatus
  packets : Nat
  data : List Bytes
  questions : Nat
deriving DecidableEq

def outline : Res (TCtx × List TEv) → Option Outline
  | .ok (c, evs) => some ⟨c.status, c.err, c.pending.isSome, statuses evs, (sent evs).length, delivered evs,
      (asks evs).length⟩
  | _ => none

/-- The first packet of `toyInit`; the answer of `toyResp`. -/
def toySeedWire : Bytes := lastTx (tRun toyEngine toyInit [.start toyRand])
def toyRespWire : Bytes := lastTx (tRun toyEngine toyResp [.recv (some toySeedWire) (toyEnv [true])])

/-- The history of the initiator, and what the responder has to say then. -/
def toyInitOps : List TOp := [.start toyRand, .recv (some toyRespWire) (toyEnv [true])]
def toyDataWire : Bytes :=
  lastTx (tRun toyEngine toyResp [.recv (some toySeedWire) (toyEnv [true]), .send (some [1, 2, 3])])

/-- Beside C24, C29, C30, C33 and C59: a handshake that completes, data in both directions, and the
same with an altered data packet. -/
example : tCreate toyChain none 0 = some toyInit ∧ tCreate toyPeer none 0 = some toyResp ∧
    outline (tRun toyEngine toyInit (toyInitOps ++ [.recv (some toyDataWire) (toyEnv []), .send (some [9])])) =
      some ⟨.active, .noError, false, [.initialHandshake, .active], 2, [[1, 2, 3]], 1⟩ ∧
    outline (tRun toyEngine toyInit (toyInitOps ++ [.recv (some toyDataWire) (toyEnv []),
      .recv (some toyDataWire) (toyEnv []), .send (some [9])])) =
      some ⟨.error, .badTxState, false, [.initialHandshake, .active, .error], 1, [[1, 2, 3]], 1⟩ ∧
    outline (tRun toyEngine toyInit (toyInitOps ++ [.recv (some (toyDataWire ++ [0])) (toyEnv [])])) =
      some ⟨.error, .packetDecodeFailed, false, [.initialHandshake, .active, .error], 1, [], 1⟩ ∧
    outline (tRun toyEngine toyInit [.start toyRand, .recv (some toyRespWire) (toyEnv [false])]) =
      some ⟨.error, .processHandshakeFailed, true, [.initialHandshake, .error], 1, [], 1⟩ := by decide +kernel

/-- Beside C24: two packets carry the numbers 1 and 2. -/
example : (match tRun toyEngine toyInit (toyInitOps ++ [.send (some [9]), .send (some [8, 8])]) with
    | .ok (_, evs) => sentSeqs evs | _ => []) = [1, 2] := by decide +kernel

/-- Beside C59: with the peer pinned nobody is asked; with somebody else pinned it fails. -/
example : outline (tRun toyEngine { toyInit with remote := some toyPeerPublic } toyInitOps) =
      some ⟨.active, .noError, false, [.initialHandshake, .active], 1, [], 0⟩ ∧
    outline (tRun toyEngine { toyInit with remote := some toyChain } toyInitOps) =
      some ⟨.error, .processHandshakeFailed, true, [.initialHandshake, .error], 1, [], 0⟩ ∧
    (chainCopy toyPeerPublic).isSome = true := by decide +kernel

example : CacheTruthful toyEngine toyPeerPublic := fresh_truthful rfl

/-! ### C31 -/

/-- C31 is false: a responder waiting for the decision on the peer's identity gets garbage and reports
ERROR; when the decision arrives it becomes ACTIVE. -/
theorem C31_error_not_final :
    ¬ ∀ (E : Engine) (self : Chain) (R : Option Chain) (evo : UInt32) (c0 c c' : TCtx) (pre post : List TOp)
      (evs evs' : List TEv), E.Lawful → tCreate self R evo = some c0 → tRun E c0 pre = .ok (c, evs) →
      c.status = .error → tRun E c post = .ok (c', evs') → c'.status ≠ .active := by
  intro hall
  let pre : List TOp := [.recv (some toySeedWire) (toyEnv []), .recv (some []) (toyEnv [])]
  have h1 : ∃ c evs, tRun toyEngine toyResp pre = .ok (c, evs) ∧ c.status = .error ∧
      ∃ c' evs', tRun toyEngine c [.answer true (toyEnv [])] = .ok (c', evs') ∧ c'.status = .active := by
    have hd : (match tRun toyEngine toyResp pre with
      | .ok (c, _) => c.status == .error && (match tRun toyEngine c [.answer true (toyEnv [])] with
        | .ok (c', _) => c'.status == .active
        | _ => false)
      | _ => false) = true := by decide +kernel
    split at hd
    next c evs h =>
      simp only [Bool.and_eq_true, beq_iff_eq] at hd
      obtain ⟨h2, h3⟩ := hd
      split at h3
      next c' evs' h4 => exact ⟨c, evs, h, h2, c', evs', h4, by simpa using h3⟩
      · cases h3
    · cases hd
  obtain ⟨c, evs, h2, h3, c', evs', h4, h5⟩ := h1
  exact hall toyEngine toyPeer none 0 toyResp c c' pre _ evs evs' toyEngine_lawful (by decide) h2 h3 h4 h5

/-- No decision of the application is outstanding. -/
def Spec.NoDecisionPending (c : TCtx) : Prop :=
  ∀ h, c.pending = some h → h.status ≠ .pendingVerification

theorem error_step {E : Engine} {c : TCtx} {op : TOp} (hs : c.status = .error)
    (hok : NoDecisionPending c ∨ ∀ e, op ≠ .answer true e) :
    ∃ c', op.step E c = .ok (c', []) ∧ c'.status = .error ∧ (NoDecisionPending c → NoDecisionPending c') := by
  have quiet : ∀ x, tError c x = ({ c with err := x }, []) := by
    intro x
    unfold tError tUpdate
    rw [if_pos (show ({ c with err := x } : TCtx).status = .error from hs)]
  cases op with
  | start r =>
    refine ⟨{ c with err := .badStartStatus }, ?_, hs, id⟩
    simp only [TOp.step, tStart, if_pos (show c.status ≠ .fresh by rw [hs]; decide), quiet]
  | send b =>
    refine ⟨{ c with err := .badTxState }, ?_, hs, id⟩
    cases b with
    | none => simp only [TOp.step, tSend, quiet]
    | some b => simp only [TOp.step, tSend, if_pos (show c.status ≠ .active by rw [hs]; decide), quiet]
  | recv b e =>
    cases b with
    | none => exact ⟨{ c with err := .invalidRxData }, by simp only [TOp.step, tRecv, quiet], hs, id⟩
    | some b => exact ⟨c, by simp only [TOp.step, tRecv, hs, if_true, tUpdate], hs, id⟩
  | answer v e =>
    cases hp : c.pending with
    | none => exact ⟨c, by simp only [TOp.step, tAnswer, hp], hs, id⟩
    | some h =>
      have hbad : (!v) = true ∨ h.status ≠ .pendingVerification := by
        rcases hok with hn | hn
        · exact .inr (hn h hp)
        · cases v with
          | false => exact .inl rfl
          | true => exact absurd rfl (hn e)
      refine ⟨{ c with pending := some { h with status := .failed, rootKey := none }, err := .handshakeFailed }, ?_, hs, ?_⟩
      · simp only [TOp.step, tAnswer, hp, hsVerify, if_pos hbad, tFinalizeIfReady, tPendingStatus, reduceCtorEq,
          if_false, Res.bind, tVolley, if_true]
        simp only [tError, tUpdate, hs, if_true, List.append_nil]
      · intro _ g hg; cases hg; simp
  | copy =>
    cases hc : tCopy c with
    | none => exact ⟨c, by simp only [TOp.step, hc, Option.getD_none], hs, id⟩
    | some d =>
      obtain ⟨l, r0, r', tx, rx, -, -, -, -, -, he⟩ := tCopy_some hc
      exact ⟨d, by simp only [TOp.step, hc, Option.getD_some], by rw [he]; exact hs,
        fun _ g hg => by rw [he] at hg; cases hg⟩

/-- C31, what holds: unless the application accepts an identity it was asked about earlier, ERROR is
final, and the context is silent: no call after it sends, delivers, asks or reports anything.  Missing
from the claim: an outstanding identity decision that arrives after the error. -/
theorem C31_error_final_partial (E : Engine) (c : TCtx) (post : List TOp) (hs : c.status = .error)
    (hok : NoDecisionPending c ∨ ∀ e, TOp.answer true e ∉ post) :
    ∃ c', tRun E c post = .ok (c', []) ∧ c'.status = .error := by
  induction post generalizing c with
  | nil => exact ⟨c, rfl, hs⟩
  | cons op ops ih =>
    obtain ⟨c1, h1, h2, h3⟩ := error_step (E := E) (op := op) hs
      (hok.imp id fun h e he => h e (by rw [he]; simp))
    obtain ⟨c2, h4, h5⟩ := ih c1 h2 (hok.imp h3 fun h e he => h e (List.mem_cons_of_mem _ he))
    exact ⟨c2, by simp only [tRun, h1, Res.bind, h4, List.append_nil], h5⟩

theorem active_no_pending {E : Engine} {self : Chain} {R : Option Chain} {evo : UInt32} {c0 c : TCtx}
    {ops : List TOp} {evs : List TEv} (h0 : tCreate self R evo = some c0) (h : tRun E c0 ops = .ok (c, evs))
    (ha : TEv.state .active ∈ evs) : c.pending = none ∧ c.status ≠ .fresh := by
  refine run_hist (P := fun c evs => TEv.state .active ∈ evs → c.pending = none ∧ c.status ≠ .fresh) ?_ ops (evs0 := [])
    (base_create h0) (by simp) h ha
  intro op c e c' evs m hp hm
  by_cases hold : TEv.state .active ∈ evs
  · obtain ⟨h1, h2⟩ := hp hold
    cases m with
    | fail x => rw [tError_eq]; exact ⟨h1, by simp⟩
    | create h hst hc _ => exact absurd hst h2
    | drop hst => exact absurd hst h2
    | start h r ho hp' hst => exact absurd hst h2
    | begin hst h hp' => exact absurd hst h2
    | process h h' b e p out ho hb hp' hst hr => rw [h1] at hp'; cases hp'
    | verify h v ho hp' => rw [h1] at hp'; cases hp'
    | noKeys h h' hp' hf => rw [h1] at hp'; cases hp'
    | noStream h h' ks hp' hf hn => rw [h1] at hp'; cases hp'
    | activate h h' ks seed t r hp' => rw [h1] at hp'; cases hp'
    | copy _ ho hc =>
      obtain ⟨l, r0, r', tx, rx, -, -, -, -, -, rfl⟩ := tCopy_some hc
      exact ⟨rfl, h2⟩
    | _ => exact ⟨h1, h2⟩
  · have he : TEv.state .active ∈ e := (List.mem_append.1 hm).resolve_left hold
    cases m with
    | fail x => rw [tError_evs] at he; split at he <;> simp at he
    | process h h' b e p out ho hb hp' hst hr => cases ho : out.ask <;> simp [ho] at he
    | activate h h' ks seed t r hp' => exact ⟨rfl, by simp⟩
    | _ => simp at he

/-- C31 for contexts that had been ACTIVE: from then on ERROR is final and silent, without further
hypotheses. -/
theorem C31_error_final_after_active_partial (E : Engine) (self : Chain) (R : Option Chain) (evo : UInt32) (c0 c : TCtx)
    (pre post : List TOp) (evs : List TEv) (h0 : tCreate self R evo = some c0) (h : tRun E c0 pre = .ok (c, evs))
    (ha : TEv.state .active ∈ evs) (hs : c.status = .error) :
    ∃ c', tRun E c post = .ok (c', []) ∧ c'.status = .error :=
  C31_error_final_partial E c post hs (.inl fun g hg => by rw [(active_no_pending h0 h ha).1] at hg; cases hg)

/-- C31 for contexts with a remote identity (that can be copied): ERROR is final and silent. -/
theorem C31_error_final_pinned_partial (E : Engine) (hE : SaneOutputs E) (self R0 : Chain) (evo : UInt32) (c0 c : TCtx)
    (pre post : List TOp) (evs : List TEv) (h0 : tCreate self (some R0) evo = some c0) (hR : CacheTruthful E R0)
    (hc : (chainCopy R0).isSome) (h : tRun E c0 pre = .ok (c, evs)) (hs : c.status = .error) :
    ∃ c', tRun E c post = .ok (c', []) ∧ c'.status = .error := by
  refine C31_error_final_partial E c post hs (.inl fun g hg hst => ?_)
  have := ((authInv_run hE h0 (by intro R h; cases h; exact hR) pre h).pv g hg hst).2.1 R0 rfl
  rw [this] at hc; cases hc

/-! ### C32 -/

/-- A response that a peer can make: correctly signed, but with the CTR cipher in the root key. -/
def toyCtrResponse : Option Bytes :=
  match (pktFromBuffer toySeedWire).map fun p =>
    hsProcess toyEngine ⟨toyPeer, none, none, none, .unknown, none, none, none, false, 512⟩ (some p) toyRand2 with
  | some (.ok (h, _)) =>
    ((hsMakeResponse toyEngine h ⟨List.replicate 32 8, .ctr, 512, 512⟩ toyRand2.eph ⟨.p521, toyRand.eph.pub, none⟩
      toyRand2.iv true).bind fun m => (hsBuildSigned toyEngine h m [] true).2).bind pktSerialize
  | _ => none

/-- C32 is false: the response of a peer whose root key names the CTR cipher makes the initiator drop
the handshake, without becoming ACTIVE and without reporting anything. -/
theorem C32_silent_failure :
    ¬ ∀ (E : Engine) (self : Chain) (R : Option Chain) (evo : UInt32) (c0 c c' : TCtx) (pre : List TOp) (b : Bytes)
      (env : TEnv) (evs evs' : List TEv), E.Lawful → tCreate self R evo = some c0 → tRun E c0 pre = .ok (c, evs) →
      c.pending ≠ none → tRun E c [.recv (some b) env] = .ok (c', evs') → c'.pending = none →
      c'.status = .active ∨ c'.status = .error := by
  intro hall
  have hd : (match toyCtrResponse, tRun toyEngine toyInit [.start toyRand] with
      | some b, .ok (c, _) => c.pending.isSome && (match tRun toyEngine c [.recv (some b) (toyEnv [true])] with
        | .ok (c', _) => c'.pending.isNone && c'.status == .initialHandshake
        | _ => false)
      | _, _ => false) = true := by decide +kernel
  split at hd
  next b c evs hb h =>
    simp only [Bool.and_eq_true] at hd
    obtain ⟨h2, h3⟩ := hd
    split at h3
    next c' evs' h4 =>
      simp only [Bool.and_eq_true, beq_iff_eq, Option.isNone_iff_eq_none] at h3
      have := hall toyEngine toyChain none 0 toyInit c c' _ b _ evs evs' toyEngine_lawful (by decide) h
        (by intro hn; rw [hn] at h2; cases h2) h4 h3.1
      rw [h3.2] at this
      simp at this
    · cases h3
  · cases hd

/-- A handshake that has failed has been reported. -/
def FailedReported (c : TCtx) : Prop := ∀ h, c.pending = some h → h.status = .failed → c.status = .error

theorem tError_status (c : TCtx) (x : TErr) : (tError c x).1.status = .error := by rw [tError_eq]

theorem tVolley_reported (c : TCtx) (q : Option Packet) (a b : TErr) : FailedReported (tVolley c q a b).1 := by
  unfold tVolley
  split
  · intro h _ _; exact tError_status c a
  next hs =>
    have hc : FailedReported c := by
      intro h hp hf
      exact absurd (by simp only [tPendingStatus, hp, hf]) hs
    cases q with
    | none => exact hc
    | some q =>
      simp only []
      split
      · intro h _ _; exact tError_status c b
      · exact hc

theorem step_reported {E : Engine} {c c' : TCtx} {op : TOp} {evs : List TEv} (hc : FailedReported c)
    (h : op.step E c = .ok (c', evs)) : FailedReported c' := by
  have err : ∀ {d : TCtx} {x : TErr}, (Res.ok (tError d x) : Res (TCtx × List TEv)) = .ok (c', evs) → FailedReported c' := by
    intro d x h
    rw [Res.ok.injEq] at h
    have := congrArg Prod.fst h
    simp only at this
    intro g _ _
    rw [← this]; exact tError_status d x
  cases op with
  | start r =>
    simp only [TOp.step] at h
    unfold tStart at h
    split at h
    · exact err h
    split at h
    · exact err h
    next h0 hh0 =>
    split at h
    · exact err h
    next h1 q hq =>
    split at h
    · exact err h
    next hs =>
    split at h
    · exact err h
    · rw [Res.ok.injEq] at h
      have := congrArg Prod.fst h
      simp only at this
      intro g hg hf
      rw [← this, tUpdate_eq] at hg
      cases hg
      exact absurd hf hs
  | send b =>
    simp only [TOp.step] at h
    unfold tSend at h
    split at h
    · exact err h
    split at h
    · exact err h
    next hact =>
    split at h
    · cases h
    next s hs =>
    simp only [] at h
    split at h
    · exact err h
    split at h
    · exact err h
    · cases h
      exact hc
  | recv b e =>
    simp only [TOp.step] at h
    unfold tRecv at h
    split at h
    · exact err h
    split at h
    next hs =>
      rw [Res.ok.injEq] at h
      have := congrArg Prod.fst h
      simp only at this
      intro g _ _
      rw [← this, tUpdate_eq]
    split at h
    · exact err h
    split at h
    · unfold tProcessHs at h
      split at h
      · exact err h
      obtain ⟨⟨h1, out⟩, -, h⟩ := Res.bind_eq_ok.1 h
      obtain ⟨x, -, h⟩ := Res.bind_eq_ok.1 h
      obtain ⟨y, -, h⟩ := Res.bind_eq_ok.1 h
      cases h
      exact tVolley_reported _ _ _ _
    split at h
    · exact err h
    simp only [] at h
    split at h
    · exact err h
    · cases h; exact hc
  | answer v e =>
    simp only [TOp.step] at h
    unfold tAnswer at h
    split at h
    · cases h; exact hc
    · obtain ⟨x, -, h⟩ := Res.bind_eq_ok.1 h
      cases h
      exact tVolley_reported _ _ _ _
  | copy =>
    simp only [TOp.step, Res.ok.injEq, Prod.mk.injEq] at h
    obtain ⟨rfl, -⟩ := h
    cases hcp : tCopy c with
    | none => exact hc
    | some d =>
      obtain ⟨l, r0, r', tx, rx, -, -, -, -, -, rfl⟩ := tCopy_some hcp
      intro g hg; cases hg

/-- C32, what holds: after every call of every history, a pending handshake that has failed has been
reported: the context is in the error state. -/
theorem C32_failed_handshake_reported_partial (E : Engine) (self : Chain) (R : Option Chain) (evo : UInt32) (c0 c : TCtx)
    (ops : List TOp) (evs : List TEv) (h : Handshake) (h0 : tCreate self R evo = some c0)
    (hr : tRun E c0 ops = .ok (c, evs)) (hp : c.pending = some h) (hf : h.status = .failed) : c.status = .error := by
  have key : FailedReported c := by
    clear hp hf
    induction ops using snocInd generalizing c evs with
    | nil =>
      cases hr
      rw [tCreate_eq h0]
      intro g hg; cases hg
    | snoc ops op ih =>
      obtain ⟨c1, e1, e2, r1, s2, rfl⟩ := tRun_snoc hr
      exact step_reported (ih c1 e1 r1) s2
  exact key h hp hf

/-- The root key of the handshake names a cipher without authentication. -/
def Spec.Unauthenticated (h : Handshake) : Prop := ∃ rk, h.rootKey = some rk ∧ rk.cipher.isAuth = false

theorem noStream_unauthenticated {E : Engine} {h h' : Handshake} {ks : HsKeys} (hf : hsFinalize E h = (h', some ks))
    (hnn : (streamKeyCopy ks.localKey).bind (streamCtxCreate · .encode []) = none ∨
      (streamKeyCopy ks.remoteKey).bind (streamCtxCreate · .decode []) = none) : Unauthenticated h := by
  obtain ⟨rk, salt, l1, l2, d1, d2, k0, k1, k2⟩ := hsFinalize_streamKeys hf
  obtain ⟨a1, -, a3⟩ := rootKeyToStreamKey_wf k1
  obtain ⟨b1, -, b3⟩ := rootKeyToStreamKey_wf k2
  refine ⟨rk, k0, ?_⟩
  rw [a3, b3] at hnn
  simp only [Option.bind_some, streamCtxCreate, a1, b1] at hnn
  cases hauth : rk.cipher.isAuth with
  | false => rfl
  | true => simp [hauth] at hnn

/-- C32, what holds: a packet or a decision that ends the pending handshake makes the context ACTIVE or
ERROR, unless the peer put a cipher without authentication into the root key.  Missing from the
claim: that case, and copies (a copy never has a pending handshake). -/
theorem C32_dropped_handshake_partial (E : Engine) (self : Chain) (R : Option Chain) (evo : UInt32) (c0 c c' : TCtx)
    (ops : List TOp) (op : TOp) (evs e : List TEv) (h0 : tCreate self R evo = some c0)
    (hr : tRun E c0 ops = .ok (c, evs)) (hop : op ≠ .copy) (hs : op.step E c = .ok (c', e)) (hp : c.pending ≠ none)
    (hn : c'.pending = none) :
    c'.status = .active ∨ c'.status = .error ∨ ∃ h h' ks, hsFinalize E h = (h', some ks) ∧ Unauthenticated h := by
  have hb := base_run ops (base_create h0) hr
  by_cases hstart : ∃ r, op = .start r
  · obtain ⟨r, rfl⟩ := hstart
    have err : ∀ {d : TCtx} {x : TErr}, (Res.ok (tError d x) : Res (TCtx × List TEv)) = .ok (c', e) → c'.status = .error := by
      intro d x h
      rw [Res.ok.injEq] at h
      have := congrArg Prod.fst h
      simp only at this
      rw [← this]; exact tError_status d x
    simp only [TOp.step] at hs
    unfold tStart at hs
    split at hs
    · exact .inr (.inl (err hs))
    split at hs
    · exact .inr (.inl (err hs))
    split at hs
    · exact .inr (.inl (err hs))
    split at hs
    · exact .inr (.inl (err hs))
    split at hs
    · exact .inr (.inl (err hs))
    · rw [Res.ok.injEq] at hs
      have := congrArg Prod.fst hs
      simp only at this
      rw [← this, tUpdate_eq] at hn
      cases hn
  · have m := step_micros hb.1 hb.2 hs
    have key := m.inv (P := fun c => c.pending = none → c.status = .active ∨ c.status = .error ∨
        ∃ h h' ks, hsFinalize E h = (h', some ks) ∧ Unauthenticated h) ?_ (fun h => absurd h hp)
    · exact key hn
    · intro c e c' m hi
      cases m with
      | fail x => intro _; exact .inr (.inl (tError_status _ _))
      | create h hst hc _ => intro h; cases h
      | drop hst ho => exact absurd ho hstart
      | start h r ho => exact absurd ⟨r, ho⟩ hstart
      | begin hst h hp' => intro h; simp only at h; rw [h] at hp'; cases hp'
      | process h h' b e p out ho hb hp' hst hr => intro h; cases h
      | verify h v ho hp' => intro h; cases h
      | noKeys h h' hp' hf => intro h; cases h
      | noStream h h' ks hp' hf hnn => intro _; exact .inr (.inr ⟨h, h', ks, hf, noStream_unauthenticated hf hnn⟩)
      | activate h h' ks seed t r hp' => intro _; exact .inl rfl
      | copy _ ho => exact absurd ho hop
      | _ => exact hi

/-! ### C58 for contexts -/

theorem tSends_ub (E : Engine) (bs : List Bytes) : ∀ c : TCtx, c.tx ≠ none → tSends E c bs ≠ .ub := by
  induction bs with
  | nil => intro c _ h; cases h
  | cons b bs ih =>
    intro c ht h
    have h1 : ∃ c1 e1, tSend E c (some b) = .ok (c1, e1) ∧ c1.tx ≠ none := by
      simp only [tSend]
      split
      · exact ⟨(tError c .badTxState).1, (tError c .badTxState).2, rfl, by rw [tError_eq]; exact ht⟩
      split
      next hn => exact absurd hn ht
      split
      · exact ⟨(tError _ .packetEncodeFailed).1, (tError _ .packetEncodeFailed).2, rfl, by rw [tError_eq]; simp⟩
      split
      · exact ⟨(tError _ .packetSerializationFailed).1, (tError _ .packetSerializationFailed).2, rfl, by rw [tError_eq]; simp⟩
      · exact ⟨_, _, rfl, by simp⟩
    obtain ⟨c1, e1, h2, h3⟩ := h1
    simp only [tSends, h2, Res.bind] at h
    cases h4 : tSends E c1 bs with
    | ub => exact ih c1 h3 h4
    | null => rw [h4] at h; cases h
    | ok y => rw [h4] at h; cases h

theorem tSend_null (E : Engine) (c : TCtx) (b : Option Bytes) : tSend E c b ≠ .null := by
  unfold tSend
  split
  · simp
  split
  · simp
  split
  · simp
  simp only []
  split
  · simp
  split <;> simp

theorem tSends_null (E : Engine) (bs : List Bytes) : ∀ c : TCtx, tSends E c bs ≠ .null := by
  induction bs with
  | nil => intro c h; cases h
  | cons b bs ih =>
    intro c h
    simp only [tSends] at h
    cases h1 : tSend E c (some b) with
    | ub => rw [h1] at h; cases h
    | null => exact tSend_null E c _ h1
    | ok x =>
      rw [h1] at h
      simp only [Res.bind] at h
      cases h2 : tSends E x.1 bs with
      | ub => rw [h2] at h; cases h
      | null => exact ih _ h2
      | ok y => rw [h2] at h; cases h

/-- The call returns. -/
def Returns (r : Res α) : Prop := ∃ x, r = .ok x

theorem tSends_returns {E : Engine} (bs : List Bytes) {f : TCtx × List TEv → TCtx × List TEv} (d : TCtx) (hd : d.tx ≠ none) :
    Returns ((tSends E d bs).bind fun y => .ok (f y)) := by
  cases h : tSends E d bs with
  | ok y => exact ⟨_, rfl⟩
  | null => exact absurd h (tSends_null _ _ _)
  | ub => exact absurd h (tSends_ub _ _ _ hd)

theorem tFinalizeIfReady_returns (E : Engine) (c : TCtx) (e : TEnv) : Returns (tFinalizeIfReady E c e) := by
  unfold tFinalizeIfReady
  split
  case isFalse => exact ⟨_, rfl⟩
  unfold tFinalize
  split
  · exact ⟨_, rfl⟩
  split
  · exact ⟨_, rfl⟩
  split
  · exact ⟨_, rfl⟩
  split
  · exact ⟨_, rfl⟩
  next tx _ _ rx _ =>
  unfold tActivate
  split
  · exact ⟨_, rfl⟩
  · exact tSends_returns _ _ (by simp)

theorem tAnswer_returns (E : Engine) (c : TCtx) (v : Bool) (e : TEnv) : Returns (tAnswer E c v e) := by
  unfold tAnswer
  split
  · exact ⟨_, rfl⟩
  next h hp =>
    obtain ⟨x, hx⟩ := tFinalizeIfReady_returns E { c with pending := some (hsVerify h v).1 } e
    simp only [hx, Res.bind]
    exact ⟨_, rfl⟩

theorem tAnswers_returns (E : Engine) (e : TEnv) (vs : List Bool) : ∀ c : TCtx, Returns (tAnswers E c e vs) := by
  induction vs with
  | nil => intro c; exact ⟨_, rfl⟩
  | cons v vs ih =>
    intro c
    obtain ⟨x, hx⟩ := tAnswer_returns E c v e
    obtain ⟨y, hy⟩ := ih x.1
    simp only [tAnswers, hx, hy, Res.bind]
    exact ⟨_, rfl⟩

theorem tAsk_returns (E : Engine) (c : TCtx) (a : Option Chain) (e : TEnv) : Returns (tAsk E c a e) := by
  unfold tAsk
  split
  · exact ⟨_, rfl⟩
  · obtain ⟨x, hx⟩ := tAnswers_returns E e e.answers c
    simp only [hx, Res.bind]
    exact ⟨_, rfl⟩

theorem tProcessHs_ub {E : Engine} {c : TCtx} {p : Packet} {e : TEnv} :
    tProcessHs E c p e = .ub ↔ ∃ h, (c.pending = some h ∨ (c.pending = none ∧ tCreateHandshake c = some h)) ∧
      hsProcess E h (some p) e.hs = .ub := by
  have key : ∀ h, ((hsProcess E h (some p) e.hs).bind fun (h, out) =>
      (tAsk E { c with pending := some h } out.ask e).bind fun x =>
        (tFinalizeIfReady E x.1 e).bind fun y =>
          (.ok ((tVolley y.1 out.send .processHandshakeFailed .packetSerializationFailed).1,
            x.2 ++ (y.2 ++ (tVolley y.1 out.send .processHandshakeFailed .packetSerializationFailed).2)) :
            Res (TCtx × List TEv))) = .ub ↔ hsProcess E h (some p) e.hs = .ub := by
    intro h
    cases hp : hsProcess E h (some p) e.hs with
    | ub => simp [Res.bind]
    | null => simp [Res.bind]
    | ok x =>
      obtain ⟨h', out⟩ := x
      simp only [Res.bind, reduceCtorEq, iff_false]
      obtain ⟨y, hy⟩ := tAsk_returns E { c with pending := some h' } out.ask e
      obtain ⟨z, hz⟩ := tFinalizeIfReady_returns E y.1 e
      simp only [hy, hz]
      simp
  unfold tProcessHs
  cases hp : c.pending with
  | some h =>
    simp only []
    rw [key h]
    simp
  | none =>
    simp only []
    cases hc : tCreateHandshake c with
    | none => simp
    | some h =>
      simp only []
      rw [key h]
      simp

/-- C58 for contexts.  On a context with any history a call is undefined in exactly one case: it gets a
well-formed handshake packet of version 1 that it tries to process, and the packet is a response
although the handshake has not started, or a seed although it has.  Nothing about the packet has been
verified at that point. -/
theorem C58_context_undefined_iff_partial (E : Engine) (self : Chain) (R : Option Chain) (evo : UInt32) (c0 c : TCtx)
    (ops : List TOp) (op : TOp) (evs : List TEv) (h0 : tCreate self R evo = some c0)
    (hr : tRun E c0 ops = .ok (c, evs)) :
    op.step E c = .ub ↔ ∃ b e p h, op = .recv (some b) e ∧ c.status ≠ .error ∧ pktFromBuffer b = some p ∧
      (c.pending = some h ∨ (c.pending = none ∧ c.status = .fresh ∧ tCreateHandshake c = some h)) ∧
      pktVersionByte p = 1 ∧
      ((h.status = .unknown ∧ ∃ m, handshakeFromPacket p = some (.response m)) ∨
       (h.status = .inProgress ∧ ∃ m, handshakeFromPacket p = some (.seed m))) := by
  have hstreams := run_hist (P := fun c _ => Streams c) (fun _ _ _ _ _ m hs => m.streams hs) ops (evs0 := [])
    (base_create h0) (streams_create h0) hr
  cases op with
  | start r => simp [TOp.step]
  | copy => simp [TOp.step]
  | answer v e =>
    obtain ⟨x, hx⟩ := tAnswer_returns E c v e
    simp [TOp.step, hx]
  | send b =>
    simp only [TOp.step, reduceCtorEq, false_and, exists_false, iff_false]
    unfold tSend
    split
    · simp
    split
    · simp
    next hact =>
    have hact : c.status = .active := Decidable.byContradiction hact
    split
    next hn =>
      rcases hstreams with ⟨-, -, g⟩ | ⟨t, r, g, -⟩
      · exact absurd hact g
      · rw [hn] at g; cases g
    simp only []
    split
    · simp
    split <;> simp
  | recv b e =>
    cases b with
    | none => simp [TOp.step, tRecv]
    | some b =>
      simp only [TOp.step, tRecv, TOp.recv.injEq, Option.some.injEq]
      by_cases hs : c.status = .error
      · rw [if_pos hs]
        simp [hs]
      rw [if_neg hs]
      cases hb : pktFromBuffer b with
      | none =>
        simp only []
        constructor
        · intro h; cases h
        · rintro ⟨b', e', p, h, ⟨rfl, rfl⟩, -, h2, -⟩
          rw [hb] at h2; cases h2
      | some p =>
        simp only []
        by_cases hh : (tCanHandshake c && isHandshakePkt p) = true
        · rw [if_pos hh, tProcessHs_ub]
          simp only [Bool.and_eq_true] at hh
          constructor
          · rintro ⟨h, h1, h2⟩
            obtain ⟨pk, hpk, h3, h4⟩ := (C58_undefined_iff_partial E h _ _).1 h2
            cases hpk
            refine ⟨b, e, p, h, ⟨rfl, rfl⟩, hs, hb, h1.imp id ?_, h3, h4⟩
            rintro ⟨h5, h6⟩
            exact ⟨h5, by simpa [tCanHandshake, h5] using hh.1, h6⟩
          · rintro ⟨b', e', p', h, ⟨rfl, rfl⟩, -, h2, h3, h4, h5⟩
            rw [hb] at h2; cases h2
            exact ⟨h, h3.imp id fun h => ⟨h.1, h.2.2⟩,
              (C58_undefined_iff_partial E h _ _).2 ⟨p, rfl, h4, h5⟩⟩
        · rw [if_neg hh]
          constructor
          · intro hub
            exfalso
            revert hub
            split
            · simp
            · split <;> simp
          · rintro ⟨b', e', p', h, ⟨rfl, rfl⟩, -, h2, h3, h4, h5⟩
            rw [hb] at h2; cases h2
            exfalso
            apply hh
            have hpk : isHandshakePkt p = true := by
              have : handshakeFromPacket p ≠ none := by
                rcases h5 with ⟨-, m, h5⟩ | ⟨-, m, h5⟩ <;> rw [h5] <;> simp
              unfold handshakeFromPacket at this
              unfold isHandshakePkt
              split at this
              next hbody => rw [hbody]
              · exact absurd rfl this
            rw [hpk, Bool.and_true]
            unfold tCanHandshake
            rcases h3 with h3 | ⟨-, h3, -⟩
            · simp [h3]
            · simp [h3]

/-- C58 for contexts, a concrete history: an initiator that gets its own first packet back. -/
theorem C58_context_reflection : tRun toyEngine toyInit [.start toyRand, .recv (some toySeedWire) (toyEnv [])] = .ub := by
  decide +kernel

/-! ### C24 for copies -/

/-- C24 holds for one context object, not across copies: a context and its copy send different data
under the same sequence number, the same key and the same IV. -/
theorem C24_copy_repeats_key_and_iv (E : Engine) (c d c' d' : TCtx) (t : StreamCtx) (a b w w' : Bytes) (ht : c.tx = some t)
    (hcopy : tCopy c = some d) (h1 : tSend E c (some a) = .ok (c', [.tx w])) (h2 : tSend E d (some b) = .ok (d', [.tx w'])) :
    ∃ seq k iv r r' body body', E.encrypt a (some (17 :: le64 seq)) k iv = some r ∧
      E.encrypt b (some (17 :: le64 seq)) k iv = some r' ∧ cipherResultSerialize r = some body ∧
      cipherResultSerialize r' = some body' ∧ w = 17 :: (le64 seq ++ body) ∧ w' = 17 :: (le64 seq ++ body') := by
  have key : ∀ {c c' : TCtx} {t : StreamCtx} {a w : Bytes}, c.tx = some t → tSend E c (some a) = .ok (c', [.tx w]) →
      ∃ t' p, tEncode E t a = (t', some p) ∧ pktSerialize p = some w := by
    intro c c' t a w ht h
    have bad : ∀ {d : TCtx} {x : TErr}, (Res.ok (tError d x) : Res (TCtx × List TEv)) ≠ .ok (c', [.tx w]) := by
      intro d x h
      rw [Res.ok.injEq] at h
      have := congrArg Prod.snd h
      rw [tError_evs] at this
      split at this <;> simp at this
    simp only [tSend, ht] at h
    split at h
    · exact absurd h bad
    cases he : tEncode E t a with
    | mk t' o =>
      rw [he] at h
      cases o with
      | none => exact absurd h bad
      | some p =>
        simp only [] at h
        split at h
        · exact absurd h bad
        next b hb => cases h; exact ⟨t', p, rfl, hb⟩
  obtain ⟨l, r0, r', tx, rx, -, -, -, htx, hrx, rfl⟩ := tCopy_some hcopy
  rw [ht] at htx
  obtain ⟨u, ct, rfl⟩ := copyOpt_some htx
  obtain ⟨k1, k2, k3, k4⟩ := streamCtxCopy_some ct
  obtain ⟨t1, p1, e1, s1⟩ := key ht h1
  obtain ⟨t2, p2, e2, s2⟩ := key rfl h2
  obtain ⟨r1, b1, x1, y1, rfl⟩ := tEncode_some e1
  obtain ⟨r2, b2, x2, y2, rfl⟩ := tEncode_some e2
  obtain ⟨-, z1, f1, iv1, g1, q1, i1, j1, v1, -, w1⟩ := streamEncode_some x1
  obtain ⟨-, z2, f2, iv2, g2, q2, i2, j2, v2, -, w2⟩ := streamEncode_some x2
  rw [k4 z1, i1] at i2; cases i2
  rw [j1] at j2; cases j2
  have hev : (streamEvolve E u (u.lastSeq + 1)).2 = (streamEvolve E t (t.lastSeq + 1)).2 := by
    unfold streamEvolve
    simp only [k1, k2]
  rw [hev, v1] at v2; cases v2
  rw [k2] at w2 s2
  have hser : ∀ s, pktMetaSerialize ⟨.data s, 1⟩ = 17 :: le64 s := by
    intro s
    have h17 : ((1 : UInt8) <<< 4 ||| 1) = 17 := by decide
    simp [pktMetaSerialize, BodyMeta.typeId, h17]
  rw [hser] at w1 w2
  exact ⟨_, _, _, _, _, _, _, w1, w2, y1, y2, data_wire s1, data_wire s2⟩

/-! ### C60 -/

/-- How many decisions the application may have made in a call. -/
def Spec.decisions : TOp → Nat
  | .answer _ _ => 1
  | .recv _ e => e.answers.length
  | _ => 0

/-- A third chain, and its answer to a first packet of `toyResp`. -/
def toyThird : Chain :=
  chainCreate ⟨.root, [5], toyKey 31, none⟩
    ⟨.node, [6, 6], toyKey 33, some ⟨.p521, .sha512, [31, 3, toySum [0, 33]]⟩⟩
def toyThirdWire : Bytes :=
  lastTx (tRun toyEngine ⟨none, none, toyThird, none, .fresh, 512, none, .noError⟩
    [.recv (some (lastTx (tRun toyEngine toyResp [.start toyRand]))) (toyEnv [true])])

/-- C60 is false: asked about one identity, the application starts a handshake of its own, is asked
about the identity that answers, and then accepts the first; the context is ACTIVE with the second.
So it becomes ACTIVE after two questions and one decision. -/
theorem C60_stale_decision :
    ¬ ∀ (E : Engine) (self : Chain) (R : Option Chain) (evo : UInt32) (c0 c : TCtx) (ops : List TOp) (evs : List TEv),
      E.Lawful → tCreate self R evo = some c0 → tRun E c0 ops = .ok (c, evs) → c.status = .active →
      (asks evs).length ≤ (ops.map decisions).sum := by
  intro hall
  let ops : List TOp := [.recv (some toySeedWire) (toyEnv []), .start toyRand, .recv (some toyThirdWire) (toyEnv []),
    .answer true (toyEnv [])]
  have hd : (match tRun toyEngine toyResp ops with
      | .ok (c, evs) => c.status == .active && (asks evs).map (fun d => d.root.identifier) == [[1], [5]]
      | _ => false) = true := by decide +kernel
  split at hd
  next c evs h =>
    simp only [Bool.and_eq_true, beq_iff_eq] at hd
    have h1 := hall toyEngine toyPeer none 0 toyResp c ops evs toyEngine_lawful (by decide) h hd.1
    have h2 := congrArg List.length hd.2
    simp only [List.length_map, List.length_cons, List.length_nil] at h2
    rw [h2] at h1
    revert h1
    decide
  · cases hd

/-- What a handshake does with the root key and the question in its first step as responder. -/
theorem hsProcess_responder {E : Engine} {h h' : Handshake} {p : Packet} {r : HsRand} {out : HsOut}
    (hs : h.status = .unknown) (e : hsProcess E h (some p) r = .ok (h', out)) :
    h'.status = .failed ∨ ∃ rk, h'.rootKey = some rk ∧ rk.cipher = .gcm := by
  unfold hsProcess at e
  simp only [hs] at e
  split at e
  · cases e; exact .inl rfl
  obtain ⟨⟨g, q⟩, h1, h2⟩ := Res.bind_eq_ok.1 e
  have hg : g.status = .failed ∨ ∃ rk, g.rootKey = some rk ∧ rk.cipher = .gcm := by
    clear h2 e
    unfold hsProcessInitial at h1
    simp only [] at h1
    split at h1
    · cases h1; exact .inl rfl
    · cases h1; exact .inl rfl
    · cases h1
    split at h1
    case h_2 => cases h1; exact .inl rfl
    split at h1
    · cases h1; exact .inl rfl
    split at h1
    case h_2 => cases h1; exact .inl rfl
    next rk _ hrk =>
    have hrk : rk.cipher = .gcm := by
      unfold rootKeyCreate at hrk
      split at hrk
      · cases hrk
      · cases hrk; rfl
    split at h1
    · cases h1; exact .inl rfl
    split at h1
    · cases h1; exact .inl rfl
    next g1 q1 hb =>
    cases h1
    rcases hsBuildSigned_cases hb with ⟨_, h3⟩ | ⟨pk, h3, h4⟩
    · cases h3
    · right
      subst h4
      exact ⟨rk, (hsSetSlot_fields _ true pk.network).2.2.2.2.1, hrk⟩
  simp only [] at h2
  split at h2
  · cases h2; exact hg
  split at h2
  · cases h2; exact hg
  · cases h2; exact hg

/-- What C60 carries along a history without `start`. -/
structure AskInv (c : TCtx) (evs : List TEv) : Prop where
  le : (asks evs).length ≤ 1
  bare : ∀ h, c.pending = some h → h.status = .unknown ∨ h.status = .inProgress → h.remote = none →
    c.remote.bind chainCopy = none
  one : 0 < (asks evs).length → c.remote.bind chainCopy = none ∧ (c.pending = none → c.status ≠ .fresh) ∧
    ∀ h, c.pending = some h → h.status ≠ .unknown ∧ h.status ≠ .inProgress
  pv : ∀ h, c.pending = some h → h.status = .pendingVerification → h.rootKey.isSome
  key : c.status = .fresh → ∀ h, c.pending = some h → h.status = .unknown ∨ h.status = .failed ∨
    (h.status ≠ .inProgress ∧ ∃ rk, h.rootKey = some rk ∧ rk.cipher = .gcm)

theorem asks_append (a b : List TEv) : asks (a ++ b) = asks a ++ asks b := by simp [asks]

theorem Micro.asks {E : Engine} {op : TOp} (hop : ∀ r, op ≠ .start r) {c c' : TCtx} {e evs : List TEv}
    (h : Micro E op c e c') (hi : AskInv c evs) : AskInv c' (evs ++ e) := by
  have quiet : Spec.asks e = [] → AskInv c' evs → AskInv c' (evs ++ e) := by
    intro he hi
    have : Spec.asks (evs ++ e) = Spec.asks evs := by rw [asks_append, he, List.append_nil]
    exact ⟨by rw [this]; exact hi.le, hi.bare, by rw [this]; exact hi.one, hi.pv, hi.key⟩
  -- a handshake that failed, or one whose status did not change
  have fin : ∀ {d : TCtx}, d.remote = c.remote → d.status = c.status →
      (∀ g, d.pending = some g → g.status = .failed) → (d.pending = none → d.status ≠ .fresh) → AskInv d evs := by
    intro d h1 h2 h3 h4
    refine ⟨hi.le, fun g hg hs => ?_, fun ha => ⟨by rw [h1]; exact (hi.one ha).1, h4, fun g hg => ?_⟩,
      fun g hg hs => (by rw [h3 g hg] at hs; cases hs), fun _ g hg => .inr (.inl (h3 g hg))⟩
    · rw [h3 g hg] at hs; simp at hs
    · rw [h3 g hg]; simp
  cases h with
  | fail x =>
    refine quiet (by rw [tError_evs]; split <;> rfl) ?_
    rw [tError_eq]
    exact ⟨hi.le, hi.bare, fun ha => ⟨(hi.one ha).1, fun _ => by simp, (hi.one ha).2.2⟩, hi.pv, fun h => by simp at h⟩
  | create h hst hc ho =>
    refine quiet rfl ?_
    have hp : c.pending = none := ho.resolve_right fun ⟨r, h⟩ => hop r h
    obtain ⟨l, -, hc⟩ := tCreateHandshake_eq hc
    have := hsCreate_eq hc
    subst this
    refine ⟨hi.le, fun g hg _ hr => (by cases hg; exact hr), fun ha => absurd hst ((hi.one ha).2.1 hp),
      fun g hg hs => (by cases hg; cases hs),
      fun _ g hg => (by cases hg; exact .inl rfl)⟩
  | drop hst ho => exact absurd ho.choose_spec (hop _)
  | start h r ho hp hst => exact absurd ho (hop r)
  | begin hst h hp =>
    refine quiet rfl ⟨hi.le, hi.bare, fun ha => ⟨(hi.one ha).1, fun _ => by simp, (hi.one ha).2.2⟩, hi.pv, fun h => by simp at h⟩
  | process h h' b e p out ho hb hp hst hr =>
    obtain ⟨-, ⟨hf, rfl⟩ | ⟨pk, d, hpk, hst', hck, hv, hrem, hrk, hcase⟩⟩ := hsProcess_spec hr
    · refine quiet rfl (fin rfl rfl (fun g hg => by cases hg; exact hf) (fun h => by cases h))
    have hnone : ¬ 0 < (Spec.asks evs).length := by
      intro ha
      have := (hi.one ha).2.2 h hp
      rcases hst' with h1 | h1
      · exact this.1 h1
      · exact this.2 h1
    have hkey : c.status = .fresh → h'.status ≠ .inProgress → ∃ rk, h'.rootKey = some rk ∧ rk.cipher = .gcm := by
      intro hfr _
      rcases hi.key hfr h hp with h1 | h1 | ⟨h1, h2⟩
      · rcases hsProcess_responder h1 hr with h3 | h3
        · rcases hcase with ⟨-, h4, -⟩ | ⟨-, h4, -⟩ <;> rw [h4] at h3 <;> cases h3
        · exact h3
      · rcases hst' with h3 | h3 <;> rw [h1] at h3 <;> cases h3
      · rcases hst' with h3 | h3
        · rcases hsProcess_responder h3 hr with h5 | h5
          · rcases hcase with ⟨-, h4, -⟩ | ⟨-, h4, -⟩ <;> rw [h4] at h5 <;> cases h5
          · exact h5
        · exact absurd h3 h1
    rcases hcase with ⟨h1, h2, rfl⟩ | ⟨h1, h2, h3⟩
    · refine ⟨?_, ?_, ?_, fun g hg _ => (by cases hg; exact hrk), ?_⟩
      · rw [asks_append]
        have : (Spec.asks evs).length = 0 := by omega
        rw [List.length_append, this]
        cases h'.remote.bind chainCopy <;> simp [Spec.asks]
      · intro g hg hs; cases hg; rw [h2] at hs; simp at hs
      · intro _
        refine ⟨hi.bare h hp hst' h1, fun h => (by cases h), fun g hg => ?_⟩
        cases hg; rw [h2]; simp
      · intro hfr g hg; cases hg
        exact .inr (.inr ⟨by rw [h2]; simp, hkey hfr (by rw [h2]; simp)⟩)
    · refine quiet (by rw [h3]; rfl) ⟨hi.le, ?_, fun ha => absurd ha hnone, fun g hg _ => (by cases hg; exact hrk), ?_⟩
      · intro g hg hs; cases hg; rw [h2] at hs; simp at hs
      · intro hfr g hg; cases hg
        exact .inr (.inr ⟨by rw [h2]; simp, hkey hfr (by rw [h2]; simp)⟩)
  | verify h v ho hp =>
    refine quiet rfl ?_
    by_cases hbad : (!v) = true ∨ h.status ≠ .pendingVerification
    · refine fin rfl rfl (fun g hg => ?_) (fun h => by cases h)
      cases hg; simp only [hsVerify, if_pos hbad]
    · have hst : h.status = .pendingVerification := Decidable.byContradiction fun hc => hbad (Or.inr hc)
      have hrk := hi.pv h hp hst
      have hs : (hsVerify h v).1.status = .pendingFinalization := by
        simp only [hsVerify, if_neg hbad, hrk, if_true]
      have hk : (hsVerify h v).1.rootKey = h.rootKey := by simp only [hsVerify, if_neg hbad]
      refine ⟨hi.le, ?_, fun ha => ⟨(hi.one ha).1, fun h => (by cases h), ?_⟩, ?_, ?_⟩
      · intro g hg hs'; cases hg; rw [hs] at hs'; simp at hs'
      · intro g hg; cases hg; rw [hs]; simp
      · intro g hg hs'; cases hg; rw [hs] at hs'; cases hs'
      · intro hfr g hg; cases hg
        rw [hs, hk]
        rcases hi.key hfr h hp with h1 | h1 | ⟨-, h1⟩
        · rw [hst] at h1; cases h1
        · rw [hst] at h1; cases h1
        · exact .inr (.inr ⟨by simp, h1⟩)
  | noKeys h h' hp hf =>
    refine quiet rfl (fin rfl rfl (fun g hg => by cases hg; exact (hsFinalize_status hf).1 rfl) (fun h => by cases h))
  | noStream h h' ks hp hf hn =>
    refine quiet rfl (fin rfl rfl (fun g hg => by cases hg) fun _ hfr => ?_)
    have hst := (hsFinalize_status hf).2 (by simp)
    obtain ⟨rk, h1, h2⟩ := noStream_unauthenticated hf hn
    rcases hi.key hfr h hp with h3 | h3 | ⟨-, rk', h3, h4⟩
    · rw [hst] at h3; cases h3
    · rw [hst] at h3; cases h3
    · rw [h1] at h3; cases h3
      rw [h4] at h2; cases h2
  | activate h h' ks seed t r hp hst' hf ht hr =>
    refine quiet rfl ⟨hi.le, fun g hg => (by cases hg), fun ha => ⟨(hi.one ha).1, fun _ => by simp, fun g hg => by cases hg⟩,
      fun g hg => (by cases hg), fun h => by simp at h⟩
  | volley q b hq hb => exact quiet rfl hi
  | encode s data ho hst ht => exact quiet rfl ⟨hi.le, hi.bare, hi.one, hi.pv, hi.key⟩
  | send s s' data b p ho hst' ht he hb => exact quiet rfl ⟨hi.le, hi.bare, hi.one, hi.pv, hi.key⟩
  | decode s b e p ho hb hst hr => exact quiet rfl ⟨hi.le, hi.bare, hi.one, hi.pv, hi.key⟩
  | recv s s' b e p d ho hb hst' hr hd => exact quiet rfl ⟨hi.le, hi.bare, hi.one, hi.pv, hi.key⟩
  | copy _ ho hc =>
    obtain ⟨l, r0, r', tx, rx, -, h1, h2, htx, hrx, rfl⟩ := tCopy_some hc
    refine quiet rfl ⟨hi.le, fun g hg => (by cases hg), fun ha => ?_, fun g hg => (by cases hg), fun _ g hg => (by cases hg)⟩
    have := (hi.one ha).1
    rw [h1] at this
    simp only [Option.bind_some] at this
    rw [h2] at this; cases this

/-- C60, what holds: if `start` is not called once packets were fed in, the application is asked at most
once in the whole life of the context, so its decision cannot be taken for another question.  Missing
from the claim: `start` after a question. -/
theorem C60_single_question_partial (E : Engine) (self : Chain) (R : Option Chain) (evo : UInt32) (c0 c : TCtx)
    (first : Option HsRand) (ops : List TOp) (evs : List TEv) (h0 : tCreate self R evo = some c0)
    (hop : ∀ r, TOp.start r ∉ ops)
    (h : tRun E c0 ((first.map TOp.start).toList ++ ops) = .ok (c, evs)) : (asks evs).length ≤ 1 := by
  have hfresh := tCreate_eq h0
  have key : ∀ {c1 : TCtx} {e1 e2 : List TEv}, Base c1 → AskInv c1 e1 → tRun E c1 ops = .ok (c, e2) →
      AskInv c (e1 ++ e2) := by
    intro c1 e1 e2 hb hi hr
    exact run_hist_mem (P := AskInv) ops (fun op ho _ _ _ _ m hs => m.asks (fun r hr => hop r (by rw [← hr]; exact ho)) hs)
      hb hi hr
  cases first with
  | none =>
    have := key (e1 := []) (base_create h0) (by
      rw [hfresh]
      exact ⟨by simp [asks], fun g hg => (by cases hg), fun ha => (by simp [asks] at ha), fun g hg => (by cases hg),
        fun _ g hg => (by cases hg)⟩) h
    exact this.le
  | some r =>
    obtain ⟨⟨c1, e1⟩, s1, r1⟩ := Res.bind_eq_ok.1 h
    obtain ⟨⟨c2, e2⟩, s2, r2⟩ := Res.bind_eq_ok.1 r1
    cases r2
    have hb := (step_micros (base_create h0).1 (base_create h0).2 s1).base (base_create h0)
    have hi : AskInv c1 e1 := by
      simp only [TOp.step, Res.ok.injEq] at s1
      have err : ∀ {d : TCtx} {x : TErr}, d.pending = none → tError d x = (c1, e1) → AskInv c1 e1 := by
        intro d x hd h
        have h1 := congrArg Prod.fst h
        have h2 := congrArg Prod.snd h
        rw [tError_eq] at h1
        rw [tError_evs] at h2
        simp only at h1 h2
        have h3 : asks e1 = [] := by rw [← h2]; split <;> rfl
        have h4 : c1.pending = none := by rw [← h1]; exact hd
        exact ⟨by rw [h3]; simp, fun g hg => (by rw [h4] at hg; cases hg), fun ha => (by rw [h3] at ha; simp at ha),
          fun g hg => (by rw [h4] at hg; cases hg), fun _ g hg => (by rw [h4] at hg; cases hg)⟩
      unfold tStart at s1
      split at s1
      · exact err (by rw [hfresh]) s1
      split at s1
      · exact err rfl s1
      next g0 hg0 =>
      split at s1
      · exact err rfl s1
      next g1 q hq =>
      split at s1
      · exact err rfl s1
      next hnf =>
      split at s1
      · exact err rfl s1
      next b hb =>
      have h1 := congrArg Prod.fst s1
      have h2 := congrArg Prod.snd s1
      rw [tUpdate_eq] at h1
      simp only at h1 h2
      have h3 : asks e1 = [] := by
        rw [← h2]
        unfold tUpdate
        split <;> rfl
      obtain ⟨l, -, hc⟩ := tCreateHandshake_eq hg0
      have := hsCreate_eq hc
      subst this
      have hst := hsStart_spec E ⟨l, c0.remote.bind chainCopy, none, none, .unknown, none, none, none, false, c0.evo⟩ r
      rw [hq] at hst
      rcases hst with hf | ⟨-, hs, hr⟩
      · exact absurd hf hnf
      subst h1
      refine ⟨by rw [h3]; simp, ?_, fun ha => (by rw [h3] at ha; simp at ha), ?_, fun h => by simp at h⟩
      · intro g hg _ hrn; cases hg
        simp only at hr
        rw [hr] at hrn; exact hrn
      · intro g hg hs'; cases hg
        simp only at hs
        rw [hs] at hs'; cases hs'
    exact (key hb hi s2).le

/-- Beside C60: one question and one decision. -/
example : outline (tRun toyEngine toyInit (((some toyRand).map TOp.start).toList ++
      [.recv (some toyRespWire) (toyEnv []), .answer true (toyEnv []), .copy])) =
    some ⟨.active, .noError, false, [.initialHandshake, .active], 1, [], 1⟩ := by decide +kernel

end Wickr
