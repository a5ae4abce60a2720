import Verif.Lemmas.SepHsCopy
import Verif.Spec.HandshakeMem
import Verif.Props.ComputeTransport
import Verif.Props.Handshake
/-
Histories of calls to a handshake in memory.
-/
namespace Wickr
open Asrt Spec

variable {E : Engine}

/-! ### One call -/

/-- What a call does to the handshake, and what it hands out. -/
def StepMem (E : Engine) (f : Bool) (v : Handshake) (op : HsOp) (w : Handshake) (es : List HsEv) : Prop :=
  match op with
  | .start r => ∃ q, StartOutcome E v r f w q ∧ es = (q.map HsEv.sent).toList
  | .process p r => match p with
    | none => w = hsFail v ∧ es = []
    | some p => ∃ p' q ask, ProcOutcome E v p r f w p' q ask ∧ es = (q.map HsEv.sent).toList ++ (ask.map HsEv.asked).toList
  | .verify b => w = (hsVerify v b).1 ∧ es = ((hsVerify v b).2.map HsEv.sent).toList
  | .finalize => ∃ k, FinOutcome E v f w k ∧ es = (k.map HsEv.keys).toList
  | .copy => es = [] ∧ (w = v ∧ (f = true ∨ v.evo = 0) ∨ HsLoss v w ∧ (f = false → hsCopy v = some w))

theorem isEvents_one {V : Type} {R : Addr → V → Asrt} {k : Addr → HsSeen} {g : V → HsEv} (hk : ∀ a v, isEvent (k a) (g v) = R a v) (r : Ptr) (q : Option V) :
    isEvents (r.map k).toList (q.map g).toList = optRep R r q := by
  cases r <;> cases q
  · rfl
  · rfl
  · rfl
  · show isEvent _ _ ∗ emp = _
    rw [hk, Asrt.star_emp]
    rfl

theorem isEvents_append (a : Ptr) (b : Ptr) (x : Option Packet) (y : Option Chain) :
    isEvents ((a.map HsSeen.sent).toList ++ (b.map HsSeen.asked).toList) ((x.map HsEv.sent).toList ++ (y.map HsEv.asked).toList) = optRep isTPkt a x ∗ optRep isChain b y := by
  have f1 : ∀ (P : Asrt), (⌜False⌝ : Asrt) ∗ P = ⌜False⌝ := by
    intro P
    funext z
    exact propext ⟨fun h => (Asrt.pure_star.1 h).1.elim, fun h => h.1.elim⟩
  have f2 : ∀ (P : Asrt), P ∗ (⌜False⌝ : Asrt) = ⌜False⌝ := fun P => by rw [Asrt.star_comm, f1]
  cases a <;> cases b <;> cases x <;> cases y <;>
    simp only [Option.map_none, Option.map_some, Option.toList_none, Option.toList_some, List.nil_append, List.append_nil, List.cons_append, isEvents, isEvent, optRep,
      Asrt.star_emp, Asrt.emp_star, f1, f2]

/-- The state after a call, what it handed out, and what it left behind. -/
def isStepped (r : Ptr × List HsSeen) (z : Addr × Handshake × List HsEv) : Asrt :=
  ⌜r.1 = some z.1⌝ ∗ isHs z.1 z.2.1 ∗ isEvents r.2 z.2.2 ∗ Asrt.any

theorem hsCall_spec (hE : E.Fits) (hl : E.Hkdf64) (f : Bool) (a : Addr) (v : Handshake) (c : HsCall) (op : HsOp) (ho : HsOpOk op) (hw : HsWf v)
    (hp : ∀ p r, op = .process (some p) r → ¬ WrongCase v p) :
    Triple laxest f (isHs a v ∗ isCall c op) (c.run E (some a))
      (fun r f' => Asrt.ex fun z => ⌜StepMem E f' v op z.2.1 z.2.2⌝ ∗ isStepped r z) := by
  have fin : ∀ (f : Bool) (A G : Asrt) (a' : Addr) (w : Handshake) (ss : List HsSeen) (es : List HsEv), A = (isHs a' w ∗ isEvents ss es) ∗ G → StepMem E f v op w es →
      Triple laxest f A (Pure.pure (some a', ss)) (fun r f' => Asrt.ex fun z => ⌜StepMem E f' v op z.2.1 z.2.2⌝ ∗ isStepped r z) := by
    intro f A G a' w ss es hA hs
    refine Triple.ret fun y hy => ⟨(a', w, es), Asrt.pure_star.2 ⟨hs, Asrt.pure_star.2 ⟨rfl, ?_⟩⟩⟩
    rw [hA, Asrt.star_assoc] at hy
    exact Asrt.star_mono_r (fun z hz => Asrt.star_mono_r (fun _ _ => trivial) hz) hy
  cases c with
  | start r =>
    cases op with
    | start r' =>
      dsimp only [isCall]
      sintro
      rename_i hr
      subst hr
      obtain ⟨⟨d, hd, h2⟩, h1, -⟩ := ho
      unfold HsCall.run
      sstep hHsStart_spec hE f a v r d hd h1 h2 hw.1
      intro q f1 hf1
      sintro
      rename_i z hz
      unfold isSent
      rw [← isEvents_one (R := isTPkt) (k := HsSeen.sent) (g := HsEv.sent) (fun _ _ => rfl)]
      exact fin f1 _ _ a z.1 _ _ (by frame) ⟨_, hz, rfl⟩
    | _ => dsimp only [isCall]; sintro; rename_i hx; exact hx.elim
  | process b r =>
    cases op with
    | process p r' =>
      dsimp only [isCall]
      sintro
      rename_i hr
      subst hr
      unfold HsCall.run
      cases b with
      | none => cases p with
        | some p => dsimp only [optRep]; sintro; rename_i hx; exact hx.elim
        | none =>
          dsimp only [optRep]
          unfold hHsProcess
          dsimp only
          refine Triple.assoc ?_
          sstep hHsFail_spec laxest f a v
          intro _ f1 hf1
          refine Triple.pureBind ?_
          refine fin f1 _ emp a (hsFail v) [] [] ?_ ⟨rfl, rfl⟩
          show _ = (_ ∗ emp) ∗ emp
          simp only [Asrt.star_emp]
      | some b => cases p with
        | none => dsimp only [optRep]; sintro; rename_i hx; exact hx.elim
        | some p =>
          dsimp only [optRep]
          sstep hHsProcess_spec hE f a b v p r ho hw (hp p r rfl)
          intro q f1 hf1
          sintro
          rename_i z hz
          unfold isProcessed
          refine fin f1 _ (isTPkt b z.2.1 ∗ junk (f1 = true ∨ ProcLeaks E v p r)) a z.1 _ _ ?_ ⟨_, _, _, hz, rfl⟩
          rw [isEvents_append]
          ac_rfl
    | _ => dsimp only [isCall]; sintro; rename_i hx; exact hx.elim
  | verify b =>
    cases op with
    | verify b' =>
      dsimp only [isCall]
      sintro
      rename_i hr
      subst hr
      unfold HsCall.run
      sstep hHsVerify_spec f a v b
      intro q f1 hf1
      rw [← isEvents_one (R := isTPkt) (k := HsSeen.sent) (g := HsEv.sent) (fun _ _ => rfl)]
      exact fin f1 _ _ a _ _ _ (by frame) ⟨rfl, rfl⟩
    | _ => dsimp only [isCall]; sintro; rename_i hx; exact hx.elim
  | finalize =>
    cases op with
    | finalize =>
      dsimp only [isCall]
      unfold HsCall.run
      sstep hHsFinalize_spec hE hl f a v
      intro q f1 hf1
      sintro
      rename_i z hz
      unfold isFinal
      rw [← isEvents_one (R := isHsKeys) (k := HsSeen.keys) (g := HsEv.keys) (fun _ _ => rfl)]
      exact fin f1 _ _ a z.1 _ _ (by frame) ⟨_, hz, rfl⟩
    | _ => dsimp only [isCall]; sintro; rename_i hx; exact hx.elim
  | copy =>
    cases op with
    | copy =>
      dsimp only [isCall]
      unfold HsCall.run
      refine Triple.lend0 (P := isHs a v) (by frame) fun h hh => ?_
      sstep hHsCopy_view laxest f trivial h a v (fun _ _ => trivial) (fun _ _ => trivial) (has_of hh)
      intro q f1 hf1
      refine Triple.giveBack0 hh (by frame) ?_
      cases q with
      | none =>
        dsimp only [hsCopied]
        sintro
        rename_i hf
        refine fin f1 _ emp a v [] [] ?_ ⟨rfl, Or.inl ⟨rfl, hf⟩⟩
        show _ = (_ ∗ emp) ∗ emp
        simp only [Asrt.star_emp]
      | some q =>
        dsimp only [hsCopied]
        sintro
        rename_i w hw
        sdestroy hHsDestroy_spec (v := v) (fun _ _ => trivial)
        intro f2 hf2
        refine fin f2 _ emp q w [] [] ?_ ⟨rfl, Or.inr ⟨hw.1, fun h => hw.2 (oom_back hf2 h)⟩⟩
        show _ = (_ ∗ emp) ∗ emp
        simp only [Asrt.star_emp]
    | _ => dsimp only [isCall]; sintro; rename_i hx; exact hx.elim

/-! ### Histories -/

/-- A chain that stands for `R`: what is authentic under it is authentic under `R`. -/
def StandsFor (E : Engine) (R c : Chain) : Prop :=
  ChainHonest E c ∧ c.node.key = R.node.key ∧ (ChainGenuine E c → ChainGenuine E R)

theorem idLoss_same {i j : Identity} (h : idLoss i j) : SameIdentity i j := by
  rcases h with rfl | rfl
  · exact .refl _
  · exact ⟨rfl, rfl, rfl, Or.inr rfl⟩

theorem chainLoss_same {c d : Chain} (h : chainLoss c d) : SameChain c d := ⟨idLoss_same h.1, idLoss_same h.2.1⟩

theorem StandsFor.loss {R c d : Chain} (h : StandsFor E R c) (hl : chainLoss c d) : StandsFor E R d := by
  obtain ⟨r, n, st, ca⟩ := c
  obtain ⟨r', n', st', ca'⟩ := d
  obtain ⟨h1, h2, h3, h4⟩ := hl
  dsimp only at h1 h2 h3 h4
  subst h3 h4
  have hr : r'.key = r.key := (idLoss_same h1).2.2.1
  rcases h2 with rfl | rfl
  · refine ⟨?_, h.2.1, fun hg => h.2.2 ?_⟩
    · intro x s hx hs hd
      dsimp only at hx hs hd ⊢
      rw [hr] at hd
      rw [h.1 x s hx hs hd]
      unfold ChainGenuine
      rw [hr]
    · unfold ChainGenuine at hg ⊢
      rw [hr] at hg
      exact hg
  · refine ⟨(fun x s _ hs => nomatch hs), h.2.1, fun hg => ?_⟩
    obtain ⟨s, hs, -⟩ := hg
    cases hs

theorem after_honest {ch ch' : Chain} {p p' : Packet} {ok f : Bool} (hh : ChainHonest E ch) (h : CheckOutcome E p ch ok f p' ch') :
    SameKeys ch ch' ∧ ChainHonest E ch' ∧ (ok = true → Authentic E p ch) := by
  obtain ⟨-, h2, h3, -⟩ := h
  have hc : ∀ {cok}, CheckOutcome.ChainAfter E ch cok ch' → ChainOutcome E ch cok true ch' := fun h => ⟨h, fun h => nomatch h⟩
  have h1 : SameKeys ch ch' ∧ ChainHonest E ch' := by
    rcases h2 with rfl | ⟨cok, h2⟩
    · exact ⟨⟨rfl, rfl⟩, hh⟩
    · obtain ⟨-, h3, h4, -⟩ := outcome_chain hh (hc h2)
      exact ⟨h4, h3⟩
  refine ⟨h1.1, h1.2, fun hok => ?_⟩
  obtain ⟨g1, g2, mac, net, s, g3, g4, g5, g6, g7⟩ := h3 hok
  exact ⟨(outcome_chain hh (hc g1)).1.1 rfl, signed_of_check g2 g3 g4 g5 g6 g7⟩

theorem StandsFor.authentic {R c : Chain} {p : Packet} (h : StandsFor E R c) (ha : Authentic E p c) : Authentic E p R :=
  ⟨h.2.2 ha.1, h.2.1 ▸ ha.2⟩

theorem getElem?_snoc_left {α : Type} {l l' : List α} {j : Nat} {x : α} (h : l[j]? = some x) : (l ++ l')[j]? = some x := by
  rw [List.getElem?_append_left (List.getElem?_eq_some_iff.1 h).1]
  exact h

theorem Spec.PeerVouched.app {remote : Option Chain} {f f' : Bool} {ops : List HsOp} {log : List (List HsEv)} (h : PeerVouched E remote f ops log)
    (hf : f = true → f' = true) (os : List HsOp) (ls : List (List HsEv)) : PeerVouched E remote f' (ops ++ os) (log ++ ls) := by
  rcases h with ⟨R, j, p, r, h1, h2, h3⟩ | ⟨h0, j, k, p, r, ch, h1, h2, h3, h4, h5⟩
  · exact Or.inl ⟨R, j, p, r, h1, getElem?_snoc_left h2, h3⟩
  · refine Or.inr ⟨h0, j, k, p, r, ch, h1, getElem?_snoc_left h2, getElem?_snoc_left h3, h4, ?_⟩
    rcases h5 with h5 | ⟨es, c, h5, h6⟩
    · exact Or.inl (hf h5)
    · exact Or.inr ⟨es, c, getElem?_snoc_left h5, h6⟩

/-- A packet was processed whose chain the application has been asked about, if there was memory to ask. -/
def Asked (E : Engine) (f : Bool) (ops : List HsOp) (log : List (List HsEv)) : Prop :=
  ∃ (j : Nat) (p : Packet) (r : HsRand) (ch : Chain), ops[j]? = some (HsOp.process (some p) r) ∧ Authentic E p ch ∧
    (f = true ∨ ∃ es c, log[j]? = some es ∧ HsEv.asked c ∈ es ∧ SameChain ch c)

theorem Asked.app {f f' : Bool} {ops : List HsOp} {log : List (List HsEv)} (h : Asked E f ops log) (hf : f = true → f' = true) (os : List HsOp)
    (ls : List (List HsEv)) : Asked E f' (ops ++ os) (log ++ ls) := by
  obtain ⟨j, p, r, ch, h1, h2, h3⟩ := h
  refine ⟨j, p, r, ch, getElem?_snoc_left h1, h2, ?_⟩
  rcases h3 with h5 | ⟨es, c, h5, h6⟩
  · exact Or.inl (hf h5)
  · exact Or.inr ⟨es, c, getElem?_snoc_left h5, h6⟩

/-- What is known between two calls. -/
structure HsTrack (E : Engine) (v0 : Handshake) (remote : Option Chain) (f st : Bool) (ops : List HsOp) (log : List (List HsEv)) (v : Handshake) : Prop where
  safe : SafeHistory E v0 remote f ops log v
  wf : HsWf v
  fresh : (v.status = .unknown ∨ v.status = .inProgress) →
    (∀ R, remote = some R → ∃ c, v.remote = some c ∧ StandsFor E R c) ∧ (remote = none → v.remote = none)
  begun : (st = true → v.status ≠ .unknown) ∧ (v.status = .inProgress → st = true)
  root : v.status = .pendingVerification → v.rootKey.isSome = true
  asked : v.status = .pendingVerification → remote = none ∧ Asked E f ops log
  done : keysIn log = 0 ∨ v.status = .complete ∨ v.status = .failed

theorem keysIn_snoc (log : List (List HsEv)) (es : List HsEv) : keysIn (log ++ [es]) = keysIn log + keysIn [es] := by
  simp [keysIn]

theorem keysIn_none {es : List HsEv} (h : ∀ ks, HsEv.keys ks ∉ es) : keysIn [es] = 0 := by
  unfold keysIn
  rw [List.length_eq_zero_iff, List.filter_eq_nil_iff]
  intro e he
  simp at he
  cases e with
  | keys ks => exact absurd he (h ks)
  | _ => simp

theorem step_exact {v w : Handshake} {op : HsOp} {es : List HsEv} (h : StepMem E false v op w es) : op.step E v = .ok (w, es) := by
  cases op with
  | start r =>
    obtain ⟨q, h, rfl⟩ := h
    simp [HsOp.step, h.1 rfl]
  | process p r =>
    cases p with
    | none =>
      obtain ⟨rfl, rfl⟩ := h
      rfl
    | some p =>
      obtain ⟨p', q, ask, h, rfl⟩ := h
      simp [HsOp.step, h.1 rfl, Res.bind]
  | verify b =>
    obtain ⟨rfl, rfl⟩ := h
    rfl
  | finalize =>
    obtain ⟨k, h, rfl⟩ := h
    simp [HsOp.step, h.2.2 rfl]
  | copy =>
    obtain ⟨rfl, h⟩ := h
    rcases h with ⟨rfl, h⟩ | ⟨-, h⟩
    · have : hsCopy w = none := by
        have h := h.resolve_left (by decide)
        unfold hsCopy
        simp [h]
      simp [HsOp.step, this]
    · simp [HsOp.step, h rfl]

/-- Adding a call. -/
theorem Spec.SafeHistory.snoc {v0 v w : Handshake} {remote : Option Chain} {f f' : Bool} {ops : List HsOp} {log : List (List HsEv)} {op : HsOp} {es : List HsEv}
    (hi : SafeHistory E v0 remote f ops log v) (hf : f = true → f' = true) (hs : f' = false → op.step E v = .ok (w, es))
    (hk : ∀ ks, HsEv.keys ks ∈ es → PeerVouched E remote f' ops log) (hn : keysIn (log ++ [es]) ≤ 1)
    (hp : ∀ p, HsEv.sent p ∈ es → (∃ r, op = .start r) ∨ PeerVouched E remote f' (ops ++ [op]) (log ++ [es]))
    (ha : remote ≠ none → ∀ c, HsEv.asked c ∉ es)
    (hr : w.status = .pendingFinalization ∨ w.status = .complete → PeerVouched E remote f' (ops ++ [op]) (log ++ [es])) :
    SafeHistory E v0 remote f' (ops ++ [op]) (log ++ [es]) w := by
  have hlen := hi.all
  have old : ∀ {j : Nat} {e}, (log ++ [es])[j]? = some e → log[j]? = some e ∨ j = log.length ∧ e = es := by
    intro j e he
    rw [List.getElem?_append] at he
    split at he
    · exact Or.inl he
    · obtain ⟨h1, h2⟩ := List.getElem?_eq_some_iff.1 he
      simp at h1 h2
      exact Or.inr ⟨by omega, h2.symm⟩
  refine ⟨by simp [hlen], ?_, hn, ?_, ?_, hr, ?_⟩
  · intro j e ks he hm
    rcases old he with he | ⟨rfl, rfl⟩
    · have hj := (List.getElem?_eq_some_iff.1 he).1
      rw [List.take_append_of_le_length (by omega), List.take_append_of_le_length (by omega)]
      have := (hi.keys j e ks he hm).app hf [] []
      simpa using this
    · have := hk ks hm
      rw [List.take_append_of_le_length (Nat.le_refl _), hlen, List.take_append_of_le_length (Nat.le_refl _), List.take_length, ← hlen, List.take_length]
      exact this
  · intro j e p he hm
    rcases old he with he | ⟨rfl, rfl⟩
    · have hj := (List.getElem?_eq_some_iff.1 he).1
      rw [List.take_append_of_le_length (by omega), List.take_append_of_le_length (by omega)]
      refine (hi.sent j e p he hm).imp (fun ⟨r, h⟩ => ⟨r, getElem?_snoc_left h⟩) fun h => ?_
      have := h.app hf [] []
      simpa using this
    · refine (hp p hm).imp (fun ⟨r, h⟩ => ⟨r, ?_⟩) fun h => ?_
      · rw [List.take_of_length_le (by simp [hlen]), List.take_of_length_le (by simp)]
        exact h
      · simp [hlen, h]
  · intro hne e he c hc
    rcases List.mem_append.1 he with he | he
    · exact hi.quiet hne e he c hc
    · rw [List.mem_singleton] at he
      subst he
      exact ha hne c hc
  · intro hn
    have h1 := hi.exact (oom_back hf hn)
    rw [hsRun_append, h1]
    simp only [Res.bind, hsRun, hs hn]
    simp

/-- Whether the side has started. -/
def begins : HsOp → Bool
  | .start _ => true
  | _ => false

theorem HsTrack.snoc {v0 v w : Handshake} {remote : Option Chain} {f f' st : Bool} {ops : List HsOp} {log : List (List HsEv)} {op : HsOp} {es : List HsEv}
    (hi : HsTrack E v0 remote f st ops log v) (hf : f = true → f' = true) (hs : StepMem E f' v op w es) :
    HsTrack E v0 remote f' (st || begins op) (ops ++ [op]) (log ++ [es]) w := by
  have hex : f' = false → op.step E v = .ok (w, es) := fun h => step_exact (by rw [h] at hs; exact hs)
  have nokeys : (∀ ks, HsEv.keys ks ∉ es) → keysIn (log ++ [es]) = keysIn log := fun h => by rw [keysIn_snoc, keysIn_none h, Nat.add_zero]
  have hone := hi.safe.once
  /- calls that fail -/
  have hdead : w.status = .failed → es = [] → HsTrack E v0 remote f' (st || begins op) (ops ++ [op]) (log ++ [es]) w := by
    intro hw he
    subst he
    have hn := nokeys (by simp)
    refine ⟨hi.safe.snoc hf hex (by simp) (by rw [hn]; exact hone) (by simp) (by simp) (by simp [hw]), ?_, ?_, ?_, ?_, ?_, ?_⟩
    · simp [HsWf, hw]
    all_goals simp [hw]
  cases op with
  | start r =>
    obtain ⟨q, ⟨h1, ⟨-, g2, -, g4, g5, -⟩, h3, h4⟩, rfl⟩ := hs
    cases q with
    | none => exact hdead (h3 rfl) rfl
    | some p =>
      obtain ⟨k1, k2, k3, k4, -⟩ := h4 p rfl
      have hn := nokeys (by simp)
      have hwf := hi.wf.2 (Or.inl k1)
      refine ⟨hi.safe.snoc hf hex (by simp) (by rw [hn]; exact hone) (fun p hp => Or.inl ⟨r, rfl⟩) (by simp) (by simp [k2]), ?_, ?_, ?_, ?_, ?_, ?_⟩
      · refine ⟨by simp [k2], fun _ => ⟨g4.trans hwf.1, g5.trans hwf.2⟩⟩
      · intro _
        rw [g2]
        exact hi.fresh (Or.inl k1)
      · simp [k2, begins]
      · simp [k2]
      · simp [k2]
      · rw [hn]
        refine Or.inl (hi.done.resolve_right ?_)
        rw [k1]
        simp
  | process p r =>
    cases p with
    | none =>
      obtain ⟨rfl, rfl⟩ := hs
      exact hdead rfl rfl
    | some p =>
      obtain ⟨p', q, ask, ⟨h1, -, -, h4⟩, rfl⟩ := hs
      rcases h4 with ⟨k1, rfl, rfl⟩ | ⟨k1, ⟨ch, ch', k2, k3, k4⟩, k5, k6, k7, k8⟩
      · exact hdead k1 rfl
      · have hk : ∀ ks, HsEv.keys ks ∉ (q.map HsEv.sent).toList ++ (ask.map HsEv.asked).toList := by
          intro ks
          cases q <;> cases ask <;> simp
        have hn := nokeys hk
        have hd : keysIn log = 0 := hi.done.resolve_right (by rcases k1 with k1 | k1 <;> simp [k1])
        obtain ⟨f1, f2⟩ := hi.fresh k1
        have hlen := hi.safe.all
        rcases k2 with ⟨k2, k9⟩ | ⟨k2, k9, k10⟩
        · obtain ⟨R, hR⟩ : ∃ R, remote = some R := by
            cases hr : remote with
            | none => rw [f2 hr] at k2; cases k2
            | some R => exact ⟨R, rfl⟩
          obtain ⟨c, hc, hst⟩ := f1 R hR
          rw [k2] at hc
          cases hc
          have hv : PeerVouched E remote f' (ops ++ [.process (some p) r]) (log ++ [(q.map HsEv.sent).toList ++ (ask.map HsEv.asked).toList]) :=
            Or.inl ⟨R, ops.length, p, r, hR, by simp, hst.authentic ((after_honest hst.1 k4).2.2 rfl)⟩
          obtain ⟨rfl, k11⟩ := k7 k9
          refine ⟨hi.safe.snoc hf hex (fun ks h => absurd h (hk ks)) (by rw [hn]; exact hone) (fun _ _ => Or.inr hv)
            (fun _ c => by cases q <;> simp) (fun _ => hv), ?_, ?_, ?_, ?_, ?_, ?_⟩
          · simp [HsWf, k9]
          · simp [k9]
          · simp [k9]
          · simp [k9]
          · simp [k9]
          · rw [hn]
            exact Or.inl hd
        · have hR : remote = none := by
            cases hr : remote with
            | none => rfl
            | some R => obtain ⟨c, hc, -⟩ := f1 R hr; rw [k2] at hc; cases hc
          obtain ⟨rfl, k11, k12⟩ := k6 k10
          obtain ⟨m, -, hm⟩ := Option.bind_eq_some_iff.1 k9
          have hh : ChainHonest E ch := fun d s hd => by rw [(chainFromProto_spec hm).1] at hd; cases hd
          obtain ⟨g1, -, g3⟩ := after_honest hh k4
          refine ⟨hi.safe.snoc hf hex (fun ks h => absurd h (hk ks)) (by rw [hn]; exact hone) (fun o ho => by cases ask <;> simp at ho)
            (fun h => absurd hR h) (by simp [k10]), ?_, ?_, ?_, ?_, ?_, ?_⟩
          · simp [HsWf, k10]
          · simp [k10]
          · simp [k10]
          · exact fun _ => k5
          · refine fun _ => ⟨hR, ops.length, p, r, ch, by simp, g3 rfl, ?_⟩
            cases ask with
            | none => exact Or.inl (k11 rfl)
            | some c =>
              obtain ⟨ch2, e1, e2⟩ := k12 c rfl
              rw [k3] at e1
              cases e1
              refine Or.inr ⟨_, c, by rw [← hlen]; simp; rfl, by simp, ?_⟩
              obtain ⟨s1, s2⟩ := chainLoss_same e2
              rw [g1.1] at s1
              rw [g1.2] at s2
              exact ⟨s1, s2⟩
          · rw [hn]
            exact Or.inl hd
  | verify b =>
    obtain ⟨rfl, rfl⟩ := hs
    unfold hsVerify at hdead hex nokeys ⊢
    by_cases hc : (!b) = true ∨ v.status ≠ .pendingVerification
    · rw [if_pos hc] at hdead hex ⊢
      exact hdead rfl rfl
    · rw [if_neg hc] at hex nokeys ⊢
      dsimp only at hex nokeys ⊢
      have hst : v.status = .pendingVerification := Decidable.byContradiction fun h => hc (Or.inr h)
      have hb : b = true := by cases b <;> simp_all
      subst hb
      have hrk := hi.root hst
      obtain ⟨hR, j, p, r, ch, a1, a2, a3⟩ := hi.asked hst
      have hk : ∀ ks, HsEv.keys ks ∉ (v.pendingPkt.map HsEv.sent).toList := by
        intro ks
        cases v.pendingPkt <;> simp
      have hn := nokeys hk
      have hv : PeerVouched E remote f' (ops ++ [.verify true]) (log ++ [(v.pendingPkt.map HsEv.sent).toList]) := by
        refine Or.inr ⟨hR, j, ops.length, p, r, ch, (List.getElem?_eq_some_iff.1 a1).1, getElem?_snoc_left a1, by simp, a2, ?_⟩
        rcases a3 with a3 | ⟨es, c, a3, a4⟩
        · exact Or.inl (hf a3)
        · exact Or.inr ⟨es, c, getElem?_snoc_left a3, a4⟩
      refine ⟨hi.safe.snoc hf hex (fun ks h => absurd h (hk ks)) (by rw [hn]; exact hone) (fun _ _ => Or.inr hv)
        (fun h => absurd hR h) (fun _ => hv), ?_, ?_, ?_, ?_, ?_, ?_⟩
      · simp [HsWf, hrk]
      · simp [hrk]
      · simp [hrk]
      · simp [hrk]
      · simp [hrk]
      · rw [hn]
        refine Or.inl (hi.done.resolve_right ?_)
        simp [hst]
  | finalize =>
    obtain ⟨k, ⟨h1, h2, h3⟩, rfl⟩ := hs
    cases k with
    | none =>
      exact hdead (by rw [h1 rfl]; rfl) rfl
    | some ks =>
      have he := h2 ks rfl
      have hst : v.status = .pendingFinalization ∧ w.status = .complete := by
        unfold hsFinalize at he
        split at he
        · cases he
        · split at he
          · cases he
          · next hc =>
            split at he
            · cases he
            · cases he
              exact ⟨Decidable.byContradiction hc, rfl⟩
      have hv := hi.safe.ready (Or.inl hst.1)
      have hd : keysIn log = 0 := hi.done.resolve_right (by simp [hst.1])
      refine ⟨hi.safe.snoc hf hex (fun _ _ => by simpa using hv.app hf [] []) (by rw [keysIn_snoc, hd]; simp [keysIn]) (by simp) (by simp)
        (fun _ => hv.app hf _ _), ?_, ?_, ?_, ?_, ?_, ?_⟩
      · simp [HsWf, hst.2]
      · simp [hst.2]
      · simp [hst.2]
      · simp [hst.2]
      · simp [hst.2]
      · simp [hst.2]
  | copy =>
    obtain ⟨rfl, h⟩ := hs
    have hn := nokeys (by simp)
    have main : w.status = v.status → w.eph = v.eph → w.rootKey = v.rootKey → (v.pendingPkt = none → w.pendingPkt = none) →
        (v.remote = none → w.remote = none) → (∀ R c, v.remote = some c → StandsFor E R c → ∃ d, w.remote = some d ∧ StandsFor E R d) →
        HsTrack E v0 remote f' (st || begins .copy) (ops ++ [.copy]) (log ++ [[]]) w := by
      intro e1 e2 e3 e4 e5 e6
      refine ⟨hi.safe.snoc hf hex (by simp) (by rw [hn]; exact hone) (by simp) (by simp) (fun h => (hi.safe.ready (e1 ▸ h)).app hf _ _), ?_, ?_, ?_, ?_, ?_, ?_⟩
      · refine ⟨fun h => e2.trans (hi.wf.1 (e1 ▸ h)), fun h => ?_⟩
        obtain ⟨w1, w2⟩ := hi.wf.2 (e1 ▸ h)
        exact ⟨e3.trans w1, e4 w2⟩
      · intro h
        obtain ⟨f1, f2⟩ := hi.fresh (e1 ▸ h)
        refine ⟨fun R hR => ?_, fun hR => e5 (f2 hR)⟩
        obtain ⟨c, hc, hs⟩ := f1 R hR
        exact e6 R c hc hs
      · rw [e1]
        simpa [begins] using hi.begun
      · rw [e1, e3]
        exact hi.root
      · rw [e1]
        intro h
        exact ⟨(hi.asked h).1, (hi.asked h).2.app hf _ _⟩
      · rw [hn, e1]
        exact hi.done
    rcases h with ⟨rfl, -⟩ | ⟨⟨-, ⟨g, hg⟩, hsome, -, -, l3, l4, l5, l6, -, -⟩, -⟩
    · exact main rfl rfl rfl id id (fun R c h1 h2 => ⟨c, h1, h2⟩)
    · refine main l3 l4 l5 (fun h => by rw [l6, h]; rfl) ?_ ?_
      · intro h
        rw [h] at hsome
        simpa using hsome
      · intro R c h1 h2
        rw [h1] at hg hsome
        generalize w.remote = wr at hg hsome ⊢
        cases hg with
        | lost h => cases hsome
        | got h he => exact ⟨_, rfl, h2.loss h⟩

theorem HsTrack.start {self : Chain} {remote : Option Chain} {evo : UInt32} {v0 : Handshake} (h0 : hsCreate self remote evo = some v0)
    (hR : ∀ R, remote = some R → ChainHonest E R) (f : Bool) : HsTrack E v0 remote f false [] [] v0 := by
  unfold hsCreate at h0
  split at h0
  · cases h0
  · cases h0
    refine ⟨⟨rfl, by simp, by simp [keysIn], by simp, by simp, by simp, fun _ => rfl⟩, ⟨fun _ => rfl, fun _ => ⟨rfl, rfl⟩⟩, fun _ => ⟨fun R h => ⟨R, h, hR R h, rfl, id⟩, id⟩, ?_, ?_, ?_, ?_⟩
    all_goals simp [keysIn]

theorem Orderly.safe {v : Handshake} {remote : Option Chain} {v0 : Handshake} {f st : Bool} {ops : List HsOp} {log : List (List HsEv)} {op : HsOp} {os : List HsOp}
    (ho : Orderly st (op :: os)) (hi : HsTrack E v0 remote f st ops log v) :
    (∀ p r, op = .process (some p) r → ¬ WrongCase v p) ∧ Orderly (st || begins op) os := by
  cases op with
  | start r => exact ⟨by simp, by simpa [begins, Orderly] using ho⟩
  | process p r =>
    cases p with
    | none => exact ⟨by simp, by simpa [begins, Orderly] using ho⟩
    | some p =>
      obtain ⟨h1, h2, h3⟩ := ho
      refine ⟨?_, by simpa [begins] using h3⟩
      rintro q r' he
      cases he
      rintro (⟨hs, m, hm⟩ | ⟨hs, m, hm⟩)
      · exact h1 (by cases st with | false => rfl | true => exact absurd hs (hi.begun.1 rfl)) m hm
      · exact h2 (hi.begun.2 hs) m hm
  | verify b => exact ⟨by simp, by simpa [begins, Orderly] using ho⟩
  | finalize => exact ⟨by simp, by simpa [begins, Orderly] using ho⟩
  | copy => exact ⟨by simp, by simpa [begins, Orderly] using ho⟩

/-- The state after a history, all that was handed out, and what else there is. -/
def isSession (r : Ptr × List (List HsSeen)) (z : Addr × Handshake × List (List HsEv)) : Asrt :=
  ⌜r.1 = some z.1⌝ ∗ isHs z.1 z.2.1 ∗ isLog r.2 z.2.2 ∗ Asrt.any

theorem any_any : (Asrt.any ∗ Asrt.any) = Asrt.any := by
  funext h
  refine propext ⟨fun _ => trivial, fun _ => ⟨h, fun _ => none, ?_, ?_, trivial, trivial⟩⟩
  · intro a
    exact Or.inr rfl
  · funext a
    cases h a <;> rfl

theorem hsSession_spec (hE : E.Fits) (hl : E.Hkdf64) (v0 : Handshake) (remote : Option Chain) : ∀ (cs : List HsCall) (os : List HsOp) (f st : Bool) (a : Addr)
    (v : Handshake) (ops : List HsOp) (log : List (List HsEv)), (∀ o ∈ os, HsOpOk o) → Orderly st os → HsTrack E v0 remote f st ops log v →
    Triple laxest f (isHs a v ∗ isCalls cs os) (hsSession E (some a) cs)
      (fun r f' => Asrt.ex fun z => ⌜∃ st', HsTrack E v0 remote f' st' (ops ++ os) (log ++ z.2.2) z.2.1⌝ ∗ isSession r z) := by
  intro cs
  induction cs with
  | nil =>
    intro os f st a v ops log ho hord hi
    cases os with
    | cons o os => dsimp only [isCalls]; sintro; rename_i hx; exact hx.elim
    | nil =>
      unfold hsSession
      refine Triple.ret fun y hy => ⟨(a, v, []), Asrt.pure_star.2 ⟨⟨st, by simpa using hi⟩, Asrt.pure_star.2 ⟨rfl, ?_⟩⟩⟩
      dsimp only [isCalls, isLog] at hy ⊢
      exact Asrt.star_mono_r (fun z hz => by rw [Asrt.emp_star]; trivial) hy
  | cons c cs ih =>
    intro os f st a v ops log ho hord hi
    cases os with
    | nil => dsimp only [isCalls]; sintro; rename_i hx; exact hx.elim
    | cons o os =>
      obtain ⟨hsafe, hord'⟩ := Orderly.safe hord hi
      dsimp only [isCalls]
      unfold hsSession
      sstep hsCall_spec hE hl f a v c o (ho o (by simp)) hi.wf hsafe
      intro r f1 hf1
      sintro
      rename_i z hz
      obtain ⟨a', w, es⟩ := z
      dsimp only at hz
      unfold isStepped
      sintro
      rename_i hr
      obtain ⟨p, ss⟩ := r
      dsimp only at hr ⊢
      subst hr
      have hi' := hi.snoc hf1 hz
      sstep ih os f1 _ a' w _ _ (fun o h => ho o (by simp [h])) hord' hi'
      intro r f2 hf2
      sintro
      rename_i z hz
      obtain ⟨a2, w2, ls⟩ := z
      obtain ⟨st2, hz⟩ := hz
      unfold isSession
      sintro
      rename_i hr
      refine Triple.ret fun y hy => ⟨(a2, w2, es :: ls), Asrt.pure_star.2 ⟨⟨st2, by simpa using hz⟩, Asrt.pure_star.2 ⟨hr, ?_⟩⟩⟩
      dsimp only [isLog] at hy ⊢
      rw [← any_any]
      revert hy
      revert y
      sentail

end Wickr
