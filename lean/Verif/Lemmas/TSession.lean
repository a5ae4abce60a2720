import Verif.Lemmas.SepTLife
import Verif.Lemmas.TransportCtx
/-
Histories of calls to a transport context in memory.
-/
namespace Wickr
open Asrt Spec

variable {E : Engine}

/-! ### What was seen stays seen -/

theorem Spec.GotFrom.app {ops : List TOp} {j : Nat} {ch : Chain} (h : GotFrom E ops j ch) (os : List TOp) : GotFrom E (ops ++ os) j ch := by
  obtain ⟨d, e, p, h1, h2⟩ := h
  exact ⟨d, e, p, getElem?_snoc_left h1, h2⟩

theorem Spec.ShownAt.app {ops : List TOp} {log : List (List TEv)} {j : Nat} {f f' : Bool} (h : ShownAt E f ops log j) (hf : f = true → f' = true) (os : List TOp)
    (ls : List (List TEv)) : ShownAt E f' (ops ++ os) (log ++ ls) j := by
  obtain ⟨ch, h1, h2⟩ := h
  exact ⟨ch, h1.app os, h2.imp hf fun ⟨es, c, h3, h4⟩ => ⟨es, c, getElem?_snoc_left h3, h4⟩⟩

theorem Spec.YesAfter.app {ops : List TOp} {j : Nat} (h : YesAfter ops j) (os : List TOp) : YesAfter (ops ++ os) j :=
  h.imp (fun ⟨b, e, h1, h2⟩ => ⟨b, e, getElem?_snoc_left h1, h2⟩) fun ⟨k, e, h1, h2⟩ => ⟨k, e, h1, getElem?_snoc_left h2⟩

/-- A packet authentic under `ch` came. -/
def Came (E : Engine) (ops : List TOp) (ch : Chain) : Prop := ∃ j, GotFrom E ops j ch

/-- The application was asked. -/
def Shown (E : Engine) (f : Bool) (ops : List TOp) (log : List (List TEv)) : Prop := ∃ j, ShownAt E f ops log j

/-- The application said yes. -/
def Agreed (E : Engine) (f : Bool) (ops : List TOp) (log : List (List TEv)) : Prop := ∃ j, ShownAt E f ops log j ∧ YesAfter ops j

theorem vouch_iff {R0 : Option Chain} {f : Bool} {ops : List TOp} {log : List (List TEv)} : Vouch R0 (Came E ops) (Agreed E f ops log) f ↔ TVouched E R0 f ops log := by
  unfold Vouch TVouched Came Agreed
  constructor
  · rintro (⟨R, h1, j, h2⟩ | h)
    · exact Or.inl ⟨R, j, h1, h2⟩
    · exact Or.inr h
  · rintro (⟨R, j, h1, h2⟩ | h)
    · exact Or.inl ⟨R, h1, j, h2⟩
    · exact Or.inr h

theorem Came.app {ops : List TOp} {ch : Chain} (h : Came E ops ch) (os : List TOp) : Came E (ops ++ os) ch := h.imp fun _ h => h.app os

theorem Shown.app {f f' : Bool} {ops : List TOp} {log : List (List TEv)} (h : Shown E f ops log) (hf : f = true → f' = true) (os : List TOp) (ls : List (List TEv)) :
    Shown E f' (ops ++ os) (log ++ ls) := h.imp fun _ h => h.app hf os ls

theorem Agreed.app {f f' : Bool} {ops : List TOp} {log : List (List TEv)} (h : Agreed E f ops log) (hf : f = true → f' = true) (os : List TOp) (ls : List (List TEv)) :
    Agreed E f' (ops ++ os) (log ++ ls) := h.imp fun _ h => ⟨h.1.app hf os ls, h.2.app os⟩

theorem Spec.TVouched.app {R0 : Option Chain} {f f' : Bool} {ops : List TOp} {log : List (List TEv)} (h : TVouched E R0 f ops log) (hf : f = true → f' = true)
    (os : List TOp) (ls : List (List TEv)) : TVouched E R0 f' (ops ++ os) (log ++ ls) :=
  vouch_iff.1 ((vouch_iff.2 h).mono (fun _ h => h.app os) (fun h => h.app hf os ls) hf)

/-- A yes in a later call. -/
theorem Shown.yes {f : Bool} {ops : List TOp} {log : List (List TEv)} (h : Shown E f ops log) {f' : Bool} (hf : f = true → f' = true) (e : TEnv) (ls : List (List TEv)) :
    Agreed E f' (ops ++ [.answer true e]) (log ++ ls) := by
  obtain ⟨j, h⟩ := h
  refine ⟨j, h.app hf _ _, Or.inr ⟨ops.length, e, ?_, by simp⟩⟩
  obtain ⟨ch, ⟨d, e, p, h1, -⟩, -⟩ := h
  exact (List.getElem?_eq_some_iff.1 h1).1

/-- What came in this call. -/
theorem GotIn.came {ops : List TOp} {d : Option Bytes} {e : TEnv} {ch : Chain} (h : GotIn E d ch) : GotFrom E (ops ++ [.recv d e]) ops.length ch := by
  obtain ⟨p, h1, h2⟩ := h
  cases d with
  | none => cases h1
  | some d => exact ⟨d, e, p, by simp, h1, h2⟩

theorem ShownIn.at {ops : List TOp} {log : List (List TEv)} {d : Option Bytes} {e : TEnv} {es : List TEv} {f : Bool} (hl : log.length = ops.length) (h : ShownIn (GotIn E d) es f) :
    ShownAt E f (ops ++ [.recv d e]) (log ++ [es]) ops.length := by
  obtain ⟨ch, h1, h2⟩ := h
  exact ⟨ch, h1.came, h2.imp_right fun ⟨c, h3, h4⟩ => ⟨es, c, by rw [← hl]; simp, h3, h4⟩⟩

/-! ### Adding a call -/

theorem Spec.SafeTransport.snoc {c0 c w : TCtx} {R0 : Option Chain} {f f' : Bool} {ops : List TOp} {log : List (List TEv)} {op : TOp} {es : List TEv}
    (hi : SafeTransport E c0 R0 f ops log c) (hf : f = true → f' = true) (hs : f' = false → op.step E c = .ok (w, es))
    (ha : TEv.state .active ∈ es ∨ (∃ d, TEv.rx d ∈ es) → TVouched E R0 f' (ops ++ [op]) (log ++ [es]))
    (ht : ∀ d, TEv.tx d ∈ es → (∃ r, op = .start r) ∨ TVouched E R0 f' (ops ++ [op]) (log ++ [es]))
    (hq : ∀ c, TEv.ask c ∈ es → R0 = none ∨ f' = true)
    (hk : w.rx.isSome = true ∨ w.tx.isSome = true → TVouched E R0 f' (ops ++ [op]) (log ++ [es]))
    (hl : w.status = .active → w.rx.isSome = true ∧ w.tx.isSome = true) (hh : w.remote.isSome = R0.isSome) :
    SafeTransport E c0 R0 f' (ops ++ [op]) (log ++ [es]) w := by
  have hlen := hi.all
  have old : ∀ {j : Nat} {e}, (log ++ [es])[j]? = some e → log[j]? = some e ∨ j = log.length ∧ e = es := by
    intro j e he
    rw [List.getElem?_append] at he
    split at he
    · exact Or.inl he
    · obtain ⟨h1, h2⟩ := List.getElem?_eq_some_iff.1 he
      simp at h1 h2
      exact Or.inr ⟨by omega, h2.symm⟩
  have before : ∀ {j : Nat}, j < log.length → TVouched E R0 f (ops.take (j + 1)) (log.take (j + 1)) →
      TVouched E R0 f' ((ops ++ [op]).take (j + 1)) ((log ++ [es]).take (j + 1)) := by
    intro j hj h
    rw [List.take_append_of_le_length (by omega), List.take_append_of_le_length (by omega)]
    simpa using h.app hf [] []
  have now : TVouched E R0 f' (ops ++ [op]) (log ++ [es]) → TVouched E R0 f' ((ops ++ [op]).take (log.length + 1)) ((log ++ [es]).take (log.length + 1)) := by
    intro h
    rw [List.take_of_length_le (by simp [hlen]), List.take_of_length_le (by simp)]
    exact h
  refine ⟨by simp [hlen], ?_, ?_, ?_, ?_, hk, hl, hh, ?_⟩
  · intro j e he hm
    rcases old he with he | ⟨rfl, rfl⟩
    · exact before (List.getElem?_eq_some_iff.1 he).1 (hi.active j e he hm)
    · exact now (ha (Or.inl hm))
  · intro j e d he hm
    rcases old he with he | ⟨rfl, rfl⟩
    · exact before (List.getElem?_eq_some_iff.1 he).1 (hi.rx j e d he hm)
    · exact now (ha (Or.inr ⟨d, hm⟩))
  · intro j e d he hm
    rcases old he with he | ⟨rfl, rfl⟩
    · exact (hi.tx j e d he hm).imp (fun ⟨r, h⟩ => ⟨r, getElem?_snoc_left h⟩) (before (List.getElem?_eq_some_iff.1 he).1)
    · exact (ht d hm).imp (fun ⟨r, h⟩ => ⟨r, by rw [h, hlen]; simp⟩) now
  · intro hne hn e he c hc
    rcases List.mem_append.1 he with he | he
    · exact hi.quiet hne (oom_back hf hn) e he c hc
    · rw [List.mem_singleton] at he
      subst he
      rcases hq c hc with h | h
      · exact hne h
      · rw [hn] at h; cases h
  · intro hn
    have h1 := hi.exact (oom_back hf hn)
    rw [tRun_append, h1]
    simp only [Res.bind, tRun, hs hn]
    simp

/-- Everything that is known of a context during a history. -/
structure TTrack (E : Engine) (c0 : TCtx) (R0 : Option Chain) (f st : Bool) (ops : List TOp) (log : List (List TEv)) (c : TCtx) : Prop where
  safe : SafeTransport E c0 R0 f ops log c
  inv : TInv E R0 (Came E ops) (Shown E f ops log) (Agreed E f ops log) f st c

theorem TTrack.mono {c0 c w : TCtx} {R0 : Option Chain} {f f' st st' : Bool} {ops : List TOp} {log : List (List TEv)} {op : TOp} {es : List TEv} (hi : TTrack E c0 R0 f st ops log c)
    (hf : f = true → f' = true) (hs : f' = false → op.step E c = .ok (w, es))
    (hw : TInv E R0 (Came E (ops ++ [op])) (Shown E f' (ops ++ [op]) (log ++ [es])) (Agreed E f' (ops ++ [op]) (log ++ [es])) f' st' w)
    (hg : ∀ e ∈ es, e = .state .active ∨ (∃ d, e = .tx d) ∨ (∃ d, e = .rx d) → (∃ r, op = .start r) ∧ (∃ d, e = .tx d) ∨ Vouch R0 (Came E (ops ++ [op])) (Agreed E f' (ops ++ [op]) (log ++ [es])) f')
    (hq : ∀ c, TEv.ask c ∈ es → R0 = none ∨ f' = true) : TTrack E c0 R0 f' st' (ops ++ [op]) (log ++ [es]) w := by
  refine ⟨hi.safe.snoc hf hs ?_ ?_ hq (fun h => vouch_iff.1 (hw.keyed h)) hw.live ?_, hw⟩
  · rintro (h | ⟨d, h⟩)
    · exact vouch_iff.1 ((hg _ h (Or.inl rfl)).resolve_left (by simp))
    · exact vouch_iff.1 ((hg _ h (Or.inr (Or.inr ⟨d, rfl⟩))).resolve_left (by simp))
  · intro d hd
    exact (hg _ hd (Or.inr (Or.inl ⟨d, rfl⟩))).imp (fun h => h.1) fun h => vouch_iff.1 h
  · cases hr : R0 with
    | none => rw [hw.held.2 hr]
    | some R =>
      obtain ⟨d, h1, -⟩ := hw.held.1 R hr
      rw [h1]
      rfl

/-- A context that has just been made. -/
theorem TTrack.start {self : Chain} {remote : Option Chain} {evo : UInt32} {c0 : TCtx} (h0 : tCreate self remote evo = some c0)
    (hR : ∀ R, remote = some R → ChainHonest E R) (f : Bool) : TTrack E c0 remote f false [] [] c0 := by
  unfold tCreate at h0
  split at h0
  · cases h0
  · cases h0
    refine ⟨⟨rfl, by simp, by simp, by simp, by simp, by simp, by simp, rfl, fun _ => rfl⟩, ⟨fun R h => ⟨R, h, hR R h, rfl, id⟩, id⟩, by simp, by simp, by simp, by simp, by simp⟩

theorem TCtxLoss.inv {R0 : Option Chain} {A : Chain → Prop} {S Y : Prop} {f st : Bool} {c w : TCtx} (h : TCtxLoss c w) (hi : TInv E R0 A S Y f st c) : TInv E R0 A S Y f st w := by
  obtain ⟨h1, h2, -, ⟨r, r', h3, h4, h5⟩, h6, -, h7, -⟩ := h
  refine ⟨⟨fun R hR => ?_, fun hR => ?_⟩, ?_, ?_, ⟨?_, ?_⟩, ?_, ?_⟩
  · obtain ⟨d, k1, k2⟩ := hi.held.1 R hR
    rw [h3] at k1
    cases k1
    exact ⟨r', h4, k2.loss h5⟩
  · have := hi.held.2 hR
    rw [h3] at this
    cases this
  · rw [h1, h2, Option.isSome_map, Option.isSome_map]
    exact hi.keyed
  · rw [h1, h2, Option.isSome_map, Option.isSome_map, h6]
    exact hi.live
  · intro s hs
    rw [h1] at hs
    obtain ⟨s0, -, rfl⟩ := Option.map_eq_some_iff.1 hs
    rfl
  · intro s hs
    rw [h2] at hs
    obtain ⟨s0, -, rfl⟩ := Option.map_eq_some_iff.1 hs
    rfl
  · intro x hx
    rw [h7] at hx
    cases hx
  · rw [h6]
    exact hi.begun

/-- Whether the side has started. -/
def tBegins : TOp → Bool
  | .start _ => true
  | _ => false

/-- After a call. -/
def isTStepped (r : Ptr × List TSeen) (z : Addr × TCtx × List TEv) : Asrt := ⌜r.1 = some z.1⌝ ∗ isTOut z.1 r.2 z.2

theorem TOrderly.head {st : Bool} {o : TOp} {os : List TOp} (h : TOrderly st (o :: os)) : TOrderly (st || tBegins o) os ∧
    ∀ d e, o = .recv d e → ∀ p, d.bind pktFromBuffer = some p →
      (st = false → ∀ m, handshakeFromPacket p ≠ some (.response m)) ∧ (st = true → ∀ m, handshakeFromPacket p ≠ some (.seed m)) := by
  cases o with
  | start r =>
    refine ⟨?_, fun d e hx => by cases hx⟩
    simp only [tBegins, Bool.or_true]
    exact h
  | recv d e =>
    simp only [tBegins, Bool.or_false]
    cases d with
    | none => exact ⟨h, fun d e hx p hp => by cases hx; cases hp⟩
    | some d => exact ⟨h.2, fun d e hx p hp => by cases hx; exact h.1 p hp⟩
  | _ =>
    simp only [tBegins, Bool.or_false]
    exact ⟨h, fun d e hx => by cases hx⟩

theorem tCall_spec (hE : E.Fits) (hk : E.Hkdf64) (hl : ∀ b k h, E.hmac b k .sha512 = some h → h.length = 64) (c0 : TCtx) (R0 : Option Chain)
    (f st : Bool) (h : Heap) (a : Addr) (c : TCtx) (cl : TCall) (o : TOp) (ops : List TOp) (log : List (List TEv)) (hc : CallIn h cl o) (ho : TOpOk o)
    (hord : ∀ d e, o = .recv d e → ∀ p, d.bind pktFromBuffer = some p →
      (st = false → ∀ m, handshakeFromPacket p ≠ some (.response m)) ∧ (st = true → ∀ m, handshakeFromPacket p ≠ some (.seed m)))
    (hi : TTrack E c0 R0 f st ops log c) :
    Triple laxest f (isTCtx a c ∗ keep h) (cl.run E (some a))
      (fun r f' => Asrt.ex fun z => ⌜TTrack E c0 R0 f' (st || tBegins o) (ops ++ [o]) (log ++ [z.2.2]) z.2.1⌝ ∗ isTStepped r z ∗ keep h ∗ junk (f' = true ∨ OpLeaks E c o)) := by
  have done : ∀ (f1 : Bool) (P G : Asrt) (a' : Addr) (ss : List TSeen) (z : TCtx × List TEv), (∀ y, P y → (isTOut a' ss z ∗ keep h ∗ G) y) → Asrt.le G (junk (f1 = true ∨ OpLeaks E c o)) →
      TTrack E c0 R0 f1 (st || tBegins o) (ops ++ [o]) (log ++ [z.2]) z.1 → Triple laxest f1 P (Pure.pure (some a', ss))
        (fun r f' => Asrt.ex fun z => ⌜TTrack E c0 R0 f' (st || tBegins o) (ops ++ [o]) (log ++ [z.2.2]) z.2.1⌝ ∗ isTStepped r z ∗ keep h ∗ junk (f' = true ∨ OpLeaks E c o)) := by
    intro f1 P G a' ss z hP hG hz
    refine Triple.ret fun y hy => ⟨(a', z), Asrt.pure_star.2 ⟨hz, ?_⟩⟩
    unfold isTStepped
    rw [Asrt.star_assoc]
    exact Asrt.pure_star.2 ⟨rfl, Asrt.star_mono_r (fun _ => Asrt.star_mono_r hG) (hP y hy)⟩
  have hlen := hi.safe.all
  cases cl with
  | start r =>
    cases o with
    | start r' =>
      obtain rfl : r = r' := hc
      unfold TCall.run
      dsimp only
      sstep hTStart_spec hE f a c r hi.inv ho
      intro ss f1 hf1
      unfold startPost
      sintro
      rename_i z hz
      obtain ⟨z1, z2, z3⟩ := hz
      refine done f1 _ (junk (f1 = true ∨ TStartLeaks E c r)) a ss z (by sentail) (fun _ h => h) (hi.mono hf1 (fun hf => ?_) ?_ ?_ ?_)
      · show Res.ok (tStart E c r) = _
        rw [z1 hf]
      · simp only [tBegins, Bool.or_true]
        exact z2.mono (fun _ h => h.app _) (fun h => h.app hf1 _ _) (fun h => h.app hf1 _ _) id
      · intro e he hx
        rcases z3 e he with rfl | rfl | h
        · simp at hx
        · simp at hx
        · exact Or.inl ⟨⟨r, rfl⟩, h⟩
      · intro ch hch
        rcases z3 _ hch with h | h | ⟨_, h⟩ <;> cases h
    | _ => exact hc.elim
  | send b =>
    cases o with
    | send b' =>
      unfold TCall.run
      dsimp only
      sstep hTSend_spec hE hl f h a b c b' (fun h => (hi.inv.live h).2) hc
      intro ss f1 hf1
      sintro
      rename_i z hz
      obtain ⟨z1, z2, z3, z4, -⟩ := hz
      refine done f1 _ emp a ss z (by simp only [Asrt.star_emp]; exact fun _ h => h) junk_emp (hi.mono hf1 z1 ?_ ?_ ?_)
      · simp only [tBegins, Bool.or_false]
        exact (hi.inv.sent z2 z3).mono (fun _ h => h.app _) (fun h => h.app hf1 _ _) (fun h => h.app hf1 _ _) hf1
      · intro e he hx
        rcases z4 e he with rfl | ⟨h, -⟩
        · simp at hx
        · exact Or.inr ((hi.inv.keyed (Or.inl (hi.inv.live h).1)).mono (fun _ h => h.app _) (fun h => h.app hf1 _ _) hf1)
      · intro ch hch
        rcases z4 _ hch with h | ⟨-, _, h⟩ <;> cases h
    | _ => exact hc.elim
  | recv b e =>
    cases o with
    | recv d e' =>
      obtain ⟨hb, he⟩ := hc
      unfold TCall.run
      dsimp only
      sstep hTRecv_spec hE hk hl f h a b d c e e' hi.inv hb (hord d e' rfl) ho.1 he ho.2
      intro ss f1 hf1
      unfold rPost
      sintro
      rename_i z hz
      obtain ⟨z1, z2, z3⟩ := hz
      have hA : ∀ R, Came E ops R ∨ GotIn E d R → Came E (ops ++ [.recv d e']) R := fun R h => h.elim (fun h => h.app _) fun h => ⟨_, h.came⟩
      have hS : ShownIn (GotIn E d) z.2 f1 → ShownAt E f1 (ops ++ [.recv d e']) (log ++ [z.2]) ops.length := fun h => h.at hlen
      have hY : Agreed E f ops log ∨ ShownIn (GotIn E d) z.2 f1 ∧ true ∈ e'.answers → Agreed E f1 (ops ++ [.recv d e']) (log ++ [z.2]) := fun h =>
        h.elim (fun h => h.app hf1 _ _) fun h => ⟨ops.length, hS h.1, Or.inl ⟨d, e', by simp, h.2⟩⟩
      refine done f1 _ (junk (f1 = true ∨ RecvLeaks E c d e')) a ss z (fun _ h => by simpa only [Asrt.star_emp] using h) (fun _ h => h) (hi.mono hf1 z1 ?_ ?_ z3.2)
      · simp only [tBegins, Bool.or_false]
        exact z2.mono hA (fun h => h.elim (fun h => h.app hf1 _ _) fun h => ⟨_, hS h⟩) hY id
      · exact fun e he hx => Or.inr ((z3.1 e he hx).mono hA hY id)
    | _ => exact hc.elim
  | answer v e =>
    cases o with
    | answer v' e' =>
      obtain ⟨rfl, he⟩ := hc
      unfold TCall.run
      dsimp only
      sstep hTAnswer_spec (S := Shown E f ops log) (Y := Agreed E f ops log ∨ v = true ∧ Shown E f ops log) hE hk hl f h a c v e e' (hi.inv.mono (fun _ h => h) id Or.inl id) (fun h1 h2 => Or.inr ⟨h1, h2⟩) he ho
      intro ss f1 hf1
      unfold tPost
      sintro
      rename_i z hz
      obtain ⟨z1, z2, z3⟩ := hz
      have hY : Agreed E f ops log ∨ v = true ∧ Shown E f ops log → Agreed E f1 (ops ++ [.answer v e']) (log ++ [z.2]) := by
        rintro (h | ⟨rfl, h⟩)
        · exact h.app hf1 _ _
        · exact h.yes hf1 _ _
      refine done f1 _ (junk (f1 = true ∨ AnswerLeaks E c v e'.seed)) a ss z (fun _ h => by simpa only [Asrt.star_emp] using h) (fun _ h => h) (hi.mono hf1 z1 ?_ ?_ z3.2)
      · simp only [tBegins, Bool.or_false]
        exact z2.mono (fun _ h => h.app _) (fun h => h.app hf1 _ _) hY id
      · exact fun e he hx => Or.inr ((z3.1 e he hx).mono (fun _ h => h.app _) hY id)
    | _ => exact hc.elim
  | copy =>
    cases o with
    | copy =>
      unfold TCall.run
      dsimp only
      refine Triple.lend0 (P := isTCtx a c) rfl fun h1 hh => ?_
      sstep hTCopy_view laxest f trivial h1 a c (fun _ _ => trivial) (has_of hh)
      intro q f1 hf1
      refine Triple.giveBack0 hh (by frame) ?_
      cases q with
      | none =>
        dsimp only [tcopied]
        sintro
        rename_i hn
        refine done f1 _ emp a [] (c, []) (by unfold isTOut; rw [isTEvents_nil]; simp only [Asrt.star_emp]; sentail) junk_emp (hi.mono hf1 (fun hf => ?_) ?_ (by simp) (by simp))
        · show Res.ok ((tCopy c).getD c, []) = _
          rw [hn.resolve_left (by simp [hf])]
          rfl
        · simp only [tBegins, Bool.or_false]
          exact hi.inv.mono (fun _ h => h.app _) (fun h => h.app hf1 _ _) (fun h => h.app hf1 _ _) hf1
      | some q =>
        dsimp only [tcopied]
        sintro
        rename_i w hw
        sdestroy hTDestroy_spec (v := c) hi.inv.refs (fun _ _ => trivial)
        intro f2 hf2
        refine done f2 _ emp q [] (w, []) (by unfold isTOut; rw [isTEvents_nil]; simp only [Asrt.star_emp]; sentail) junk_emp (hi.mono (fun h => hf2 (hf1 h)) (fun hf => ?_) ?_ (by simp) (by simp))
        · show Res.ok ((tCopy c).getD c, []) = _
          rw [hw.1 (oom_back hf2 hf)]
          rfl
        · simp only [tBegins, Bool.or_false]
          exact (TCtxLoss.inv hw.2 hi.inv).mono (fun _ h => h.app _) (fun h => h.app (fun h => hf2 (hf1 h)) _ _) (fun h => h.app (fun h => hf2 (hf1 h)) _ _) fun h => hf2 (hf1 h)
    | _ => exact hc.elim

/-- After a history. -/
def isTSession (r : Ptr × List (List TSeen)) (z : Addr × TCtx × List (List TEv)) : Asrt := ⌜r.1 = some z.1⌝ ∗ isTCtx z.1 z.2.1 ∗ isTLog r.2 z.2.2

theorem tSession_spec (hE : E.Fits) (hk : E.Hkdf64) (hl : ∀ b k h, E.hmac b k .sha512 = some h → h.length = 64) (c0 : TCtx) (R0 : Option Chain) (h : Heap) :
    ∀ (cs : List TCall) (os : List TOp) (f st : Bool) (a : Addr) (c : TCtx) (ops : List TOp) (log : List (List TEv)), CallsIn h cs os → (∀ o ∈ os, TOpOk o) →
    TOrderly st os → TTrack E c0 R0 f st ops log c →
    Triple laxest f (isTCtx a c ∗ keep h) (tSession E (some a) cs)
      (fun r f' => Asrt.ex fun z => ⌜∃ st', TTrack E c0 R0 f' st' (ops ++ os) (log ++ z.2.2) z.2.1⌝ ∗ isTSession r z ∗ keep h ∗ junk (f' = true ∨ LeaksIn E c0 (ops ++ os))) := by
  intro cs
  induction cs with
  | nil =>
    intro os f st a c ops log hcs ho hord hi
    cases os with
    | cons o os => exact hcs.elim
    | nil =>
      unfold tSession
      refine Triple.ret fun y hy => ⟨(a, c, []), Asrt.pure_star.2 ⟨⟨st, by simpa using hi⟩, ?_⟩⟩
      unfold isTSession
      rw [Asrt.star_assoc]
      refine Asrt.pure_star.2 ⟨rfl, ?_⟩
      dsimp only [isTLog]
      rw [Asrt.star_emp]
      refine Asrt.star_mono_r (fun _ => Asrt.star_mono_r (F := emp) junk_emp) ?_
      rw [Asrt.star_emp]
      exact hy
  | cons cl cs ih =>
    intro os f st a c ops log hcs ho hord hi
    cases os with
    | nil => exact hcs.elim
    | cons o os =>
      obtain ⟨hord', hsafe⟩ := TOrderly.head hord
      unfold tSession
      sstep tCall_spec hE hk hl c0 R0 f st h a c cl o ops log hcs.1 (ho o (by simp)) hsafe hi
      intro r f1 hf1
      sintro
      rename_i z hz
      obtain ⟨a', w, es⟩ := z
      dsimp only at hz
      unfold isTStepped
      sintro
      rename_i hr
      obtain ⟨p, ss⟩ := r
      dsimp only at hr ⊢
      subst hr
      unfold isTOut
      dsimp only
      sstep ih os f1 _ a' w _ _ hcs.2 (fun o h => ho o (by simp [h])) hord' hz
      intro r f2 hf2
      sintro
      rename_i z hz
      obtain ⟨a2, w2, ls⟩ := z
      obtain ⟨st2, hz⟩ := hz
      unfold isTSession
      sintro
      rename_i hr
      refine Triple.ret fun y hy => ⟨(a2, w2, es :: ls), Asrt.pure_star.2 ⟨⟨st2, by simpa using hz⟩, ?_⟩⟩
      rw [Asrt.star_assoc]
      refine Asrt.pure_star.2 ⟨hr, ?_⟩
      dsimp only [isTLog] at hy ⊢
      have hj : Asrt.le (junk (f2 = true ∨ LeaksIn E c0 ((ops ++ [o]) ++ os)) ∗ junk (f1 = true ∨ OpLeaks E c o)) (junk (f2 = true ∨ LeaksIn E c0 (ops ++ o :: os))) := by
        cases hf : f2 with
        | true => exact le_junk (Or.inl rfl)
        | false =>
          have g1 := oom_back hf2 hf
          refine junk_star (junk_mono fun g => by simpa using g) (junk_mono fun g => Or.inr ⟨ops.length, o, c, log.flatten, by simp, ?_, g.resolve_left (by simp [g1])⟩)
          rw [List.take_left' rfl]
          exact hi.safe.exact (oom_back hf1 g1)
      refine Asrt.star_mono_r (fun _ => Asrt.star_mono_r hj) (?_ : ((isTCtx a2 w2 ∗ isTEvents ss es ∗ isTLog r.snd ls) ∗ keep h ∗ junk (f2 = true ∨ LeaksIn E c0 ((ops ++ [o]) ++ os)) ∗ junk (f1 = true ∨ OpLeaks E c o)) y)
      revert hy
      revert y
      sentail

theorem tHistory_spec (hE : E.Fits) (hk : E.Hkdf64) (hl : ∀ b k h, E.hmac b k .sha512 = some h → h.length = 64) (h : Heap) (l : Addr) (r : Ptr) (self : Chain) (remote : Option Chain)
    (evo : UInt32) (cs : List TCall) (ops : List TOp) (hR : ∀ R, remote = some R → ChainHonest E R) (hcs : CallsIn h cs ops) (ho : ∀ o ∈ ops, TOpOk o) (hord : TOrderly false ops) :
    Triple laxest false (keep h ∗ isChain l self ∗ optRep isChain r remote) (tHistory E (some l) r evo cs)
      (fun x oom => keep h ∗ Asrt.ex fun (z : Option (Addr × TCtx × List (List TEv))) => ⌜match z with
        | none => x = (none, []) ∧ (oom = true ∨ tCreate self remote evo = none)
        | some (a, w, log) => x.1 = some a ∧ ∃ c0, tCreate self remote evo = some c0 ∧ SafeTransport E c0 remote oom ops log w ∧ SoleRefs w⌝ ∗ match z with
        | none => isChain l self ∗ optRep isChain r remote
        | some (a, w, log) => isTCtx a w ∗ isTLog x.2 log ∗ junk (oom = true ∨ ∃ c0, tCreate self remote evo = some c0 ∧ LeaksIn E c0 ops)) := by
  unfold tHistory
  sstep hTCreate_spec laxest false l r self remote evo
  intro p f1 hf1
  cases p with
  | none =>
    dsimp only [orGives]
    sintro
    rename_i h1
    refine Triple.ret fun y hy => Asrt.star_mono_r (P := keep h) (F := isChain l self ∗ optRep isChain r remote) (fun z hz => ⟨none, Asrt.pure_star.2 ⟨⟨rfl, h1⟩, hz⟩⟩) ?_
    revert hy; revert y; sentail
  | some a =>
    dsimp only [orGives]
    sintro
    rename_i c0 h1
    refine Triple.conseq (tSession_spec hE hk hl c0 remote h cs ops f1 false a c0 [] [] hcs ho hord (TTrack.start h1 hR f1)) (by sentail) ?_
    rintro x f' hf' y ⟨⟨a', w, log⟩, hy⟩
    obtain ⟨⟨st, hz⟩, hy⟩ := Asrt.pure_star.1 hy
    unfold isTSession at hy
    rw [Asrt.star_assoc] at hy
    obtain ⟨hx, hy⟩ := Asrt.pure_star.1 hy
    refine Asrt.star_mono_r (P := keep h) (F := isTCtx a' w ∗ isTLog x.2 log ∗ junk (f' = true ∨ LeaksIn E c0 ops)) (fun z hz2 => ⟨some (a', w, log),
      Asrt.pure_star.2 ⟨⟨hx, c0, h1, by simpa using hz.safe, hz.inv.refs⟩, Asrt.star_mono_r (fun _ => Asrt.star_mono_r (junk_mono fun h => h.imp_right fun h => ⟨c0, h1, h⟩)) hz2⟩⟩) ?_
    dsimp only [List.nil_append] at hy
    have e : (isTCtx a' w ∗ isTLog x.2 log) ∗ keep h ∗ junk (f' = true ∨ LeaksIn E c0 ops) = keep h ∗ isTCtx a' w ∗ isTLog x.2 log ∗ junk (f' = true ∨ LeaksIn E c0 ops) := by ac_rfl
    exact e ▸ hy

end Wickr
