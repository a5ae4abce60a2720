import Verif.Lemmas.SepTCtx
import Verif.Lemmas.HsSession
/-
What is known of a transport context between two steps.
-/
namespace Wickr
open Asrt Spec

variable {E : Engine}

/-- Somebody vouches for the peer: `A R` if a packet authentic under `R` came, `Y` if the application said yes. -/
def Vouch (R0 : Option Chain) (A : Chain → Prop) (Y : Prop) (f : Bool) : Prop :=
  (∃ R, R0 = some R ∧ A R) ∨ (R0 = none ∨ f = true) ∧ Y

theorem Vouch.mono {R0 : Option Chain} {A A' : Chain → Prop} {Y Y' : Prop} {f f' : Bool} (h : Vouch R0 A Y f) (hA : ∀ R, A R → A' R) (hY : Y → Y')
    (hf : f = true → f' = true) : Vouch R0 A' Y' f' :=
  h.imp (fun ⟨R, h1, h2⟩ => ⟨R, h1, hA R h2⟩) fun ⟨h1, h2⟩ => ⟨h1.imp_right hf, hY h2⟩

/-- The identity a handshake is held to is the one the context was made with, unless memory ran out. -/
def Tied (E : Engine) (R0 : Option Chain) (f : Bool) (r : Option Chain) : Prop :=
  (∀ R, R0 = some R → (∃ d, r = some d ∧ StandsFor E R d) ∨ f = true ∧ r = none) ∧ (R0 = none → r = none)

theorem Tied.mono {R0 r : Option Chain} {f f' : Bool} (h : Tied E R0 f r) (hf : f = true → f' = true) : Tied E R0 f' r :=
  ⟨fun R hR => (h.1 R hR).imp_right fun ⟨h1, h2⟩ => ⟨hf h1, h2⟩, h.2⟩

/-- What is known of a handshake that is under way. -/
structure TPendOk (E : Engine) (R0 : Option Chain) (A : Chain → Prop) (S Y : Prop) (f st : Bool) (h : Handshake) : Prop where
  wf : HsWf h
  known : h.status ≠ .unknown
  begun : h.status = .inProgress → st = true
  tied : h.status = .inProgress → Tied E R0 f h.remote
  asked : h.status = .pendingVerification → h.rootKey.isSome = true ∧ (R0 = none ∨ f = true) ∧ S
  ready : h.status = .pendingFinalization → Vouch R0 A Y f

theorem TPendOk.failed {R0 : Option Chain} {A : Chain → Prop} {S Y : Prop} {f st : Bool} {h : Handshake} (hs : h.status = .failed) : TPendOk E R0 A S Y f st h := by
  refine ⟨?_, ?_, ?_, ?_, ?_, ?_⟩ <;> simp [HsWf, hs]

theorem TPendOk.mono {R0 : Option Chain} {A A' : Chain → Prop} {S S' Y Y' : Prop} {f f' st st' : Bool} {h : Handshake} (hi : TPendOk E R0 A S Y f st h)
    (hA : ∀ R, A R → A' R) (hS : S → S') (hY : Y → Y') (hf : f = true → f' = true) (hst : st = true → st' = true) : TPendOk E R0 A' S' Y' f' st' h :=
  ⟨hi.wf, hi.known, fun h => hst (hi.begun h), fun h => (hi.tied h).mono hf, fun h => ⟨(hi.asked h).1, (hi.asked h).2.1.imp_right hf, hS (hi.asked h).2.2⟩,
    fun h => (hi.ready h).mono hA hY hf⟩

/-- What is known of a context: `R0` is the remote identity it was made with, `S` says that the application was asked about a chain
under which an authentic packet came, `st` that this side has started. -/
structure TInv (E : Engine) (R0 : Option Chain) (A : Chain → Prop) (S Y : Prop) (f st : Bool) (c : TCtx) : Prop where
  held : (∀ R, R0 = some R → ∃ d, c.remote = some d ∧ StandsFor E R d) ∧ (R0 = none → c.remote = none)
  keyed : c.rx.isSome = true ∨ c.tx.isSome = true → Vouch R0 A Y f
  live : c.status = .active → c.rx.isSome = true ∧ c.tx.isSome = true
  refs : (∀ s, c.rx = some s → s.ref = 1) ∧ ∀ s, c.tx = some s → s.ref = 1
  pend : ∀ h, c.pending = some h → TPendOk E R0 A S Y f st h
  begun : st = true → c.status ≠ .fresh

theorem TInv.mono {R0 : Option Chain} {A A' : Chain → Prop} {S S' Y Y' : Prop} {f f' st : Bool} {c : TCtx} (hi : TInv E R0 A S Y f st c)
    (hA : ∀ R, A R → A' R) (hS : S → S') (hY : Y → Y') (hf : f = true → f' = true) : TInv E R0 A' S' Y' f' st c :=
  ⟨hi.held, fun h => (hi.keyed h).mono hA hY hf, hi.live, hi.refs, fun h hh => (hi.pend h hh).mono hA hS hY hf id, hi.begun⟩

theorem TInv.oom {R0 : Option Chain} {A : Chain → Prop} {S Y : Prop} {f f' st : Bool} {c : TCtx} (hi : TInv E R0 A S Y f st c)
    (hf : f = true → f' = true) : TInv E R0 A S Y f' st c := hi.mono (fun _ h => h) id id hf

/-- Another handshake, or none. -/
theorem TInv.withPending {R0 : Option Chain} {A : Chain → Prop} {S Y : Prop} {f st : Bool} {c : TCtx} (hi : TInv E R0 A S Y f st c) (p : Option Handshake)
    (hp : ∀ h, p = some h → TPendOk E R0 A S Y f st h) : TInv E R0 A S Y f st { c with pending := p } :=
  ⟨hi.held, hi.keyed, hi.live, hi.refs, hp, hi.begun⟩

/-- Sending changes nothing of this. -/
theorem TInv.sent {R0 : Option Chain} {A : Chain → Prop} {S Y : Prop} {f st : Bool} {c w : TCtx} (hi : TInv E R0 A S Y f st c) (ho : OnlySent c w)
    (hs : w.status = c.status ∨ w.status = .error) : TInv E R0 A S Y f st w := by
  have htx := ho.tx
  obtain ⟨h1, h2, h3, h4, h5, h6, h7⟩ := ho
  refine ⟨h3 ▸ hi.held, fun h => hi.keyed ?_, fun h => ?_, ⟨h1 ▸ hi.refs.1, fun s hs => ?_⟩, fun p hp => hi.pend p (h5 ▸ hp), fun h => ?_⟩
  · rw [h1, htx] at h
    exact h
  · rw [h1, htx]
    rcases hs with hs | hs
    · exact hi.live (hs ▸ h)
    · rw [hs] at h; cases h
  · cases hc : c.tx with
    | none => rw [h6 hc] at hs; cases hs
    | some s0 =>
      obtain ⟨s', g1, g2⟩ := h7 s0 hc
      rw [hs] at g1
      cases g1
      exact g2.trans (hi.refs.2 s0 hc)
  · rcases hs with hs | hs
    · rw [hs]; exact hi.begun h
    · rw [hs]; simp

theorem TInv.error {R0 : Option Chain} {A : Chain → Prop} {S Y : Prop} {f st : Bool} {c : TCtx} (hi : TInv E R0 A S Y f st c) (e : TErr) :
    TInv E R0 A S Y f st (tError c e).1 := hi.sent (tError_same c e).1 (Or.inr (tError_same c e).2.1)

/-- New streams. -/
theorem TInv.streams {R0 : Option Chain} {A : Chain → Prop} {S Y : Prop} {f st : Bool} {c w : TCtx} {rx tx : StreamCtx} (hi : TInv E R0 A S Y f st c)
    (hv : Vouch R0 A Y f) (h1 : rx.ref = 1) (h2 : tx.ref = 1) (ho : OnlySent { c with pending := none, rx := some rx, tx := some tx } w)
    (hs : w.status = .active ∨ w.status = .error) : TInv E R0 A S Y f st w := by
  have htx := ho.tx
  obtain ⟨g1, g2, g3, g4, g5, g6, g7⟩ := ho
  dsimp only at g1 g2 g3 g4 g5 g6 g7 htx
  refine ⟨g3 ▸ hi.held, fun _ => hv, fun _ => ⟨by rw [g1]; rfl, htx⟩, ⟨fun s hs => ?_, fun s hs => ?_⟩, fun p hp => ?_, fun h => ?_⟩
  · rw [g1] at hs; cases hs; exact h1
  · obtain ⟨s', k1, k2⟩ := g7 tx rfl
    rw [hs] at k1
    cases k1
    exact k2.trans h2
  · rw [g5] at hp; cases hp
  · rcases hs with hs | hs <;> rw [hs] <;> simp

/-- What the callbacks may be given: `V` somebody vouches for the peer, `Q` there is a reason to ask. -/
def TGood (V Q : Prop) (es : List TEv) : Prop :=
  (∀ e ∈ es, e = .state .active ∨ (∃ d, e = .tx d) ∨ (∃ d, e = .rx d) → V) ∧ ∀ c, TEv.ask c ∈ es → Q

theorem TGood.nil {V Q : Prop} : TGood V Q [] := ⟨by simp, by simp⟩

theorem TGood.append {V Q : Prop} {es es' : List TEv} (h : TGood V Q es) (h' : TGood V Q es') : TGood V Q (es ++ es') :=
  ⟨fun e he => (List.mem_append.1 he).elim (h.1 e) (h'.1 e), fun c hc => (List.mem_append.1 hc).elim (h.2 c) (h'.2 c)⟩

theorem TGood.mono {V V' Q Q' : Prop} {es : List TEv} (h : TGood V Q es) (hV : V → V') (hQ : Q → Q') : TGood V' Q' es :=
  ⟨fun e he hx => hV (h.1 e he hx), fun c hc => hQ (h.2 c hc)⟩

theorem TGood.error {V Q : Prop} {c : TCtx} {e : TErr} : TGood V Q (tError c e).2 :=
  ⟨fun x hx h => by have := (tError_same c e).2.2 x hx; subst this; simp at h, fun ch hc => absurd ((tError_same c e).2.2 _ hc) (by simp)⟩

theorem TGood.tx {V Q : Prop} {d : Bytes} (hv : V) : TGood V Q [.tx d] := ⟨fun _ _ _ => hv, by simp⟩

/-- What a step leaves: the context, what the callbacks were given, and perhaps something nobody releases. -/
def tPost (E : Engine) (R0 : Option Chain) (A : Chain → Prop) (S Y : Prop) (st : Bool) (a : Addr) (F : Asrt) (val : Res (TCtx × List TEv)) (ψ : Prop)
    (ss : List TSeen) (f : Bool) : Asrt :=
  Asrt.ex fun z => ⌜(f = false → val = .ok z) ∧ TInv E R0 A S Y f st z.1 ∧ TGood (Vouch R0 A Y f) (R0 = none ∨ f = true) z.2⌝ ∗
    isTOut a ss z ∗ F ∗ junk (f = true ∨ ψ)

theorem Triple.tPost {R0 : Option Chain} {A : Chain → Prop} {S Y : Prop} {st : Bool} {a : Addr} {F : Asrt} {val : Res (TCtx × List TEv)} {ψ : Prop}
    {ss : List TSeen} {f : Bool} {P G : Asrt} (z : TCtx × List TEv) (hP : ∀ y, P y → (isTOut a ss z ∗ F ∗ G) y) (hG : Asrt.le G (junk (f = true ∨ ψ)))
    (hv : f = false → val = .ok z) (hi : TInv E R0 A S Y f st z.1) (hg : TGood (Vouch R0 A Y f) (R0 = none ∨ f = true) z.2) :
    Triple laxest f P (Pure.pure ss) (tPost E R0 A S Y st a F val ψ) :=
  Triple.ret fun y hy => ⟨z, Asrt.pure_star.2 ⟨⟨hv, hi, hg⟩, Asrt.star_mono_r (fun _ => Asrt.star_mono_r hG) (hP y hy)⟩⟩

/-- A failure. -/
theorem Triple.tFail {R0 : Option Chain} {A : Chain → Prop} {S Y : Prop} {st : Bool} {a : Addr} {F : Asrt} {val : Res (TCtx × List TEv)} {ψ : Prop}
    {f : Bool} {P G : Asrt} {c : TCtx} (e : TErr) (hP : P = isTCtx a c ∗ F ∗ G) (hG : Asrt.le G (junk (f = true ∨ ψ)))
    (hv : f = false → val = .ok (tError c e)) (hi : TInv E R0 A S Y f st c) :
    Triple laxest f P (hTError (some a) e) (Wickr.tPost E R0 A S Y st a F val ψ) := by
  refine Triple.tail ?_
  rw [hP]
  sstep hTError_spec laxest f a c e
  intro ss f1 hf1
  exact Triple.tPost (G := G) (tError c e) (fun y hy => by simpa only [Asrt.star_emp] using hy) (fun y hy => junk_mono (fun h => h.imp_left hf1) y (hG y hy))
    (fun h => hv (oom_back hf1 h)) ((hi.error e).oom hf1) .error

end Wickr
