import Verif.Lemmas.TSession
import Verif.Lemmas.Owned
import Verif.Lemmas.SceneProto
import Verif.Props.TransportErr
import Verif.Props.HandshakeMem
/-
C98, C99: transport contexts in memory.
-/
namespace Wickr
open Asrt Spec

variable {E : Engine}

/-! ### Histories -/

/-- A context is made for an identity, and for a remote identity or none, and then there is any history of calls to start it, to send and
receive, to answer the question about the peer, to copy it and go on with the copy.  Whatever the allocator does, whatever is received and
whatever the application does inside its callbacks: there is no undefined behaviour, NULL is dereferenced only after an allocation has
failed, the buffers of the application are as they were, and the history is safe: nothing is received from and nothing but the first packet
is sent to a peer nobody vouches for (`SafeTransport`).  Nothing is left behind unless an allocation failed or one of the calls leaves
something behind although there is memory (`LeaksIn`). -/
theorem C98_history (hE : E.Fits) (hk : E.Hkdf64) (hl : ∀ b k h, E.hmac b k .sha512 = some h → h.length = 64) (l : Addr) (r : Ptr) (self : Chain) (remote : Option Chain)
    (evo : UInt32) (cs : List TCall) (ops : List TOp) (hR : ∀ R, remote = some R → ChainHonest E R) (ho : ∀ o ∈ ops, TOpOk o) (hord : TOrderly false ops) :
    Transforms (fun h => CallsIn h cs ops) (isChain l self ∗ optRep isChain r remote)
      (fun x oom (z : Option (Addr × TCtx × List (List TEv))) => match z with
        | none => x = (none, []) ∧ (oom = true ∨ tCreate self remote evo = none)
        | some (a, w, log) => x.1 = some a ∧ ∃ c0, tCreate self remote evo = some c0 ∧ SafeTransport E c0 remote oom ops log w ∧ SoleRefs w)
      (fun x oom z => match z with
        | none => isChain l self ∗ optRep isChain r remote
        | some (a, w, log) => isTCtx a w ∗ isTLog x.2 log ∗ junk (oom = true ∨ ∃ c0, tCreate self remote evo = some c0 ∧ LeaksIn E c0 ops))
      (tHistory E (some l) r evo cs) :=
  Transforms.of fun h hcs => tHistory_spec hE hk hl h l r self remote evo cs ops hR hcs ho hord

theorem isTEvents_seen : ∀ {ss : List TSeen} {es : List TEv} {h : Heap}, isTEvents ss es h →
    (TSeen.state .active ∈ ss → TEv.state .active ∈ es) ∧ ∀ b, TSeen.rx b ∈ ss → ∃ d, TEv.rx d ∈ es := by
  intro ss
  induction ss with
  | nil => intro es h _; exact ⟨(fun h => nomatch h), (fun _ h => nomatch h)⟩
  | cons s ss ih =>
    intro es h hh
    cases es with
    | nil => exact False.elim hh.1
    | cons e es =>
      obtain ⟨h1, h2, -, -, g1, g2⟩ := hh
      obtain ⟨i1, i2⟩ := ih g2
      constructor
      · intro hb
        rcases List.mem_cons.1 hb with rfl | hb
        · cases e with
          | state s =>
            have : TStatus.active = s := g1.1
            subst this
            simp
          | _ => exact False.elim g1.1
        · exact List.mem_cons_of_mem _ (i1 hb)
      · intro b hb
        rcases List.mem_cons.1 hb with rfl | hb
        · cases e with
          | rx d => exact ⟨d, by simp⟩
          | _ => exact False.elim g1.1
        · obtain ⟨d, hd⟩ := i2 b hb
          exact ⟨d, List.mem_cons_of_mem _ hd⟩

theorem isTLog_seen : ∀ {ss : List (List TSeen)} {es : List (List TEv)} {j : Nat} {x : List TSeen} {h : Heap}, isTLog ss es h → ss[j]? = some x →
    ∃ e, es[j]? = some e ∧ (TSeen.state .active ∈ x → TEv.state .active ∈ e) ∧ ∀ b, TSeen.rx b ∈ x → ∃ d, TEv.rx d ∈ e := by
  intro ss
  induction ss with
  | nil => intro es j x h _ hj; cases hj
  | cons s ss ih =>
    intro es j x h hh hj
    cases es with
    | nil => exact False.elim hh.1
    | cons e es =>
      obtain ⟨h1, h2, -, -, g1, g2⟩ := hh
      cases j with
      | zero =>
        simp at hj
        subst hj
        exact ⟨e, by simp, isTEvents_seen g1⟩
      | succ j =>
        simp at hj
        simpa using ih g2 hj

/-- What the application sees of call `j`: that the context is active, or data from the peer. -/
def Spec.Spoken (log : List (List TSeen)) (j : Nat) : Prop := ∃ x, log[j]? = some x ∧ (TSeen.state .active ∈ x ∨ ∃ b, TSeen.rx b ∈ x)

theorem spoken_vouched (hE : E.Fits) (hk : E.Hkdf64) (hl : ∀ b k h, E.hmac b k .sha512 = some h → h.length = 64) (l : Addr) (r : Ptr) (self : Chain) (remote : Option Chain)
    (evo : UInt32) (cs : List TCall) (ops : List TOp) (hR : ∀ R, remote = some R → ChainHonest E R) (ho : ∀ o ∈ ops, TOpOk o) (hord : TOrderly false ops) (A : Alloc) (s : St)
    (h : Heap) (hs0 : s.oom = false) (hcs : CallsIn h cs ops) (hs : ((isChain l self ∗ optRep isChain r remote) ∗ keep h) s.heap) (p : Ptr) (log : List (List TSeen)) (s' : St)
    (hrun : tHistory E (some l) r evo cs A s = .ret (p, log) s') (j : Nat) (hj : Spoken log j) :
    ∃ lg, TVouched E remote s'.oom (ops.take (j + 1)) lg := by
  obtain ⟨x, hj, hx⟩ := hj
  have := C98_history hE hk hl l r self remote evo cs ops hR ho hord A s h hs0 hcs hs
  rw [hrun] at this
  obtain ⟨z, h1, h2⟩ := this
  cases z with
  | none =>
    cases h1.1
    cases hj
  | some z =>
    obtain ⟨a, w, lg⟩ := z
    obtain ⟨hp, c0, -, hsafe, -⟩ := h1
    obtain ⟨m1, m2, -, -, g1, -⟩ := h2
    obtain ⟨n1, n2, -, -, -, g2⟩ := g1
    obtain ⟨k1, k2, -, -, g3, -⟩ := g2
    obtain ⟨e, e1, e2, e3⟩ := isTLog_seen g3 hj
    rcases hx with hx | ⟨b, hx⟩
    · exact ⟨_, hsafe.active j e e1 (e2 hx)⟩
    · obtain ⟨d, hd⟩ := e3 b hx
      exact ⟨_, hsafe.rx j e d e1 hd⟩

/-- A context made with a remote identity becomes active, and hands out data, only after it has received a packet that the node of this
identity signed, and whose node its root signed, as long as no allocation fails. -/
theorem C98_pinned (hE : E.Fits) (hk : E.Hkdf64) (hl : ∀ b k h, E.hmac b k .sha512 = some h → h.length = 64) (l r : Addr) (self R : Chain)
    (evo : UInt32) (cs : List TCall) (ops : List TOp) (hR : ChainHonest E R) (ho : ∀ o ∈ ops, TOpOk o) (hord : TOrderly false ops) (A : Alloc) (s : St)
    (h : Heap) (hs0 : s.oom = false) (hcs : CallsIn h cs ops) (hs : ((isChain l self ∗ isChain r R) ∗ keep h) s.heap) (p : Ptr) (log : List (List TSeen)) (s' : St)
    (hrun : tHistory E (some l) (some r) evo cs A s = .ret (p, log) s') (hmem : s'.oom = false) (j : Nat) (hj : Spoken log j) :
    ∃ i d e q, i ≤ j ∧ ops[i]? = some (TOp.recv (some d) e) ∧ pktFromBuffer d = some q ∧ Authentic E q R := by
  obtain ⟨lg, hv⟩ := spoken_vouched hE hk hl l (some r) self (some R) evo cs ops (fun _ h => by cases h; exact hR) ho hord A s h hs0 hcs hs p log s' hrun j hj
  rcases hv with ⟨R', i, t1, d, e, q, t2, t3, t4⟩ | ⟨t1, -⟩
  · cases t1
    rw [List.getElem?_take] at t2
    split at t2
    · exact ⟨i, d, e, q, by omega, t2, t3, t4⟩
    · cases t2
  · rcases t1 with t1 | t1
    · cases t1
    · rw [hmem] at t1; cases t1

/-- A context made without a remote identity becomes active, and hands out data, only after it has received a packet that the node of some
chain signed, whose node the root of the chain signed, and the application has said yes, in the same call or later, even if allocations
fail. -/
theorem C98_accepted (hE : E.Fits) (hk : E.Hkdf64) (hl : ∀ b k h, E.hmac b k .sha512 = some h → h.length = 64) (l : Addr) (self : Chain)
    (evo : UInt32) (cs : List TCall) (ops : List TOp) (ho : ∀ o ∈ ops, TOpOk o) (hord : TOrderly false ops) (A : Alloc) (s : St)
    (h : Heap) (hs0 : s.oom = false) (hcs : CallsIn h cs ops) (hs : ((isChain l self ∗ emp) ∗ keep h) s.heap) (p : Ptr) (log : List (List TSeen)) (s' : St)
    (hrun : tHistory E (some l) none evo cs A s = .ret (p, log) s') (j : Nat) (hj : Spoken log j) :
    ∃ i d e q ch, i ≤ j ∧ ops[i]? = some (TOp.recv (some d) e) ∧ pktFromBuffer d = some q ∧ Authentic E q ch ∧
      (true ∈ e.answers ∨ ∃ k e', i < k ∧ k ≤ j ∧ ops[k]? = some (TOp.answer true e')) := by
  obtain ⟨lg, hv⟩ := spoken_vouched hE hk hl l none self none evo cs ops (fun _ h => nomatch h) ho hord A s h hs0 hcs hs p log s' hrun j hj
  rcases hv with ⟨R', i, t1, -⟩ | ⟨-, i, ⟨ch, ⟨d, e, q, t2, t3, t4⟩, -⟩, hy⟩
  · cases t1
  · rw [List.getElem?_take] at t2
    split at t2
    · refine ⟨i, d, e, q, ch, by omega, t2, t3, t4, ?_⟩
      rcases hy with ⟨b, e', y1, y2⟩ | ⟨k, e', y1, y2⟩
      · rw [List.getElem?_take, if_pos ‹_›, t2] at y1
        have y3 := Option.some.inj y1
        injection y3 with _ y4
        exact Or.inl (y4 ▸ y2)
      · rw [List.getElem?_take] at y2
        split at y2
        · exact Or.inr ⟨k, e', y1, by omega, y2⟩
        · cases y2
    · cases t2

/-! ### Calls -/

/-- `wickr_transport_ctx_process_tx_buffer` sends what the value model sends or reports an error; if it sends something it is that, even if
an allocation failed (`TSendOutcome`).  Nothing is left behind. -/
theorem C99_send (hE : E.Fits) (hl : ∀ b k h, E.hmac b k .sha512 = some h → h.length = 64) (a : Addr) (c : TCtx) (p : Ptr) (b : Option Bytes)
    (ht : c.status = .active → c.tx.isSome = true) :
    Transforms (fun h => HasOpt isBuf h p b) (isTCtx a c) (fun _ oom (z : TCtx × List TEv) => TSendOutcome E c b oom z.1 z.2)
      (fun ss _ z => isTOut a ss z) (hTSend E (some a) p) := by
  refine Transforms.of (c := laxest) fun h hb => Triple.conseq (hTSend_spec hE hl false h a p c b ht hb) (fun x hx => by rw [Asrt.star_comm] at hx; exact hx) ?_
  rintro ss f' y - ⟨z, hy⟩
  obtain ⟨h1, hy⟩ := Asrt.pure_star.1 hy
  rw [Asrt.star_comm] at hy
  exact Asrt.star_mono_r (fun u hu => ⟨z, Asrt.pure_star.2 ⟨h1, hu⟩⟩) hy

/-- `wickr_transport_ctx_create`: the context takes over its identities, or, without memory or with too many packets per evolution, they
stay with the caller. -/
theorem C99_create (l : Addr) (r : Ptr) (self : Chain) (remote : Option Chain) (evo : UInt32) :
    Transforms (fun _ => True) (isChain l self ∗ optRep isChain r remote)
      (fun q oom (z : Option TCtx) => (q = none → z = none ∧ (oom = true ∨ ppeMax < evo)) ∧ ∀ b, q = some b →
        z = some ⟨none, none, self, remote, .fresh, if evo = 0 then ppeDefault else evo, none, .noError⟩)
      (fun q _ z => match q with | none => isChain l self ∗ optRep isChain r remote | some _ => optRep isTCtx q z) (hTCreate (some l) r evo) := by
  refine Transforms.of0 (Triple.conseq (hTCreate_spec laxest false l r self remote evo) (fun _ h => h) fun q f _ y hy => ?_)
  cases q with
  | none =>
    obtain ⟨h1, hy⟩ := Asrt.pure_star.1 hy
    refine ⟨none, Asrt.pure_star.2 ⟨⟨fun _ => ⟨rfl, h1.imp_right fun h => ?_⟩, fun b hb => nomatch hb⟩, hy⟩⟩
    unfold tCreate at h
    split at h
    · rename_i hc
      exact hc.2
    · cases h
  | some b =>
    obtain ⟨w, hy⟩ := hy
    obtain ⟨h1, hy⟩ := Asrt.pure_star.1 hy
    refine ⟨some w, Asrt.pure_star.2 ⟨⟨(fun h => nomatch h), fun b _ => ?_⟩, hy⟩⟩
    unfold tCreate at h1
    split at h1
    · cases h1
    · exact h1.symm

/-- `wickr_transport_ctx_copy`: a copy has the streams and the status of the original, and its identities but for their signatures if
allocations fail; it has neither handshake nor error (`TCtxLoss`).  Without a remote identity there is no copy.  Nothing is left behind,
even if allocations fail. -/
theorem C99_copy (a : Addr) (v : TCtx) :
    Transforms (fun h => Has isTCtx h a v) emp
      (fun q oom (z : Option TCtx) => (q = none → oom = true ∨ tCopy v = none) ∧ ∀ w, z = some w → TCtxLoss v w ∧ (oom = false → tCopy v = some w))
      (fun q _ z => optRep isTCtx q z) (hTCopy (some a)) := by
  refine Transforms.of (c := laxest) fun h ha => Triple.conseq (hTCopy_view laxest false trivial h a v (fun _ _ => trivial) ha)
    (fun x hx => by rw [Asrt.star_emp] at hx; exact hx) fun q f _ x hx => Asrt.star_mono_r (fun y hy => ?_) hx
  cases q with
  | none =>
    exact ⟨none, Asrt.pure_star.2 ⟨⟨fun _ => hy.1, fun w hw => nomatch hw⟩, by rw [optRep_null]; exact hy.2⟩⟩
  | some b =>
    obtain ⟨w, hy⟩ := hy
    obtain ⟨hw, hy⟩ := Asrt.pure_star.1 hy
    exact ⟨some w, Asrt.pure_star.2 ⟨⟨(fun h => nomatch h), fun w' h => by cases h; exact ⟨hw.2, hw.1⟩⟩, hy⟩⟩

/-- `wickr_transport_ctx_destroy` releases every block of a context once, and nothing else: the streams, the identities and a handshake
that is under way. -/
theorem C99_destroy : DestroySafe isTCtx SoleRefs hTDestroy :=
  DestroySafe.of (pubs := TCtx.publics) fun _ _ hr => hTDestroy_spec hr fun _ h => h

/-- It wipes the keys of the streams, and what a handshake has of keys. -/
theorem C99_destroy_wipes : Wipes isTCtx SoleRefs TCtx.publics hTDestroy :=
  Wipes.ofDestroy fun _ _ hr => hTDestroy_spec hr fun _ h => h

end Wickr
