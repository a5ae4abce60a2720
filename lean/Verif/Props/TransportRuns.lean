import Verif.Props.TransportMem
/-
Runs of transport contexts in memory, beside C98 and C99.
-/
namespace Wickr
open Asrt Spec

def txSeen : List TSeen → Ptr
  | [] => none
  | .tx a :: _ => some a
  | _ :: ss => txSeen ss

def rxSeen : List TSeen → Ptr
  | [] => none
  | .rx a :: _ => some a
  | _ :: ss => rxSeen ss

def wasAsked (ss : List TSeen) : Bool := ss.any fun | .ask _ => true | _ => false

def isActive (ss : List TSeen) : Bool := ss.any fun | .state .active => true | _ => false

/-- The application releases what it was given. -/
def dropSeen : List TSeen → H Unit
  | [] => pure ()
  | .state _ :: ss => dropSeen ss
  | .tx a :: ss => do
    let _ ← hBufDestroy (some a)
    dropSeen ss
  | .rx a :: ss => do
    let _ ← hBufDestroy (some a)
    dropSeen ss
  | .ask a :: ss => do
    let _ ← hChainDestroy (some a)
    dropSeen ss

def hEnv (r : HsRand) (answers : List Bool) : HTEnv := ⟨r, List.replicate 64 9, 0, answers, []⟩

/-- From empty memory: two contexts are made, with the identity of the other or without it, they exchange their packets, the applications
accept what they are asked about, the first sends data, and all is released.  The answer: whether each was asked, and whether the data
arrived. -/
def parley (pin : Bool) : H (Bool × Bool × Bool) := do
  let ca ← litChain toyChain
  let cb ← litChain toyPeer
  let ra ← if pin then litChain toyPeer else pure none
  let rb ← if pin then litChain toyChain else pure none
  let a ← hTCreate ca ra 0
  let b ← hTCreate cb rb 0
  let x ← hTStart toyEngine a toyRand
  let y ← hTRecv toyEngine b (txSeen x) (hEnv toyRand2 [true])
  let z ← hTRecv toyEngine a (txSeen y) (hEnv toyRand [true])
  let d ← litBuf [1, 2, 3]
  let u ← hTSend toyEngine a d
  let v ← hTRecv toyEngine b (txSeen u) (hEnv toyRand2 [])
  let ok ← sameBuf d (rxSeen v)
  dropSeen x
  dropSeen y
  dropSeen z
  dropSeen u
  dropSeen v
  let _ ← hBufDestroy d
  let _ ← hTDestroy a
  let _ ← hTDestroy b
  pure (wasAsked y, wasAsked z, ok)

def parleyEnd (pin : Bool) : Option ((Bool × Bool × Bool) × Bool × List Addr) :=
  (parley pin (bump []) St.init).state?.map fun x => (x.1, x.2.oom, x.2.used x.2.count)

/-- A context is given these bytes while these allocations fail, and the application says yes to everything.  The answer: whether it was
asked, whether the context is active, whether an allocation failed, and how many blocks were used before. -/
def given (self : Chain) (pin : Chain) (w : Bytes) (fail : List Nat) : Option (Bool × Bool × Bool × Nat) :=
  match (do
    let ca ← litChain self
    let ra ← litChain pin
    let a ← hTCreate ca ra 0
    let b ← litBuf w
    pure (a, b) : H (Ptr × Ptr)) (bump []) St.init with
  | .ret (a, b) s => match hTRecv toyEngine a b (hEnv toyRand2 [true]) (bump fail) s with
    | .ret x s' => some (wasAsked x, isActive x, s'.oom, s.count)
    | _ => none
  | _ => none

/-- From empty memory: a context gets the first packet of a peer, the application is asked and does not answer, and then the context is
started.  All is released.  The answer: whether an allocation failed, and the number of blocks that are left. -/
def leftRestarted (restart : Bool) : Option (Bool × Nat) :=
  ((do
    let cb ← litChain toyPeer
    let b ← hTCreate cb none 0
    let w ← litBuf toySeedWire
    let x ← hTRecv toyEngine b w (hEnv toyRand2 [])
    let y ← if restart then hTStart toyEngine b toyRand2 else pure []
    let _ ← hBufDestroy w
    dropSeen x
    dropSeen y
    let _ ← hTDestroy b
    pure () : H Unit) (bump []) St.init).state?.map fun x => (x.2.oom, (x.2.used x.2.count).length)

/-- From empty memory: a context is started, and gets these bytes as response; the application says yes; all is released.  The answer:
whether it is active, whether an allocation failed, and the blocks that are left. -/
def leftAnswered (w : Bytes) : Option (Bool × Bool × Nat) :=
  ((do
    let ca ← litChain toyChain
    let a ← hTCreate ca none 0
    let x ← hTStart toyEngine a toyRand
    let b ← litBuf w
    let y ← hTRecv toyEngine a b (hEnv toyRand [true])
    let _ ← hBufDestroy b
    dropSeen x
    dropSeen y
    let _ ← hTDestroy a
    pure (isActive y) : H Bool) (bump []) St.init).state?.map fun x => (x.1, x.2.oom, (x.2.used x.2.count).length)

set_option maxRecDepth 20000 in
/-- With memory the two sides talk to each other, and nothing is left behind. -/
theorem C99_completes : parleyEnd false = some ((true, true, true), false, []) ∧ parleyEnd true = some ((false, false, true), false, []) := by
  decide +kernel

set_option maxRecDepth 20000 in
/-- C98_pinned needs memory: a context that is held to its own identity refuses the first packet of another, and asks nobody.  If a single
allocation fails, at which it copies the identity its peer is held to, it asks the application, and a yes makes it active. -/
theorem C98_pin_lost : given toyPeer toyPeer toySeedWire [] = some (false, false, false, 43) ∧
    given toyPeer toyPeer toySeedWire [70] = some (true, true, true, 43) := by
  decide +kernel

set_option maxRecDepth 20000 in
/-- Starting a context that is asked about a peer loses the handshake that is under way, although no allocation fails. -/
theorem C99_restart_leaks : leftRestarted false = some (false, 0) ∧ leftRestarted true = some (false, 56) := by
  decide +kernel

set_option maxRecDepth 20000 in
/-- A peer whose root key names the CTR cipher makes the other side lose the keys of the streams, although no allocation fails. -/
theorem C99_peer_leaks : leftAnswered toyRespWire = some (true, false, 0) ∧ toyCtrResponse.map leftAnswered = some (some (false, false, 13)) := by
  decide +kernel

/-! ### The hypotheses are met -/

local macro "dead!" : term => `((do store none (Cell.raw 0); Pure.pure none : H Ptr))

def isScene (a : Addr) (w : Bytes) : Asrt := Asrt.ex fun (l : Addr) => Asrt.ex fun (r : Addr) => Asrt.ex fun (q : Addr) =>
  (a ↦ .obj .plain [some l, some r, some q]) ∗ isChain l toyPeer ∗ isChain r toyChain ∗ isBuf q w

def mkScene (w : Bytes) : H Ptr := do
  let l ← litPeer
  let r ← litSelf
  let q ← litBuf w
  onNull (alloc (.obj .plain [l, r, q])) dead! fun p => pure p

theorem mkScene_spec (c : Rules) (f : Bool) (hc : c.crash) (w : Bytes) (hw : 0 < w.length ∧ w.length ≤ 1000) :
    Triple c f emp (mkScene w) (fun r _ => made isScene w r) := by
  unfold mkScene
  sgo

def sceneEnv : TEnv := ⟨toyRand2, List.replicate 64 9, 0, [], []⟩

/-- The run with these bytes: whether the context becomes active. -/
def sceneRun (w : Bytes) : Bool :=
  decide (0 < w.length ∧ w.length ≤ 1000) &&
  (match (pktFromBuffer w).bind handshakeFromPacket with | some (.response _) => false | _ => true) &&
  match built (mkScene w) with
  | some (a, s) =>
    match s.heap a with
    | some (.obj .plain [some l, some r, some q]) =>
      match tHistory toyEngine (some l) (some r) 0 [.recv (some q) (hEnv toyRand2 [])] (bump []) s with
      | .ret (_, [x]) s' => isActive x && !s'.oom
      | _ => false
    | _ => false
  | none => false

set_option maxRecDepth 20000 in
theorem sceneRun_active : sceneRun toySeedWire = true := by decide +kernel

theorem scene_in {w : Bytes} {a : Addr} {m : Heap} (hh : Has isScene m a w) : ∃ (l r q : Addr) (h : Heap), m a = some (.obj .plain [some l, some r, some q]) ∧
    Has isBuf h q w ∧ ((isChain l toyPeer ∗ isChain r toyChain) ∗ keep h) m := by
  unfold Has isScene at hh
  simp only [Asrt.ex_star] at hh
  obtain ⟨l, r, q, hh⟩ := hh
  have e : m a = some (.obj .plain [some l, some r, some q]) := by
    rw [Asrt.star_assoc] at hh
    obtain ⟨m1, m2, hd, e1, g1, g2⟩ := hh
    rw [e1]
    cases g1
    simp
  have hsh : ((isChain l toyPeer ∗ isChain r toyChain) ∗ (isBuf q w ∗ ((a ↦ .obj .plain [some l, some r, some q]) ∗ Asrt.any))) m := by
    have : ((a ↦ .obj .plain [some l, some r, some q]) ∗ isChain l toyPeer ∗ isChain r toyChain ∗ isBuf q w) ∗ Asrt.any =
      (isChain l toyPeer ∗ isChain r toyChain) ∗ (isBuf q w ∗ ((a ↦ .obj .plain [some l, some r, some q]) ∗ Asrt.any)) := by ac_rfl
    exact this ▸ hh
  obtain ⟨m1, m2, hd, e1, g1, g2⟩ := hsh
  refine ⟨l, r, q, m2, e, Asrt.star_mono_r (fun _ _ => trivial) g2, m1, m2, hd, e1, g1, rfl⟩

/-- There is a memory with two identities and the first packet of the second, in which a context of the first for the second receives the
packet and becomes active: the hypotheses of C98 are met. -/
example : ∃ (l r q : Addr) (A : Alloc) (s s' : St) (h : Heap) (p : Ptr) (x : List TSeen) (w : Bytes), s.oom = false ∧ ChainHonest toyEngine toyChain ∧
    (∀ o ∈ [TOp.recv (some w) sceneEnv], TOpOk o) ∧ TOrderly false [TOp.recv (some w) sceneEnv] ∧
    CallsIn h [.recv (some q) (hEnv toyRand2 [])] [TOp.recv (some w) sceneEnv] ∧ ((isChain l toyPeer ∗ isChain r toyChain) ∗ keep h) s.heap ∧
    tHistory toyEngine (some l) (some r) 0 [.recv (some q) (hEnv toyRand2 [])] A s = .ret (p, [x]) s' ∧ s'.oom = false ∧ TSeen.state .active ∈ x := by
  have hk := sceneRun_active
  generalize toySeedWire = w at hk
  unfold sceneRun at hk
  simp only [Bool.and_eq_true, decide_eq_true_eq] at hk
  obtain ⟨⟨h2, hq⟩, hk⟩ := hk
  cases hb : built (mkScene w) with
  | none => rw [hb] at hk; cases hk
  | some z =>
    obtain ⟨a, s⟩ := z
    rw [hb] at hk
    dsimp only at hk
    obtain ⟨ho, hh⟩ := built_has (mkScene_spec _ _ trivial _ h2) hb
    obtain ⟨l, r, q, h, e, hw, hs⟩ := scene_in hh
    rw [e] at hk
    dsimp only at hk
    split at hk
    · rename_i p x s' hrun
      rw [Bool.and_eq_true] at hk
      refine ⟨l, r, q, bump [], s, s', h, p, x, w, ho, ?_, ?_, ?_, ⟨⟨hw, rfl, rfl, rfl, rfl, trivial⟩, trivial⟩, hs, hrun, by simpa using hk.2, ?_⟩
      · intro d s hd
        cases hd
      · intro o ho
        rcases List.mem_cons.1 ho with rfl | ho
        · exact ⟨⟨⟨_, rfl, by decide, by decide⟩, ⟨by decide, by decide⟩, by decide⟩, by decide⟩
        · cases ho
      · refine ⟨fun p hp => ⟨fun _ m hm => ?_, (fun h => nomatch h)⟩, trivial⟩
        rw [hp] at hq
        simp only [Option.bind_some, hm] at hq
        cases hq
      · have := hk.1
        unfold isActive at this
        rw [List.any_eq_true] at this
        obtain ⟨y, hy, hy'⟩ := this
        split at hy'
        · exact hy
        · cases hy'
    · cases hk

end Wickr
