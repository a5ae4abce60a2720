import Verif.Props.TransportE2E
import Verif.Props.Transcript
/-
C34: the first packet of a context, recorded and replayed to other contexts.
-/
namespace Wickr
open Spec

/-- Nor does the state of the handshake after its first packet. -/
theorem hsStart_status (E : Engine) (c : Chain) (r r' : Option Chain) (e e' : UInt32) (ra : HsRand) (h : r.isNone = r'.isNone) :
    (hsStart E ⟨c, r, none, none, .unknown, none, none, none, false, e⟩ ra).1.status =
      (hsStart E ⟨c, r', none, none, .unknown, none, none, none, false, e'⟩ ra).1.status := by
  simp only [hsStart, h]
  cases seedCreate c ra.eph.pub r'.isNone with
  | none => rfl
  | some seed =>
    simp only [hsBuildSigned]
    cases handshakeToPacket (.seed seed) with
    | none => rfl
    | some p =>
      dsimp only
      generalize hz : pktSign E p c ra.nonce = z
      obtain ⟨z1, z2⟩ := z
      cases z2 <;> simp [hsFail, hsSetSlot]

/-- What a context sends first says nothing about the peer it expects, except whether it expects one. -/
theorem tStart_packet (E : Engine) (c : Chain) (r r' : Option Chain) (v v' : UInt32) (hv : v ≠ 0) (hv' : v' ≠ 0) (ra : HsRand)
    (h : (r.bind chainCopy).isNone = (r'.bind chainCopy).isNone) :
    (tStart E ⟨none, none, c, r, .fresh, v, none, .noError⟩ ra).2 = (tStart E ⟨none, none, c, r', .fresh, v', none, .noError⟩ ra).2 := by
  simp only [tStart, tCreateHandshake, ne_eq, not_true_eq_false, if_false]
  cases hc : chainCopy c with
  | none => rfl
  | some l =>
    simp only [Option.bind_some, hsCreate, hv, hv', if_false]
    have h1 := hsStart_packet E l _ _ v v' ra h
    have h2 := hsStart_status E l _ _ v v' ra h
    revert h1 h2
    generalize hsStart E ⟨l, r.bind chainCopy, none, none, .unknown, none, none, none, false, v⟩ ra = x
    generalize hsStart E ⟨l, r'.bind chainCopy, none, none, .unknown, none, none, none, false, v'⟩ ra = y
    obtain ⟨x1, x2⟩ := x
    obtain ⟨y1, y2⟩ := y
    rintro rfl h2
    cases x2 with
    | none => simp [tError, tUpdate]
    | some q =>
      dsimp only at h2 ⊢
      rw [h2]
      split
      · simp [tError, tUpdate]
      · cases pktSerialize q <;> simp [tError, tUpdate]

/-- C34, what a responder that is ACTIVE does not know.  Let a context of `cA` have been started, to connect to anybody.  Whoever has seen its first
packet can hand it to any context, as often as there are contexts, that expects `cA` or whose application accepts `cA`: each becomes ACTIVE
and answers, although `cA` may have gone away long ago.  So ACTIVE does not mean, on that side, that the peer is there. -/
theorem C34_first_packet_replayed (E : Engine) (hE : E.Lawful) (cA cC : Chain) (hA : Party E cA) (hC : Party E cC)
    (remA remC : Option Chain) (hrC : Expects E remC cA) (kA : chainCopy cA = some cA) (kC : chainCopy cC = some cC) (kRC : Copyable remC)
    (evoA evoC : UInt32) (a c : TCtx) (ha : tCreate cA remA evoA = some a) (hc : tCreate cC remC evoC = some c)
    (ra : HsRand) (ec : TEnv) (hea : E.KeyPair ra.eph) (hec : E.KeyPair ec.hs.eph) (hsec : ec.hs.secret.length = 32) (hiv : ec.hs.iv.length = 12)
    (ans : ec.answers = [true]) (act : ec.onActive = []) :
    ∃ w0 w1 a0 c1 ask, tRun E a [.start ra] = .ok (a0, [.state .initialHandshake, .tx w0]) ∧
      tRun E c [.recv (some w0) ec] = .ok (c1, ask ++ [.state .active, .tx w1]) ∧ c1.status = .active := by
  have hval : (chainValidate E (chainCreate cC.root cC.node)).2 = true := by
    obtain ⟨s, h1, h2⟩ := hC.genuine
    rw [chainValidate_fresh rfl]
    exact ⟨s, h1, h2⟩
  have kC' : chainCopy (chainCreate cC.root cC.node) = some (chainCreate cC.root cC.node) := by
    simp only [chainCopy, Option.bind_eq_some_iff, Option.map_eq_some_iff] at kC
    obtain ⟨r, h1, n, h2, m, -, h⟩ := kC
    have hr : r = cC.root := by rw [← h]
    have hn : n = cC.node := by rw [← h]
    simp [chainCopy, chainCreate, h1, h2, hr, hn, dupOpt]
  let remA' : Option Chain := (remA.bind chainCopy).map fun _ => chainCreate cC.root cC.node
  have hcopy : Copyable remA' := by
    intro d hd
    obtain ⟨_, _, rfl⟩ := Option.map_eq_some_iff.1 hd
    exact kC'
  have hx : Expects E remA' cC := by
    intro d hd
    obtain ⟨_, _, rfl⟩ := Option.map_eq_some_iff.1 hd
    exact ⟨rfl, rfl, hval⟩
  obtain ⟨a', ha'⟩ : ∃ a', tCreate cA remA' evoA = some a' := by
    unfold tCreate at ha ⊢
    split at ha
    · cases ha
    · next h => rw [if_neg h]; exact ⟨_, rfl⟩
  have evo : ∀ {c : Chain} {r : Option Chain} {v : UInt32} {t : TCtx}, tCreate c r v = some t → t.evo ≠ 0 := by
    intro c r v t h
    unfold tCreate at h
    split at h
    · cases h
    cases h
    simp only
    split
    · decide
    · assumption
  obtain ⟨w0, w1, a0, a1, c1, ka, kb, ask, ask', h1, h2, -, -, -, -, -, -, -, h3, -⟩ :=
    C34_contexts_connect E hE cA cC hA hC remA' remC hx hrC kA kC hcopy kRC evoA evoC a' c ha' hc ra ⟨ra, [], 0, [true], []⟩ ec hea hec hsec hiv
      ⟨rfl, ans⟩ ⟨rfl, act⟩
  have e1 := evo ha
  have e2 := evo ha'
  have eqA : a = ⟨none, none, cA, remA, .fresh, a.evo, none, .noError⟩ := by rw [tCreate_eq ha]
  have eqA' : a' = ⟨none, none, cA, remA', .fresh, a'.evo, none, .noError⟩ := by rw [tCreate_eq ha']
  have hp := tStart_packet E cA remA remA' a.evo a'.evo e1 e2 ra (by
    show (remA.bind chainCopy).isNone = (((remA.bind chainCopy).map fun _ => chainCreate cC.root cC.node).bind chainCopy).isNone
    cases remA.bind chainCopy <;> simp [kC'])
  rw [← eqA, ← eqA'] at hp
  refine ⟨w0, w1, (tStart E a ra).1, c1, ask, ?_, h2, h3⟩
  simp only [tRun, TOp.step, Res.bind, Res.ok.injEq, Prod.mk.injEq, List.append_nil] at h1 ⊢
  exact ⟨trivial, by rw [hp]; exact h1.2⟩

/-- The hypotheses are met: an initiator that expects some third party, and a responder to whom its packet is replayed. -/
example : ∃ w0 w1 a0 c1 ask, tRun toyEngine { toyInit with remote := some (chainCreate toyPeer.node toyChain.node) } [.start toyRand] =
      .ok (a0, [.state .initialHandshake, .tx w0]) ∧
    tRun toyEngine toyResp [.recv (some w0) (toyEnv [true])] = .ok (c1, ask ++ [.state .active, .tx w1]) ∧ c1.status = .active :=
  C34_first_packet_replayed toyEngine toyEngine_lawful toyChain toyPeer toyChain_party toyPeer_party
    (some (chainCreate toyPeer.node toyChain.node)) none (by intro _ h; cases h) (by decide +kernel) (by decide +kernel) (by simp [Copyable])
    0 0 _ _ (by decide) (by decide) toyRand (toyEnv [true]) (toyKey_pair 11 (by decide)) (toyKey_pair 13 (by decide)) (by decide) (by decide) rfl rfl

end Wickr
