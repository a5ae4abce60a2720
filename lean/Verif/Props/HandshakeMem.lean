import Verif.Lemmas.HsSession
import Verif.Lemmas.Owned
import Verif.Lemmas.SceneProto
import Verif.Props.HonestHandshake
/-
C96, C97: handshakes in memory.
-/
namespace Wickr
open Asrt Spec

variable {E : Engine}

/-! ### Histories -/

theorem hsHistory_spec (hE : E.Fits) (hl : E.Hkdf64) (l : Addr) (r : Ptr) (self : Chain) (remote : Option Chain) (evo : UInt32) (cs : List HsCall) (ops : List HsOp)
    (hR : ∀ R, remote = some R → ChainHonest E R) (ho : ∀ o ∈ ops, HsOpOk o) (hord : Orderly false ops) :
    Triple laxest false (isChain l self ∗ optRep isChain r remote ∗ isCalls cs ops) (hsHistory E (some l) r evo cs)
      (fun x oom => Asrt.ex fun (z : Option (Addr × Handshake × List (List HsEv))) => ⌜match z with
        | none => x = (none, []) ∧ (oom = true ∨ evo = 0)
        | some (a, w, log) => x.1 = some a ∧ ∃ v0, hsCreate self remote evo = some v0 ∧ SafeHistory E v0 remote oom ops log w⌝ ∗ match z with
        | none => isChain l self ∗ optRep isChain r remote ∗ isCalls cs ops
        | some (a, w, log) => isHs a w ∗ isLog x.2 log ∗ Asrt.any) := by
  unfold hsHistory
  sstep hHsCreate_spec laxest false l r self remote evo
  intro p f1 hf1
  cases p with
  | none =>
    dsimp only [orGives]
    sintro
    rename_i h1
    refine Triple.ret fun y hy => ⟨none, Asrt.pure_star.2 ⟨⟨rfl, h1.imp_right fun h => ?_⟩, ?_⟩⟩
    · unfold hsCreate at h
      split at h
      · assumption
      · cases h
    · dsimp only
      revert hy; revert y; sentail
  | some a =>
    dsimp only [orGives]
    sintro
    rename_i v0 h1
    refine Triple.conseq (hsSession_spec hE hl v0 remote cs ops f1 false a v0 [] [] ho hord (HsTrack.start h1 hR f1)) (by sentail) ?_
    rintro x f' hf' y ⟨⟨a', w, log⟩, hy⟩
    obtain ⟨⟨st, hz⟩, hy⟩ := Asrt.pure_star.1 hy
    obtain ⟨hx, hy⟩ := Asrt.pure_star.1 hy
    exact ⟨some (a', w, log), Asrt.pure_star.2 ⟨⟨hx, v0, h1, hz.safe⟩, hy⟩⟩

/-- A handshake is made for an identity, and for a remote identity or none, and then there is any history of calls to start it, to process
packets, to accept or refuse the peer, to finalize it, to copy it and go on with the copy.  Whatever the allocator does, and whatever
packets come: there is no undefined behaviour, NULL is dereferenced only after an allocation has failed, and the history is safe: keys
come out at most once, and only if somebody vouches for the peer (`SafeHistory`). -/
theorem C96_history (hE : E.Fits) (hl : E.Hkdf64) (l : Addr) (r : Ptr) (self : Chain) (remote : Option Chain) (evo : UInt32) (cs : List HsCall) (ops : List HsOp)
    (hR : ∀ R, remote = some R → ChainHonest E R) (ho : ∀ o ∈ ops, HsOpOk o) (hord : Orderly false ops) :
    Transforms (fun _ => True) (isChain l self ∗ optRep isChain r remote ∗ isCalls cs ops)
      (fun x oom (z : Option (Addr × Handshake × List (List HsEv))) => match z with
        | none => x = (none, []) ∧ (oom = true ∨ evo = 0)
        | some (a, w, log) => x.1 = some a ∧ ∃ v0, hsCreate self remote evo = some v0 ∧ SafeHistory E v0 remote oom ops log w)
      (fun x _ z => match z with
        | none => isChain l self ∗ optRep isChain r remote ∗ isCalls cs ops
        | some (a, w, log) => isHs a w ∗ isLog x.2 log ∗ Asrt.any)
      (hsHistory E (some l) r evo cs) :=
  Transforms.of0 (hsHistory_spec hE hl l r self remote evo cs ops hR ho hord)

theorem isEvents_keys : ∀ {ss : List HsSeen} {es : List HsEv} {b : Addr} {h : Heap}, isEvents ss es h → HsSeen.keys b ∈ ss → ∃ ks, HsEv.keys ks ∈ es := by
  intro ss
  induction ss with
  | nil => intro es b h _ hb; cases hb
  | cons s ss ih =>
    intro es b h hh hb
    cases es with
    | nil => exact False.elim hh.1
    | cons e es =>
      obtain ⟨h1, h2, -, -, g1, g2⟩ := hh
      rcases List.mem_cons.1 hb with rfl | hb
      · cases e with
        | keys ks => exact ⟨ks, by simp⟩
        | _ => exact False.elim g1.1
      · obtain ⟨ks, hk⟩ := ih g2 hb
        exact ⟨ks, by simp [hk]⟩

theorem isLog_keys : ∀ {ss : List (List HsSeen)} {es : List (List HsEv)} {j : Nat} {x : List HsSeen} {b : Addr} {h : Heap}, isLog ss es h → ss[j]? = some x →
    HsSeen.keys b ∈ x → ∃ e ks, es[j]? = some e ∧ HsEv.keys ks ∈ e := by
  intro ss
  induction ss with
  | nil => intro es j x b h _ hj; cases hj
  | cons s ss ih =>
    intro es j x b h hh hj hb
    cases es with
    | nil => exact False.elim hh.1
    | cons e es =>
      obtain ⟨h1, h2, -, -, g1, g2⟩ := hh
      cases j with
      | zero =>
        simp at hj
        subst hj
        obtain ⟨ks, hk⟩ := isEvents_keys g1 hb
        exact ⟨e, ks, by simp, hk⟩
      | succ j =>
        simp at hj
        obtain ⟨e', ks, h1, h2⟩ := ih g2 hj hb
        exact ⟨e', ks, by simpa using h1, h2⟩

/-- What the application sees: a handshake made with a remote identity hands out keys only after it has been given a packet that the node
of this identity signed, and whose node its root signed, even if allocations fail. -/
theorem C96_pinned (hE : E.Fits) (hl : E.Hkdf64) (l r : Addr) (self R : Chain) (evo : UInt32) (cs : List HsCall) (ops : List HsOp)
    (hR : ChainHonest E R) (ho : ∀ o ∈ ops, HsOpOk o) (hord : Orderly false ops) (A : Alloc) (s : St) (h : Heap) (hs0 : s.oom = false)
    (hs : ((isChain l self ∗ isChain r R ∗ isCalls cs ops) ∗ keep h) s.heap) (p : Ptr) (log : List (List HsSeen)) (s' : St)
    (hrun : hsHistory E (some l) (some r) evo cs A s = .ret (p, log) s') (j : Nat) (x : List HsSeen) (b : Addr) (hj : log[j]? = some x)
    (hb : HsSeen.keys b ∈ x) : ∃ i q rnd, i < j ∧ ops[i]? = some (.process (some q) rnd) ∧ Authentic E q R := by
  have := C96_history hE hl l (some r) self (some R) evo cs ops (fun _ h => by cases h; exact hR) ho hord A s h hs0 trivial hs
  rw [hrun] at this
  obtain ⟨z, h1, h2⟩ := this
  cases z with
  | none =>
    cases h1.1
    cases hj
  | some z =>
    obtain ⟨a, w, lg⟩ := z
    obtain ⟨hp, v0, -, hsafe⟩ := h1
    obtain ⟨m1, m2, -, -, g1, -⟩ := h2
    obtain ⟨n1, n2, -, -, -, g2⟩ := g1
    obtain ⟨k1, k2, -, -, g3, -⟩ := g2
    obtain ⟨e, ks, e1, e2⟩ := isLog_keys g3 hj hb
    rcases hsafe.keys j e ks e1 e2 with ⟨R', i, q, rnd, t1, t2, t3⟩ | ⟨t1, -⟩
    · cases t1
      rw [List.getElem?_take] at t2
      split at t2
      · exact ⟨i, q, rnd, ‹_›, t2, t3⟩
      · cases t2
    · cases t1

/-- A handshake made without a remote identity hands out keys only after it has been given a packet that the node of some chain signed,
whose node the root of the chain signed, and the application has later said yes. -/
theorem C96_accepted (hE : E.Fits) (hl : E.Hkdf64) (l : Addr) (self : Chain) (evo : UInt32) (cs : List HsCall) (ops : List HsOp)
    (ho : ∀ o ∈ ops, HsOpOk o) (hord : Orderly false ops) (A : Alloc) (s : St) (h : Heap) (hs0 : s.oom = false)
    (hs : ((isChain l self ∗ emp ∗ isCalls cs ops) ∗ keep h) s.heap) (p : Ptr) (log : List (List HsSeen)) (s' : St)
    (hrun : hsHistory E (some l) none evo cs A s = .ret (p, log) s') (j : Nat) (x : List HsSeen) (b : Addr) (hj : log[j]? = some x)
    (hb : HsSeen.keys b ∈ x) : ∃ i k q rnd ch, i < k ∧ k < j ∧ ops[i]? = some (.process (some q) rnd) ∧ ops[k]? = some (.verify true) ∧ Authentic E q ch := by
  have := C96_history hE hl l none self none evo cs ops (fun _ h => nomatch h) ho hord A s h hs0 trivial hs
  rw [hrun] at this
  obtain ⟨z, h1, h2⟩ := this
  cases z with
  | none =>
    cases h1.1
    cases hj
  | some z =>
    obtain ⟨a, w, lg⟩ := z
    obtain ⟨hp, v0, -, hsafe⟩ := h1
    obtain ⟨m1, m2, -, -, g1, -⟩ := h2
    obtain ⟨n1, n2, -, -, -, g2⟩ := g1
    obtain ⟨k1, k2, -, -, g3, -⟩ := g2
    obtain ⟨e, ks, e1, e2⟩ := isLog_keys g3 hj hb
    rcases hsafe.keys j e ks e1 e2 with ⟨R', i, q, rnd, t1, -⟩ | ⟨-, i, k, q, rnd, ch, t1, t2, t3, t4, -⟩
    · cases t1
    · rw [List.getElem?_take] at t2 t3
      split at t2
      · split at t3
        · exact ⟨i, k, q, rnd, ch, t1, ‹_›, t2, t3, t4⟩
        · cases t3
      · cases t2

/-! ### Calls -/

/-- `wickr_transport_handshake_start`: the packet it makes is signed by the identity of the handshake and carries the new key of the
handshake (`StartOutcome`).  Nothing is left behind unless an allocation failed, the identity cannot be written or the packet cannot be
signed. -/
theorem C97_start (hE : E.Fits) (a : Addr) (v : Handshake) (r : HsRand) (hr : HsRandOk r) (hw : HsWf v) :
    Transforms (fun _ => True) (isHs a v) (fun _ oom (z : Handshake × Option Packet) => StartOutcome E v r oom z.1 z.2)
      (fun q oom z => (isHs a z.1 ∗ optRep isTPkt q z.2) ∗ junk (oom = true ∨ StartLeaks E v r)) (hHsStart E (some a) r) := by
  obtain ⟨⟨d, hd, hd'⟩, h1, -⟩ := hr
  exact Transforms.of0 (hHsStart_spec hE false a v r d hd h1 hd' hw.1)

/-- `wickr_transport_handshake_process`: the handshake fails, or it waited for the packet and the packet is authentic under the remote
identity or, if there is none, under the identity that came with it (`ProcOutcome`).  If its identity is to be verified, the application
gets a copy of it, unless an allocation failed.  Nothing is left behind unless an allocation failed, a packet cannot be signed, or the
peer sent a response without a root key. -/
theorem C97_process (hE : E.Fits) (a b : Addr) (v : Handshake) (p : Packet) (r : HsRand) (hr : HsRandOk r) (hw : HsWf v) (hp : ¬ WrongCase v p) :
    Transforms (fun _ => True) (isHs a v ∗ isTPkt b p)
      (fun _ oom (z : Handshake × Packet × Option Packet × Option Chain) => ProcOutcome E v p r oom z.1 z.2.1 z.2.2.1 z.2.2.2)
      (fun q oom z => (isHs a z.1 ∗ isTPkt b z.2.1 ∗ optRep isTPkt q.1 z.2.2.1 ∗ optRep isChain q.2 z.2.2.2) ∗ junk (oom = true ∨ ProcLeaks E v p r))
      (hHsProcess E (some a) (some b) r) :=
  Transforms.of0 (hHsProcess_spec hE false a b v p r hr hw hp)

/-- `wickr_transport_handshake_verify_identity` needs no memory. -/
theorem C97_verify (a : Addr) (v : Handshake) (valid : Bool) :
    Transforms (fun _ => True) (isHs a v) (fun _ _ (z : Handshake × Option Packet) => z = hsVerify v valid)
      (fun q _ z => isHs a z.1 ∗ optRep isTPkt q z.2) (hHsVerify (some a) valid) :=
  Transforms.of0 (Triple.conseq (hHsVerify_spec false a v valid) (fun _ h => h) fun _ _ _ _ hy => ⟨hsVerify v valid, Asrt.pure_star.2 ⟨rfl, hy⟩⟩)

/-- `wickr_transport_handshake_finalize`: keys that come out are those of the value model, even if allocations fail; without keys the
handshake has failed. -/
theorem C97_finalize (hE : E.Fits) (hl : E.Hkdf64) (a : Addr) (v : Handshake) :
    Transforms (fun _ => True) (isHs a v) (fun _ oom (z : Handshake × Option HsKeys) => FinOutcome E v oom z.1 z.2)
      (fun q oom z => (isHs a z.1 ∗ optRep isHsKeys q z.2) ∗ junk (oom = true)) (hHsFinalize E (some a)) :=
  Transforms.of0 (hHsFinalize_spec hE hl false a v)

/-- `wickr_transport_handshake_copy`: a copy has everything the original has, but for signatures of identities if allocations fail; the
remote identity is there, if the original has one.  Nothing is left behind, even if allocations fail. -/
theorem C97_copy (a : Addr) (v : Handshake) :
    Transforms (fun h => Has isHs h a v) emp
      (fun q oom (z : Option Handshake) => (q = none → oom = true ∨ v.evo = 0) ∧ ∀ w, z = some w → HsLoss v w ∧ (oom = false → hsCopy v = some w))
      (fun q _ z => optRep isHs q z) (hHsCopy (some a)) := by
  refine Transforms.of (c := laxest) fun h ha => Triple.conseq (hHsCopy_view laxest false trivial h a v (fun _ _ => trivial) (fun _ _ => trivial) ha)
    (fun x hx => by rw [Asrt.star_emp] at hx; exact hx) fun q f _ x hx => Asrt.star_mono_r (fun y hy => ?_) hx
  cases q with
  | none =>
    exact ⟨none, Asrt.pure_star.2 ⟨⟨fun _ => hy.1, fun w hw => nomatch hw⟩, by rw [optRep_null]; exact hy.2⟩⟩
  | some b =>
    obtain ⟨w, hy⟩ := hy
    obtain ⟨hw, hy⟩ := Asrt.pure_star.1 hy
    exact ⟨some w, Asrt.pure_star.2 ⟨⟨(fun h => nomatch h), fun w' h => by cases h; exact hw⟩, hy⟩⟩

/-- `wickr_transport_handshake_create_with_params`: the handshake takes over its identities, or, without memory, they stay with the caller. -/
theorem C97_create (l : Addr) (r : Ptr) (self : Chain) (remote : Option Chain) (evo : UInt32) :
    Transforms (fun _ => True) (isChain l self ∗ optRep isChain r remote)
      (fun q oom (z : Option Handshake) => (q = none → z = none ∧ (oom = true ∨ evo = 0)) ∧ ∀ b, q = some b → z = hsCreate self remote evo ∧ z ≠ none)
      (fun q _ z => match q with | none => isChain l self ∗ optRep isChain r remote | some _ => optRep isHs q z) (hHsCreate (some l) r evo) := by
  refine Transforms.of0 (Triple.conseq (hHsCreate_spec laxest false l r self remote evo) (fun _ h => h) fun q f _ y hy => ?_)
  cases q with
  | none =>
    obtain ⟨h1, hy⟩ := Asrt.pure_star.1 hy
    refine ⟨none, Asrt.pure_star.2 ⟨⟨fun _ => ⟨rfl, h1.imp_right fun h => ?_⟩, fun b hb => nomatch hb⟩, hy⟩⟩
    unfold hsCreate at h
    split at h
    · assumption
    · cases h
  | some b =>
    obtain ⟨w, hy⟩ := hy
    obtain ⟨h1, hy⟩ := Asrt.pure_star.1 hy
    exact ⟨some w, Asrt.pure_star.2 ⟨⟨(fun h => nomatch h), fun b _ => ⟨h1.symm, by simp⟩⟩, hy⟩⟩

/-- `wickr_transport_handshake_destroy` releases every block of a handshake once, and nothing else. -/
theorem C97_destroy : DestroySafe isHs (fun _ => True) hHsDestroy :=
  DestroySafe.of (pubs := Handshake.publics) fun _ _ _ => hHsDestroy_spec fun _ h => h

/-- It wipes the ephemeral key and the root key. -/
theorem C97_destroy_wipes : Wipes isHs (fun _ => True) Handshake.publics hHsDestroy :=
  Wipes.ofDestroy fun _ _ _ => hHsDestroy_spec fun _ h => h

/-- `wickr_transport_handshake_res_destroy` releases and wipes the keys. -/
theorem C97_keys_destroy : DestroySafe isHsKeys (fun _ => True) hResDestroy :=
  DestroySafe.of (pubs := fun v => v.localKey.publics ++ v.remoteKey.publics) fun _ _ _ => hResDestroy_spec fun _ h => h

theorem C97_keys_destroy_wipes : Wipes isHsKeys (fun _ => True) (fun v => v.localKey.publics ++ v.remoteKey.publics) hResDestroy :=
  Wipes.ofDestroy fun _ _ _ => hResDestroy_spec fun _ h => h

/-! ### Runs -/

def sameBuf (p q : Ptr) : H Bool := do
  let x ← readBuf p
  let y ← readBuf q
  pure (x == y)

/-- Two stream keys with the same bytes. -/
def sameStream (p q : Ptr) : H Bool := do
  let kp ← field p 0
  let kq ← field q 0
  let bp ← field kp 0
  let bq ← field kq 0
  let c ← sameBuf bp bq
  let ep ← field p 1
  let eq ← field q 1
  let d ← sameBuf ep eq
  pure (c && d)

/-- From empty memory: two handshakes are made, with the identity of the other or without it, they exchange their packets, the
applications accept what they are asked about, and all is released.  The answer: whether each was asked, and whether what one encrypts with
the other decrypts with, and the two directions differ. -/
def duel (E : Engine) (pin : Bool) : H (Bool × Bool × Bool) := do
  let ca ← litChain toyChain
  let cb ← litChain toyPeer
  let ra ← if pin then litChain toyPeer else pure none
  let rb ← if pin then litChain toyChain else pure none
  let a ← hHsCreate ca ra 512
  let b ← hHsCreate cb rb 512
  let p ← hHsStart E a toyRand
  let x ← hHsProcess E b p toyRand2
  let _ ← hTPktDestroy p
  let q ← accept pin b x.1
  let y ← hHsProcess E a q toyRand
  let _ ← hTPktDestroy q
  let _ ← accept pin a none
  let _ ← hChainDestroy x.2
  let _ ← hChainDestroy y.2
  let ka ← hHsFinalize E a
  let kb ← hHsFinalize E b
  let l ← field ka 0
  let r ← field kb 1
  let l' ← field ka 1
  let r' ← field kb 0
  let s ← sameStream l r
  let s' ← sameStream l' r'
  let d ← sameStream l l'
  let _ ← hResDestroy ka
  let _ ← hResDestroy kb
  let _ ← hHsDestroy a
  let _ ← hHsDestroy b
  pure (x.2.isSome, y.2.isSome, s && s' && !d)
where
  accept (pin : Bool) (h q : Ptr) : H Ptr := if pin then pure q else hHsVerify h true

def duelEnd (pin : Bool) : Option ((Bool × Bool × Bool) × Bool × List Addr) :=
  (duel toyEngine pin (bump []) St.init).state?.map fun x => (x.1, x.2.oom, x.2.used x.2.count)

set_option maxRecDepth 20000 in
/-- With memory the two sides agree on their keys, both ways, and nothing is left behind. -/
theorem C97_completes : duelEnd false = some ((true, true, true), false, []) ∧ duelEnd true = some ((false, false, true), false, []) := by
  decide +kernel

set_option maxRecDepth 20000 in
/-- Even with memory, a block that holds the root secret is released as it is. -/
theorem C97_root_secret_released : ((duel toyEngine true (bump []) St.init).state?.map fun x => decide (toyRand2.secret ∈ x.2.log)) = some true := by
  decide +kernel

/-- A handshake without a remote identity is given the first packet of a peer while these allocations fail; then the application says yes
and asks for the keys.  The answer: whether it was asked, and whether it got keys. -/
def unasked (E : Engine) (fail : List Nat) : H (Bool × Bool) := fun A s =>
  match (do
    let ca ← litChain toyChain
    let cb ← litChain toyPeer
    let a ← hHsCreate ca none 512
    let b ← hHsCreate cb none 512
    let p ← hHsStart E a toyRand
    pure (b, p) : H (Ptr × Ptr)) A s with
  | .ret (b, p) s => (do
      let x ← fun _ => hHsProcess E b p toyRand2 (bump fail)
      let _ ← hHsVerify b true
      let k ← hHsFinalize E b
      pure (x.2.isSome, k.isSome) : H (Bool × Bool)) A s
  | .crash s => .crash s
  | .ub => .ub

set_option maxRecDepth 20000 in
/-- Without memory for the copy of the identity nobody is asked, and the handshake waits for an answer; a yes gives it its keys. -/
theorem C96_unasked : ((unasked toyEngine [] (bump []) St.init).state?.map (·.1)) = some (true, true) ∧
    ((unasked toyEngine [212] (bump []) St.init).state?.map (·.1)) = some (false, true) := by
  decide +kernel

/-- A response of `toyPeer` to `toyChain` that has no root key in it. -/
def toyNoRoot : Option Bytes :=
  (hsKdfMeta toyEngine ⟨toyPeer, some toyChain, none, none, .unknown, none, none, none, false, 512⟩ (toyKey 13) { toyKey 11 with pri := none }).bind fun m =>
    (ecdhCipher toyEngine ⟨defaultCipher, toyKey 13⟩ [16, 1] { toyKey 11 with pri := none } m (List.replicate 12 4)).bind fun r =>
      (cipherResultSerialize r).bind fun enc =>
        (responseCreate (toyKey 13).pub enc none).bind fun x =>
          (handshakeToPacket (.response x)).bind fun p => (pktSign toyEngine p toyPeer [9]).1.network

/-- From empty memory: a handshake for `toyChain` and `toyPeer` is started, gets these bytes as response, and all is released.  The
answer: the number of blocks that are left. -/
def leftAfter (w : Option Bytes) : Option (Bool × Nat) :=
  ((do
    let ca ← litChain toyChain
    let ra ← litChain toyPeer
    let a ← hHsCreate ca ra 512
    let p ← hHsStart toyEngine a toyRand
    let _ ← hTPktDestroy p
    let b ← litBuf (w.getD [])
    let q ← hTPktFromBuffer b
    let _ ← hBufDestroy b
    let x ← hHsProcess toyEngine a q toyRand
    let _ ← hTPktDestroy q
    let _ ← hTPktDestroy x.1
    let _ ← hHsDestroy a
    pure () : H Unit) (bump []) St.init).state?.map fun x => (x.2.oom, (x.2.used x.2.count).length)

set_option maxRecDepth 20000 in
/-- A peer that answers without a root key makes the other side lose memory, although no allocation fails.  An answer that is refused
earlier does not. -/
theorem C97_peer_leaks : leftAfter toyNoRoot = some (false, 1) ∧
    leftAfter (some [0, 1, 0, 0, 0, 0, 0, 0, 0, 0, 26, 6, 18, 1, 5, 26, 1, 7]) = some (false, 0) := by
  decide +kernel

/-- From empty memory: a handshake for this chain is started, and all is released.  The answer: whether there was a packet, and the number
of blocks that are left. -/
def leftStarted (ch : Chain) : Option (Bool × Bool × Nat) :=
  ((do
    let ca ← litChain ch
    let a ← hHsCreate ca none 512
    let p ← hHsStart toyEngine a toyRand
    let _ ← hTPktDestroy p
    let _ ← hHsDestroy a
    pure p.isSome : H Bool) (bump []) St.init).state?.map fun x => (x.1, x.2.oom, (x.2.used x.2.count).length)

set_option maxRecDepth 20000 in
/-- A handshake whose identity cannot sign loses the packet it made. -/
theorem C97_start_leaks : leftStarted toyChain = some (true, false, 0) ∧
    leftStarted { toyChain with node := publicHalf toyChain.node } = some (false, false, 3) := by
  decide +kernel

/-! ### The hypotheses are met -/

local macro "dead!" : term => `((do store none (Cell.raw 0); Pure.pure none : H Ptr))

def litPkt (h : PktMeta) (b m n : Bytes) : H Ptr := do
  let x ← litBuf b
  let y ← litBuf m
  let z ← litBuf n
  onNull (alloc (.obj (.tpkt h) [x, y, z])) dead! fun p => pure p

theorem litPkt_spec (c : Rules) (f : Bool) (hc : c.crash) (h : PktMeta) (b m n : Bytes) (hb : 0 < b.length ∧ b.length ≤ 1000)
    (hm : 0 < m.length ∧ m.length ≤ 1000) (hn : 0 < n.length ∧ n.length ≤ 1000) :
    Triple c f emp (litPkt h b m n) (fun r _ => made isTPkt ⟨h, b, some m, some n⟩ r) := by
  unfold litPkt
  sgo

def isMeet (a : Addr) (p : Packet) : Asrt := Asrt.ex fun (l : Addr) => Asrt.ex fun (r : Addr) => Asrt.ex fun (q : Addr) =>
  (a ↦ .obj .plain [some l, some r, some q]) ∗ isChain l toyPeer ∗ isChain r toyChain ∗ isTPkt q p

def mkMeet (h : PktMeta) (b m n : Bytes) : H Ptr := do
  let l ← litPeer
  let r ← litSelf
  let q ← litPkt h b m n
  onNull (alloc (.obj .plain [l, r, q])) dead! fun p => pure p

theorem mkMeet_spec (c : Rules) (f : Bool) (hc : c.crash) (h : PktMeta) (b m n : Bytes) (hb : 0 < b.length ∧ b.length ≤ 1000)
    (hm : 0 < m.length ∧ m.length ≤ 1000) (hn : 0 < n.length ∧ n.length ≤ 1000) :
    Triple c f emp (mkMeet h b m n) (fun r _ => made isMeet ⟨h, b, some m, some n⟩ r) := by
  unfold mkMeet
  sgo

/-- The run with this packet: whether the second call handed out keys. -/
def meetRun (p : Option Packet) : Bool :=
  match p with
  | some ⟨h, b, some m, some n⟩ =>
    decide (0 < b.length ∧ b.length ≤ 1000) && decide (0 < m.length ∧ m.length ≤ 1000) && decide (0 < n.length ∧ n.length ≤ 1000) &&
    (match handshakeFromPacket ⟨h, b, some m, some n⟩ with | some (.response _) => false | _ => true) &&
    match built (mkMeet h b m n) with
    | some (a, s) =>
      match s.heap a with
      | some (.obj .plain [some l, some r, some q]) =>
        match hsHistory toyEngine (some l) (some r) 512 [.process (some q) toyRand2, .finalize] (bump []) s with
        | .ret (_, [_, [.keys _]]) _ => true
        | _ => false
      | _ => false
    | none => false
  | _ => false

set_option maxRecDepth 20000 in
theorem meetRun_keys : meetRun toySeedPkt = true := by decide +kernel

theorem meet_in {p : Packet} {a : Addr} {m : Heap} (hh : Has isMeet m a p) : ∃ (l r q : Addr) (h : Heap), m a = some (.obj .plain [some l, some r, some q]) ∧
    ((isChain l toyPeer ∗ isChain r toyChain ∗ isCalls [.process (some q) toyRand2, .finalize] [HsOp.process (some p) toyRand2, HsOp.finalize]) ∗ keep h) m := by
  unfold Has isMeet at hh
  simp only [Asrt.ex_star] at hh
  obtain ⟨l, r, q, hh⟩ := hh
  have e : m a = some (.obj .plain [some l, some r, some q]) := by
    rw [Asrt.star_assoc] at hh
    obtain ⟨m1, m2, hd, e1, g1, g2⟩ := hh
    rw [e1]
    cases g1
    simp
  have hsh : ((isChain l toyPeer ∗ isChain r toyChain ∗ isTPkt q p) ∗ ((a ↦ .obj .plain [some l, some r, some q]) ∗ Asrt.any)) m := by
    rw [Asrt.star_assoc, Asrt.star_comm] at hh
    rw [← Asrt.star_comm (Asrt.any) _, ← Asrt.star_assoc]
    exact hh
  obtain ⟨m1, m2, hd, e1, g1, g2⟩ := hsh
  refine ⟨l, r, q, m2, e, m1, m2, hd, e1, ?_, rfl⟩
  have : isCalls [.process (some q) toyRand2, .finalize] [HsOp.process (some p) toyRand2, HsOp.finalize] = isTPkt q p := by
    generalize toyRand2 = x
    simp [isCalls, isCall, Asrt.pure_true, Asrt.star_emp, Asrt.emp_star, optRep]
  rw [this]
  exact g1

/-- There is a memory with two identities and the first packet of the second, in which a handshake of the first with the second is made,
processes the packet and gives keys: the hypotheses of C96 are met. -/
example : ∃ (l r q : Addr) (A : Alloc) (s s' : St) (h : Heap) (p : Ptr) (x : List HsSeen) (b : Addr) (seed : Packet), s.oom = false ∧ ChainHonest toyEngine toyChain ∧
    (∀ o ∈ [HsOp.process (some seed) toyRand2, HsOp.finalize], HsOpOk o) ∧ Orderly false [HsOp.process (some seed) toyRand2, HsOp.finalize] ∧
    ((isChain l toyPeer ∗ isChain r toyChain ∗ isCalls [.process (some q) toyRand2, .finalize] [HsOp.process (some seed) toyRand2, HsOp.finalize]) ∗ keep h) s.heap ∧
    hsHistory toyEngine (some l) (some r) 512 [.process (some q) toyRand2, .finalize] A s = .ret (p, [x, [.keys b]]) s' := by
  have hk := meetRun_keys
  generalize toySeedPkt = seed at hk
  unfold meetRun at hk
  split at hk
  · rename_i hd bd mac net
    simp only [Bool.and_eq_true, decide_eq_true_eq] at hk
    obtain ⟨⟨⟨⟨h2, h3⟩, h4⟩, hq⟩, hk⟩ := hk
    cases hb : built (mkMeet hd bd mac net) with
    | none => rw [hb] at hk; cases hk
    | some z =>
      obtain ⟨a, s⟩ := z
      rw [hb] at hk
      dsimp only at hk
      obtain ⟨ho, hh⟩ := built_has (mkMeet_spec _ _ trivial _ _ _ _ h2 h3 h4) hb
      obtain ⟨l, r, q, h, e, hs⟩ := meet_in hh
      rw [e] at hk
      dsimp only at hk
      split at hk
      · rename_i p x b s' hrun
        refine ⟨l, r, q, bump [], s, s', h, p, x, b, ⟨hd, bd, some mac, some net⟩, ho, ?_, ?_, ?_, hs, hrun⟩
        · intro d s hd
          cases hd
        · intro o ho
          rcases List.mem_cons.1 ho with rfl | ho
          · exact ⟨⟨_, rfl, by decide, by decide⟩, ⟨by decide, by decide⟩, by decide⟩
          · rcases List.mem_cons.1 ho with rfl | ho
            · trivial
            · cases ho
        · refine ⟨fun _ m h => ?_, (fun h => nomatch h), trivial⟩
          rw [h] at hq
          cases hq
      · cases hk
  · cases hk

end Wickr
