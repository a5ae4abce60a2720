import Verif.Spec.Handshake
import Verif.Lemmas.Identity
import Verif.Lemmas.Stream
set_option linter.unusedSimpArgs false
namespace Wickr
open Spec

theorem Res.bind_eq_ok {x : Res α} {f : α → Res β} {y : β} :
    x.bind f = .ok y ↔ ∃ a, x = .ok a ∧ f a = .ok y := by
  cases x <;> simp [Res.bind]

theorem hsRun_append (E : Engine) (h : Handshake) (a b : List HsOp) :
    hsRun E h (a ++ b) =
      (hsRun E h a).bind fun x => (hsRun E x.1 b).bind fun y => .ok (y.1, x.2 ++ y.2) := by
  induction a generalizing h with
  | nil =>
    simp only [List.nil_append, hsRun, Res.bind, List.nil_append]
    cases hsRun E h b <;> rfl
  | cons op a ih =>
    simp only [List.cons_append, hsRun]
    cases op.step E h with
    | ub => rfl
    | null => rfl
    | ok x =>
      simp only [Res.bind, ih]
      cases hsRun E x.1 a with
      | ub => rfl
      | null => rfl
      | ok y =>
        simp only []
        cases hsRun E y.1 b with
        | ub => rfl
        | null => rfl
        | ok z => simp [List.append_assoc]

/-! ### Copies and verification of chains -/

theorem identityCopy_same {i j : Identity} (h : identityCopy i = some j) : SameIdentity i j := by
  unfold identityCopy at h
  simp only [Option.bind_eq_some_iff] at h
  obtain ⟨id, hid, k, hk, hc⟩ := h
  have h1 := (dup_eq_some.1 hid).2
  have h2 := ecKeyCopy_some hk
  subst id; subst k
  unfold identityCreate at hc
  split at hc
  · simp at hc
  · cases hc
    refine ⟨rfl, rfl, rfl, ?_⟩
    cases hs : i.sig with
    | none => exact Or.inl rfl
    | some s =>
      simp only [Option.bind_some, ecdsaCopy]
      cases hd : dup s.sig with
      | none => exact Or.inr rfl
      | some d =>
        have := (dup_eq_some.1 hd).2
        subst this; exact Or.inl rfl

theorem chainCopy_same {c d : Chain} (h : chainCopy c = some d) :
    SameChain c d ∧ d.status = c.status ∧ d.cache = c.cache := by
  unfold chainCopy at h
  simp only [Option.bind_eq_some_iff, Option.map_eq_some_iff] at h
  obtain ⟨r, h1, n, h2, q, h3, rfl⟩ := h
  exact ⟨⟨identityCopy_same h1, identityCopy_same h2⟩, rfl, (dupOpt_eq_some.1 h3).1⟩

theorem Spec.SameIdentity.refl (i : Identity) : SameIdentity i i := ⟨rfl, rfl, rfl, Or.inl rfl⟩
theorem Spec.SameIdentity.trans {i j k : Identity} (a : SameIdentity i j) (b : SameIdentity j k) : SameIdentity i k := by
  obtain ⟨a1, a2, a3, a4⟩ := a
  obtain ⟨b1, b2, b3, b4⟩ := b
  refine ⟨b1.trans a1, b2.trans a2, b3.trans a3, ?_⟩
  rcases b4 with b4 | b4
  · rw [b4]; exact a4
  · exact Or.inr b4
theorem Spec.SameChain.refl (c : Chain) : SameChain c c := ⟨.refl _, .refl _⟩
theorem Spec.SameChain.trans {a b c : Chain} (h : SameChain a b) (g : SameChain b c) : SameChain a c :=
  ⟨h.1.trans g.1, h.2.trans g.2⟩

theorem chainValidate_same (E : Engine) (c : Chain) :
    (chainValidate E c).1.root = c.root ∧ (chainValidate E c).1.node = c.node := by
  unfold chainValidate; split <;> exact ⟨rfl, rfl⟩

/-- A chain that validates still has its signature. -/
theorem chainValidate_sig {E : Engine} {c : Chain} (h : (chainValidate E c).2 = true) : c.node.sig ≠ none := by
  intro hn
  unfold chainValidate at h
  have : chainHasValidCache E c = false := by
    unfold chainHasValidCache
    cases hc : c.cache with
    | none => rfl
    | some x => simp [chainStatusCache, hn, bufIsEqual]
  simp [this, hn, Engine.verifyOpt] at h

/-- Validation only looks at keys, signature, status and cache. -/
theorem chainValidate_congr {E : Engine} {c d : Chain} (h1 : d.root.key = c.root.key)
    (h2 : d.node.key = c.node.key) (h3 : d.node.sig = c.node.sig) (h4 : d.status = c.status)
    (h5 : d.cache = c.cache) : (chainValidate E d).2 = (chainValidate E c).2 := by
  have hs : chainStatusCache E d = chainStatusCache E c := by simp [chainStatusCache, h1, h2, h3, h4]
  have hh : chainHasValidCache E d = chainHasValidCache E c := by simp [chainHasValidCache, h5, hs]
  unfold chainValidate
  rw [hh, h1, h2, h3, h4]
  split <;> rfl

theorem ChainGenuine.congr {E : Engine} {c d : Chain} (h1 : d.root.key = c.root.key)
    (h2 : d.node.key = c.node.key) (h3 : d.node.sig = c.node.sig) :
    ChainGenuine E d ↔ ChainGenuine E c := by simp [ChainGenuine, h1, h2, h3]

/-- `c` descends from `R` by copying and a positive validation of it is right. -/
def Pinned (E : Engine) (R c : Chain) : Prop :=
  SameChain R c ∧ ((chainValidate E c).2 = true → c.node.sig = R.node.sig ∧ ChainGenuine E R)

theorem Pinned.self {E : Engine} {R : Chain} (h : CacheTruthful E R) : Pinned E R R :=
  ⟨.refl _, fun hv => ⟨rfl, h hv⟩⟩

theorem Pinned.copy {E : Engine} {R c d : Chain} (h : Pinned E R c) (hc : chainCopy c = some d) :
    Pinned E R d := by
  obtain ⟨hs, h1, h2⟩ := chainCopy_same hc
  refine ⟨h.1.trans hs, fun hv => ?_⟩
  have hsig : d.node.sig = c.node.sig := by
    rcases hs.2.2.2.2 with e | e
    · exact e
    · exact absurd e (chainValidate_sig hv)
  rw [chainValidate_congr hs.1.2.2.1 hs.2.2.2.1 hsig h1 h2] at hv
  obtain ⟨a, b⟩ := h.2 hv
  exact ⟨hsig.trans a, b⟩

theorem pktVerify_chain (E : Engine) (p : Packet) (c : Chain) :
    (pktVerify E p c).2.1.root = c.root ∧ (pktVerify E p c).2.1.node = c.node := by
  have hv := chainValidate_same E c
  unfold pktVerify
  split
  · exact ⟨rfl, rfl⟩
  · split
    · exact ⟨rfl, rfl⟩
    · split
      · exact ⟨rfl, rfl⟩
      · rcases hcv : chainValidate E c with ⟨d, ok⟩
        rw [hcv] at hv
        simp only []
        split
        · exact hv
        · split
          · exact hv
          · split <;> exact hv

theorem pktVerify_same (E : Engine) (p : Packet) (c : Chain) : SameChain c (pktVerify E p c).2.1 := by
  obtain ⟨h1, h2⟩ := pktVerify_chain E p c
  constructor
  · rw [h1]; exact .refl _
  · rw [h2]; exact .refl _

theorem pktVerify_true {E : Engine} {p : Packet} {c : Chain} (h : (pktVerify E p c).2.2 = true) :
    (chainValidate E c).2 = true ∧ PacketSigned E p c.node.key := by
  have hv := chainValidate_same E c
  unfold pktVerify at h
  split at h
  · simp at h
  next mac hmac =>
  split at h
  · simp at h
  next hm =>
  split at h
  · simp at h
  next net hnet =>
  rcases hcv : chainValidate E c with ⟨d, ok⟩
  rw [hcv] at hv
  simp only [hcv] at h
  split at h
  · simp at h
  next hok =>
  split at h
  · simp at h
  next hlen =>
  split at h
  · simp at h
  next s hs =>
  refine ⟨by simpa using hok, Decidable.byContradiction fun hc => hm hc, net, net.take (net.length - mac.length), mac, s, ?_, hmac, ?_, ?_,
    List.take_prefix _ _, hs, ?_⟩
  · cases hn : p.network with
    | none => rw [hn] at hnet; exact Or.inr ⟨rfl, hnet⟩
    | some b => rw [hn] at hnet; exact Or.inl hnet
  · rw [List.length_take]; omega
  · intro hc
    have := congrArg List.length hc
    rw [List.length_take, List.length_nil] at this
    omega
  · rw [← hv.2]; exact h

/-! ### The steps of the handshake -/

theorem hsSetSlot_fields (h : Handshake) (b : Bool) (x : Option Bytes) :
    (hsSetSlot h b x).self = h.self ∧ (hsSetSlot h b x).remote = h.remote ∧
    (hsSetSlot h b x).status = h.status ∧ (hsSetSlot h b x).eph = h.eph ∧
    (hsSetSlot h b x).rootKey = h.rootKey ∧ (hsSetSlot h b x).pendingPkt = h.pendingPkt ∧
    (hsSetSlot h b x).isInitiator = h.isInitiator ∧ (hsSetSlot h b x).evo = h.evo := by
  unfold hsSetSlot; split <;> simp

theorem hsBuildSigned_cases {E : Engine} {h h' : Handshake} {m : PHandshake} {n : Bytes} {b : Bool}
    {q : Option Packet} (e : hsBuildSigned E h m n b = (h', q)) :
    (h' = hsFail h ∧ q = none) ∨ ∃ p, q = some p ∧ h' = hsSetSlot h b p.network := by
  unfold hsBuildSigned at e
  split at e
  · cases e; exact Or.inl ⟨rfl, rfl⟩
  · split at e
    · cases e; exact Or.inl ⟨rfl, rfl⟩
    · cases e; exact Or.inr ⟨_, rfl, rfl⟩

/-- The chain against which a packet was checked: the one already known, or the one it brought. -/
def CheckedChain (E : Engine) (h : Handshake) (c : Chain) : Prop :=
  h.remote = some c ∨ (h.remote = none ∧ ∃ pc, chainFromProto E pc = some c)

theorem hsRemoteIdentity_fields {E : Engine} {h h' : Handshake} {p : Packet} {pc : Option PChain} {ok : Bool}
    (e : hsRemoteIdentity E h p pc = (h', ok)) :
    h' = { h with remote := h'.remote, status := if h.remote.isNone then .pendingVerification else h.status } ∧
    (∀ c, h.remote = some c → h'.remote = some (pktVerify E p c).2.1) ∧
    (ok = true → ∃ c, CheckedChain E h c ∧ (pktVerify E p c).2.2 = true ∧
      h'.remote = some (pktVerify E p c).2.1) := by
  unfold hsRemoteIdentity at e
  cases hr : h.remote with
  | some c =>
    simp only [hr, Prod.mk.injEq] at e
    obtain ⟨rfl, rfl⟩ := e
    refine ⟨by simp [hr], ?_, ?_⟩
    · intro d hd; cases hd; rfl
    · intro hv; exact ⟨c, Or.inl hr, hv, rfl⟩
  | none =>
    simp only [hr] at e
    cases hc : pc.bind (chainFromProto E) with
    | none =>
      simp only [hc, Prod.mk.injEq] at e
      obtain ⟨rfl, rfl⟩ := e
      exact ⟨by simp [hr], by simp, by simp⟩
    | some c =>
      simp only [hc, Prod.mk.injEq] at e
      obtain ⟨rfl, rfl⟩ := e
      refine ⟨by simp [hr], by simp, ?_⟩
      intro hv
      obtain ⟨x, -, hx⟩ := Option.bind_eq_some_iff.1 hc
      exact ⟨c, Or.inr ⟨hr, x, hx⟩, hv, rfl⟩

/-- What the two processing functions guarantee of the state after a defined call. -/
structure Processed (E : Engine) (h : Handshake) (p : Packet) (next : HsStatus) (h' : Handshake) : Prop where
  self : h'.self = h.self
  evo : h'.evo = h.evo
  init : h'.isInitiator = h.isInitiator
  pend : h'.pendingPkt = h.pendingPkt
  eph : h'.eph = h.eph
  pinned : ∀ c, h.remote = some c → h'.remote = some c ∨ h'.remote = some (pktVerify E p c).2.1
  good : h'.status ≠ .failed → ∃ c, CheckedChain E h c ∧ (pktVerify E p c).2.2 = true ∧
    h'.remote = some (pktVerify E p c).2.1 ∧ h'.rootKey.isSome ∧
    h'.status = (if h.remote.isNone then .pendingVerification else next)

theorem Processed.fail0 {E : Engine} {h : Handshake} {p : Packet} {n : HsStatus} (b : Bool) (x : Option Bytes) :
    Processed E h p n (hsFail (hsSetSlot h b x)) := by
  obtain ⟨h1, h2, h3, h4, h5, h6, h7, h8⟩ := hsSetSlot_fields h b x
  refine ⟨h1, h8, h7, h6, h4, ?_, ?_⟩
  · intro c hc; left; show (hsSetSlot h b x).remote = _; rw [h2, hc]
  · intro hn; exact absurd rfl hn

theorem hsProcessResponse_spec {E : Engine} {h h' : Handshake} {p : Packet} (hst : h.status = .inProgress)
    (e : hsProcessResponse E h p = .ok h') : Processed E h p .pendingFinalization h' := by
  have hf := hsSetSlot_fields h true p.network
  have hfail := Processed.fail0 (E := E) (h := h) (p := p) (n := .pendingFinalization) true p.network
  unfold hsProcessResponse at e
  simp only [] at e
  generalize hsSetSlot h true p.network = g at *
  obtain ⟨h1, h2, h3, h4, h5, h6, h7, h8⟩ := hf
  split at e
  · cases e; exact hfail
  · cases e; exact hfail
  · cases e
  next r _ =>
  split at e
  case h_2 => cases e; exact hfail
  next ed ep _ _ =>
  split at e
  · cases e; exact hfail
  split at e
  case h_2 => cases e; exact hfail
  next enc own peer _ _ _ =>
  rcases hri : hsRemoteIdentity E g p r.idChain with ⟨g', ok⟩
  obtain ⟨f1, f2, f3⟩ := hsRemoteIdentity_fields hri
  have hpin : ∀ c, h.remote = some c → g'.remote = some c ∨ g'.remote = some (pktVerify E p c).2.1 :=
    fun c hc => Or.inr (f2 c (by rw [h2, hc]))
  have e1 : g'.self = h.self := by rw [f1]; exact h1
  have e2 : g'.evo = h.evo := by rw [f1]; exact h8
  have e3 : g'.isInitiator = h.isInitiator := by rw [f1]; exact h7
  have e4 : g'.pendingPkt = h.pendingPkt := by rw [f1]; exact h6
  have e5 : g'.eph = h.eph := by rw [f1]; exact h4
  have e6 : g'.status = if h.remote.isNone then .pendingVerification else .inProgress := by
    rw [f1]
    show (if g.remote.isNone then HsStatus.pendingVerification else g.status) = _
    rw [h2, h3, hst]
  rw [hri] at e
  cases ok with
  | false =>
    simp only [] at e
    cases e
    exact ⟨e1, e2, e3, e4, e5, hpin, fun hn => absurd rfl hn⟩
  | true =>
    simp only [] at e
    split at e
    · cases e
      exact ⟨e1, e2, e3, e4, e5, hpin, fun hn => absurd rfl hn⟩
    · cases e
      refine ⟨e1, e2, e3, e4, e5, hpin, fun _ => ?_⟩
      obtain ⟨c, c1, c2, c3⟩ := f3 rfl
      refine ⟨c, ?_, c2, c3, rfl, ?_⟩
      · unfold CheckedChain at *; rw [h2] at c1; exact c1
      · simp only [e6]
        cases h.remote <;> simp

theorem hsProcessInitial_spec {E : Engine} {h h' : Handshake} {p : Packet} {r : HsRand} {q : Option Packet}
    (hst : h.status = .unknown) (e : hsProcessInitial E h p r = .ok (h', q)) :
    Processed E h p .pendingFinalization h' ∧ (h'.status ≠ .failed → q.isSome) := by
  have hf := hsSetSlot_fields h false p.network
  have hfail := Processed.fail0 (E := E) (h := h) (p := p) (n := .pendingFinalization) false p.network
  unfold hsProcessInitial at e
  simp only [] at e
  generalize hsSetSlot h false p.network = g at *
  obtain ⟨h1, h2, h3, h4, h5, h6, h7, h8⟩ := hf
  split at e
  · cases e; exact ⟨hfail, fun hn => absurd rfl hn⟩
  · cases e; exact ⟨hfail, fun hn => absurd rfl hn⟩
  · cases e
  next s _ =>
  split at e
  case h_2 => cases e; exact ⟨hfail, fun hn => absurd rfl hn⟩
  next ep req _ _ =>
  rcases hri : hsRemoteIdentity E g p s.idChain with ⟨g', ok⟩
  obtain ⟨f1, f2, f3⟩ := hsRemoteIdentity_fields hri
  have hpin : ∀ c, h.remote = some c → g'.remote = some c ∨ g'.remote = some (pktVerify E p c).2.1 :=
    fun c hc => Or.inr (f2 c (by rw [h2, hc]))
  have e1 : g'.self = h.self := by rw [f1]; exact h1
  have e2 : g'.evo = h.evo := by rw [f1]; exact h8
  have e3 : g'.isInitiator = h.isInitiator := by rw [f1]; exact h7
  have e4 : g'.pendingPkt = h.pendingPkt := by rw [f1]; exact h6
  have e5 : g'.eph = h.eph := by rw [f1]; exact h4
  have e6 : g'.status = if h.remote.isNone then .pendingVerification else .unknown := by
    rw [f1]
    show (if g.remote.isNone then HsStatus.pendingVerification else g.status) = _
    rw [h2, h3, hst]
  rw [hri] at e
  cases ok with
  | false =>
    simp only [] at e
    cases e
    exact ⟨⟨e1, e2, e3, e4, e5, hpin, fun hn => absurd rfl hn⟩, fun hn => absurd rfl hn⟩
  | true =>
    simp only [] at e
    split at e
    case h_2 =>
      cases e
      exact ⟨⟨e1, e2, e3, e4, e5, hpin, fun hn => absurd rfl hn⟩, fun hn => absurd rfl hn⟩
    next peer rk _ _ =>
    split at e
    · cases e
      exact ⟨⟨e1, e2, e3, e4, e5, hpin, fun hn => absurd rfl hn⟩, fun hn => absurd rfl hn⟩
    next m _ =>
    rcases hb : hsBuildSigned E { g' with rootKey := some rk } m r.nonce true with ⟨g2, q2⟩
    rw [hb] at e
    rcases hsBuildSigned_cases hb with ⟨b1, b2⟩ | ⟨pk, b1, b2⟩
    · subst b1 b2
      simp only [] at e
      cases e
      exact ⟨⟨e1, e2, e3, e4, e5, hpin, fun hn => absurd rfl hn⟩, fun hn => absurd rfl hn⟩
    · subst b1
      simp only [] at e
      cases e
      obtain ⟨k1, k2, k3, k4, k5, k6, k7, k8⟩ := hsSetSlot_fields { g' with rootKey := some rk } true pk.network
      rw [← b2] at k1 k2 k3 k4 k5 k6 k7 k8
      simp only at k1 k2 k3 k4 k5 k6 k7 k8
      refine ⟨⟨k1.trans e1, k8.trans e2, k7.trans e3, k6.trans e4, k4.trans e5, ?_, fun _ => ?_⟩, fun _ => rfl⟩
      · intro c hc; simp only [k2]; exact hpin c hc
      · obtain ⟨c, c1, c2, c3⟩ := f3 rfl
        refine ⟨c, ?_, c2, ?_, ?_, ?_⟩
        · unfold CheckedChain at *; rw [h2] at c1; exact c1
        · simp only [k2]; exact c3
        · simp only [k5]; rfl
        · simp only [k3, e6]
          cases h.remote <;> simp

theorem hsProcess_spec {E : Engine} {h h' : Handshake} {p : Option Packet} {r : HsRand} {out : HsOut}
    (e : hsProcess E h p r = .ok (h', out)) :
    (∀ c, h.remote = some c → h'.remote = some c ∨
      ∃ pk, p = some pk ∧ h'.remote = some (pktVerify E pk c).2.1) ∧
    ((h'.status = .failed ∧ out = ⟨none, none⟩) ∨
     ∃ pk c, p = some pk ∧ (h.status = .unknown ∨ h.status = .inProgress) ∧ CheckedChain E h c ∧
      (pktVerify E pk c).2.2 = true ∧ h'.remote = some (pktVerify E pk c).2.1 ∧ h'.rootKey.isSome ∧
      ((h.remote = none ∧ h'.status = .pendingVerification ∧ out = ⟨none, h'.remote.bind chainCopy⟩) ∨
       (h.remote ≠ none ∧ h'.status = .pendingFinalization ∧ out.ask = none))) := by
  unfold hsProcess at e
  cases p with
  | none => cases e; exact ⟨fun c hc => Or.inl hc, Or.inl ⟨rfl, rfl⟩⟩
  | some pk =>
    simp only [] at e
    split at e
    · cases e; exact ⟨fun c hc => Or.inl hc, Or.inl ⟨rfl, rfl⟩⟩
    · obtain ⟨⟨g, q⟩, e1, e2⟩ := Res.bind_eq_ok.1 e
      have key : (∃ n, Processed E h pk n g ∧ (h.status = .unknown ∨ h.status = .inProgress) ∧
          n = .pendingFinalization) ∨ (g = hsFail h ∧ q = none) := by
        split at e1
        · next hs => exact Or.inl ⟨_, (hsProcessInitial_spec hs e1).1, Or.inl hs, rfl⟩
        · next hs =>
          obtain ⟨g', e3, e4⟩ := Res.bind_eq_ok.1 e1
          cases e4
          exact Or.inl ⟨_, hsProcessResponse_spec hs e3, Or.inr hs, rfl⟩
        · cases e1; exact Or.inr ⟨rfl, rfl⟩
      rcases key with ⟨n, hp, hs, rfl⟩ | ⟨rfl, rfl⟩
      · have hpin : ∀ c, h.remote = some c → g.remote = some c ∨
            ∃ pk', some pk = some pk' ∧ g.remote = some (pktVerify E pk' c).2.1 := by
          intro c hc
          rcases hp.pinned c hc with a | a
          · exact Or.inl a
          · exact Or.inr ⟨pk, rfl, a⟩
        simp only [] at e2
        split at e2
        · next hf => cases e2; exact ⟨hpin, Or.inl ⟨hf, rfl⟩⟩
        · next hf =>
          obtain ⟨c, c1, c2, c3, c4, c5⟩ := hp.good hf
          split at e2
          · next hpv =>
            cases e2
            refine ⟨hpin, Or.inr ⟨pk, c, rfl, hs, c1, c2, c3, c4, Or.inl ⟨?_, hpv, rfl⟩⟩⟩
            cases hr : h.remote with
            | none => rfl
            | some x => rw [hr, hpv] at c5; simp at c5
          · next hpv =>
            cases e2
            have hne : h.remote ≠ none := by intro hr; rw [hr] at c5; exact hpv (by simpa using c5)
            refine ⟨hpin, Or.inr ⟨pk, c, rfl, hs, c1, c2, c3, c4, Or.inr ⟨hne, ?_, rfl⟩⟩⟩
            rw [c5, if_neg]
            cases hr : h.remote with
            | none => exact absurd hr hne
            | some x => simp
      · simp only [hsFail, if_true] at e2
        cases e2
        exact ⟨fun c hc => Or.inl hc, Or.inl ⟨rfl, rfl⟩⟩

/-! ### Chains read from a packet can be copied -/

theorem ecdsaFromBuffer_valid {b : Bytes} {s : EcdsaResult} (h : ecdsaFromBuffer b = some s) : ValidBuf s.sig := by
  have hcs : ∀ {x r : Bytes} {a l : Nat}, copySection x a l = some r → ValidBuf r := by
    intro x r a l hc
    obtain ⟨h1, h2, h3, h4⟩ := copySection_some hc
    unfold copySection at hc
    split at hc
    · next hcc => exact ⟨by omega, by omega⟩
    · simp at hc
  unfold ecdsaFromBuffer at h
  split at h
  · simp at h
  · split at h
    · split at h
      · split at h
        · simp at h
        · simp only [Option.map_eq_some_iff] at h
          obtain ⟨k, hk, rfl⟩ := h
          exact hcs hk
      · simp at h
    · simp at h

theorem identityFromProto_copy {E : Engine} (hE : SaneOutputs E) {p : PIdentity} {i : Identity}
    (h : identityFromProto E p = some i) : identityCopy i = some i := by
  unfold identityFromProto at h
  split at h
  · simp only [Option.bind_eq_some_iff] at h
    obtain ⟨id, hid, k, hk, s, hs, hc⟩ := h
    unfold identityCreate at hc
    split at hc
    · simp at hc
    next hlen =>
    cases hc
    have hid' := dup_eq_some.1 hid
    have hv : ValidBuf id := by rw [hid'.2]; exact hid'.1
    have hkc : ecKeyCopy k = some k := by
      unfold ecKeyCopy
      rw [dup_of (hE.pub _ _ _ hk), Option.bind_some, dupOpt_of fun x hx => hE.pri _ _ _ _ hk hx]
      rfl
    have hsc : s.bind ecdsaCopy = s := by
      cases s with
      | none => rfl
      | some t =>
        have : ValidBuf t.sig := by
          unfold optParse at hs
          split at hs
          · simp at hs
          · simp only [Option.map_eq_some_iff] at hs
            obtain ⟨t', h1, h2⟩ := hs
            cases h2
            exact ecdsaFromBuffer_valid h1
        simp [ecdsaCopy, dup_of this]
    unfold identityCopy
    simp only [dup_of hv, hkc, Option.bind_some, hsc, identityCreate, if_neg hlen]
  · simp at h

theorem chainFromProto_spec {E : Engine} {p : PChain} {c : Chain} (h : chainFromProto E p = some c) :
    c.cache = none ∧ c.status = .unknown ∧ ∃ r n, identityFromProto E r = some c.root ∧
      identityFromProto E n = some c.node := by
  unfold chainFromProto at h
  split at h
  · next r n _ _ =>
    simp only [Option.bind_eq_some_iff, Option.map_eq_some_iff] at h
    obtain ⟨a, ha, b, hb, rfl⟩ := h
    exact ⟨rfl, rfl, r, n, ha, hb⟩
  · simp at h

theorem pktVerify_cache (E : Engine) (hE : SaneOutputs E) (p : Packet) (c : Chain)
    (hc : ∀ x, c.cache = some x → ValidBuf x) :
    ∀ x, (pktVerify E p c).2.1.cache = some x → ValidBuf x := by
  have hv : ∀ x, (chainValidate E c).1.cache = some x → ValidBuf x := by
    unfold chainValidate
    split
    · exact hc
    · intro x hx
      simp only [chainUpdateCache, chainStatusCache] at hx
      split at hx
      · simp at hx
      · obtain ⟨b, -, hd⟩ := Option.bind_eq_some_iff.1 hx
        exact hE.digest _ _ _ _ hd
  unfold pktVerify
  split
  · exact hc
  · split
    · exact hc
    · split
      · exact hc
      · rcases hcv : chainValidate E c with ⟨d, ok⟩
        rw [hcv] at hv
        simp only []
        split
        · exact hv
        · split
          · exact hv
          · split <;> exact hv

/-- The chain that the identity callback gets exists and is the one the packet was checked against. -/
theorem asked_copy {E : Engine} (hE : SaneOutputs E) {p : Packet} {pc : PChain} {c : Chain}
    (h : chainFromProto E pc = some c) :
    chainCopy (pktVerify E p c).2.1 = some (pktVerify E p c).2.1 := by
  obtain ⟨h1, h2, r, n, h3, h4⟩ := chainFromProto_spec h
  obtain ⟨v1, v2⟩ := pktVerify_chain E p c
  have hcache := pktVerify_cache E hE p c (by simp [h1])
  generalize pktVerify E p c = v at *
  obtain ⟨_, ⟨vr, vn, vs, vc⟩, _⟩ := v
  simp only at v1 v2 hcache
  subst v1 v2
  unfold chainCopy
  simp only [identityFromProto_copy hE h3, identityFromProto_copy hE h4, Option.bind_some, dupOpt_of hcache]
  rfl

theorem fresh_truthful {E : Engine} {c : Chain} (h : c.cache = none) : CacheTruthful E c := by
  intro hv
  unfold chainValidate chainHasValidCache at hv
  rw [h] at hv
  simp only [Bool.false_eq_true, if_false] at hv
  exact verifyOpt_iff.1 hv

theorem hsCopy_some {h g : Handshake} (e : hsCopy h = some g) :
    g.status = h.status ∧ g.isInitiator = h.isInitiator ∧ g.evo = h.evo ∧ g.eph = h.eph ∧
    g.rootKey = h.rootKey ∧ g.pkt0 = h.pkt0 ∧ g.pkt1 = h.pkt1 ∧ chainCopy h.self = some g.self ∧
    (h.remote = none → g.remote = none) ∧
    (∀ c, h.remote = some c → ∃ d, g.remote = some d ∧ chainCopy c = some d) ∧
    (h.pendingPkt = none → g.pendingPkt = none) ∧
    (∀ p, h.pendingPkt = some p → ∃ q, g.pendingPkt = some q ∧ pktCopy p = some q) := by
  unfold hsCopy at e
  simp only [Option.bind_eq_some_iff] at e
  obtain ⟨l, hl, r, hr, p0, h0, p1, h1, e⟩ := e
  split at e
  · simp at e
  simp only [Option.bind_eq_some_iff, Option.map_eq_some_iff] at e
  obtain ⟨rk, hrk, pp, hpp, ek, hek, rfl⟩ := e
  have hrk' : rk = h.rootKey := by
    cases hk : h.rootKey with
    | none => rw [hk] at hrk; simp [copyOpt] at hrk; exact hrk.symm
    | some k =>
      rw [hk] at hrk
      simp only [copyOpt, Option.map_eq_some_iff, rootKeyCopy, Option.bind_eq_some_iff] at hrk
      obtain ⟨k', ⟨s, hs, hc⟩, rfl⟩ := hrk
      have := (dup_eq_some.1 hs).2
      subst this
      unfold rootKeyCreate at hc
      split at hc
      · simp at hc
      · cases hc; rfl
  have hek' : ek = h.eph := by
    cases hk : h.eph with
    | none => rw [hk] at hek; simp [copyOpt] at hek; exact hek.symm
    | some k =>
      rw [hk] at hek
      simp only [copyOpt, Option.map_eq_some_iff] at hek
      obtain ⟨k', h1, rfl⟩ := hek
      rw [ecKeyCopy_some h1]
  refine ⟨rfl, rfl, rfl, hek', hrk', (dupOpt_eq_some.1 h0).1, (dupOpt_eq_some.1 h1).1, hl, ?_, ?_, ?_, ?_⟩
  · intro hn; rw [hn] at hr; simp [copyOpt] at hr; exact hr.symm
  · intro c hc
    rw [hc] at hr
    simp only [copyOpt, Option.map_eq_some_iff] at hr
    obtain ⟨d, h1, rfl⟩ := hr
    exact ⟨d, rfl, h1⟩
  · intro hn; rw [hn] at hpp; simp [copyOpt] at hpp; exact hpp.symm
  · intro c hc
    rw [hc] at hpp
    simp only [copyOpt, Option.map_eq_some_iff] at hpp
    obtain ⟨d, h1, rfl⟩ := hpp
    exact ⟨d, rfl, h1⟩

end Wickr
