import Verif.Spec.ReleasesProto
import Verif.Lemmas.SepExchange
import Verif.Lemmas.SepCtx
import Verif.Lemmas.Among
/-
Reading identities, chains, ephemeral keys, nodes, storage keys and contexts.
-/
namespace Wickr
open Asrt Spec

variable {E : Engine}

/-- Unpacking a message, making an object of it and releasing the message. -/
theorem hRead_view {M V : Type} {c : Rules} {f : Bool} {h : Heap} {a : Addr} {b : Bytes} {R : Addr → V → Asrt}
    {unpack : List Field → Option M} {parts : M → List Bytes} {mk : M → Option V} {go : Ptr → M → H Ptr}
    (ha : Has isBuf h a b) (hp : ∀ m, (fieldsDec b).bind unpack = some m → ∀ p ∈ parts m, c.pub p)
    (hgo : ∀ f h x m, (fieldsDec b).bind unpack = some m → Has isProto h x (parts m) →
      Triple c f (keep h) (go (some x) m) (fun r f' => keep h ∗ gives R (mk m) r f')) :
    Triple c f (keep h) (hRead unpack parts go (some a))
      (fun r f' => keep h ∗ gives R (((fieldsDec b).bind unpack).bind mk) r f') := by
  unfold hRead
  dsimp only
  sread readBuf_view ha
  cases hm : (fieldsDec b).bind unpack with
  | none => exact Triple.ret fun y hy => keep_fact (Or.inr rfl) hy
  | some m =>
    dsimp only
    rw [Option.bind_some]
    refine Triple.onNull' (hUnpack_spec c f (parts m) (hp m hm)) ?_ ?_
    · intro f1 _ hf
      exact Triple.ret fun y hy => keep_fact (Or.inl hf) hy
    · intro x f1 _
      refine Triple.lend (h := h) (P := isProto x (parts m)) (F := emp) (by frame) fun h1 h' hx e s1 s2 => ?_
      sstep hgo f1 h' x m hm (Has.sub (has_of hx) s2)
      intro r f2 _
      refine Triple.giveBack (F := gives R (mk m) r f2) e hx (by frame) ?_
      sstep hFreeUnpacked_spec c x (parts m) (hp m hm) f2
      intro _ f3 hf3
      sintro
      refine Triple.ret fun y hy => ?_
      have hy : (keep h ∗ gives R (mk m) r f2) y := by
        revert hy
        revert y
        sentail
      refine Asrt.star_mono_r (fun z hz => ?_) hy
      cases r with
      | none => exact ⟨hz.1.imp_left hf3, hz.2⟩
      | some r => exact hz

theorem hIdCreate_long (c : Rules) (f : Bool) (t : IdType) (q : Addr) (k p : Ptr) (b : Bytes) (hb : ¬ b.length < 128) :
    Triple c f (isBuf q b) (hIdCreate t (some q) k p) (fun r _ => ⌜r = none⌝ ∗ isBuf q b) := by
  unfold hIdCreate
  vgo

theorem hIdMake_spec (c : Rules) (f : Bool) (t : IdType) (q k : Addr) (p : Ptr) (b : Bytes) (key : EcKey) (s : Option EcdsaResult)
    (hb : c.pub b) (hs : ∀ v, s = some v → c.pub v.sig) :
    Triple c f (isBuf q b ∗ isKey k key ∗ optRep isSig p s) (hIdMake t (some q) (some k) p)
      (fun r f' => emp ∗ gives isId (identityCreate t b key s) r f') := by
  unfold hIdMake identityCreate
  by_cases hl : b.length < 128
  · rw [if_neg (by omega)]
    cases s with
    | none =>
      cases p
      · vgo
      · dsimp only [optRep]
        sabsurd
    | some s =>
      have := hs s rfl
      cases p
      · dsimp only [optRep]
        sabsurd
      · vgo
  · rw [if_pos (by omega)]
    unfold onNull
    sstep hIdCreate_long c f t q (some k) p b hl
    intro r f1 _
    sintro
    rename_i hr
    subst hr
    cases s with
    | none =>
      cases p
      · vgo
      · dsimp only [optRep]
        sabsurd
    | some s =>
      have := hs s rfl
      cases p
      · dsimp only [optRep]
        sabsurd
      · vgo

theorem hIdFromProto_view (hE : E.Fits) (c : Rules) (f : Bool) (hc : c.crash) (h : Heap) (x : Addr) (bs : List Bytes) (j : Nat)
    (m : PIdentity) (hx : Has isProto h x bs) (h0 : bs[j]? = some (optBytes m.identifier)) (h1 : bs[j + 1]? = some (optBytes m.sigKey))
    (h2 : bs[j + 2]? = some (optBytes m.signature)) (hp : ∀ p ∈ m.shown E, c.pub p) :
    Triple c f (keep h) (hIdFromProto E (some x) j m) (fun r f' => keep h ∗ gives isId (identityFromProto E m) r f') := by
  have n0 := Nth.of h0
  have n1 := Nth.of h1
  have n2 := Nth.of h2
  obtain ⟨i, k, s, t, pr⟩ := m
  unfold hIdFromProto identityFromProto
  cases i with
  | none => vgo
  | some i =>
    cases k with
    | none => vgo
    | some k =>
      cases t with
      | none => vgo
      | some t =>
        simp only [PIdentity.shown] at hp
        have p0 : ∀ v, dup i = some v → c.pub v := fun v hv => by
          rw [(dup_eq_some.1 hv).2]
          exact hp i (List.mem_cons_self)
        have p1 : ∀ v, E.ecImport k (pr.getD false) = some v → c.pub v.pub := fun v hv => hp _ (by simp [importPubs, optBytes, hv])
        have p2 : ∀ b, s = some b → ∀ v, ecdsaFromBuffer b = some v → c.pub v.sig := fun b hb v hv =>
          hp _ (by subst hb; simp [optBytes, hv])
        clear hp h0 h1 h2
        dsimp only [optBytes] at *
        cases s with
        | none =>
          simp only [optParse, Option.bind_some]
          sread hPart_view hx
          vgo
        | some s =>
          have p2 := p2 s rfl
          simp only [optParse]
          dsimp only at *
          sread hPart_view hx
          vgo

theorem hIdFromBuffer_view (hE : E.Fits) (c : Rules) (f : Bool) (hc : c.crash) (h : Heap) (a : Addr) (b : Bytes)
    (hp : ∀ x ∈ idReadPubs E b, c.pub x) (ha : Has isBuf h a b) :
    Triple c f (keep h) (hIdFromBuffer E (some a)) (fun r f' => keep h ∗ gives isId (identityFromBuffer E b) r f') := by
  have hp' : ∀ m, (fieldsDec b).bind PIdentity.unpack = some m → ∀ x ∈ m.parts ++ m.shown E, c.pub x := fun m hm x hx =>
    hp x (by unfold idReadPubs; rw [hm]; simpa using hx)
  refine hRead_view ha (fun m hm x hx => hp' m hm x (List.mem_append_left _ hx)) ?_
  intro f h x m hm hx
  exact hIdFromProto_view hE c f hc h x _ 0 m hx rfl rfl rfl fun x hx => hp' m hm x (List.mem_append_right _ hx)

/-! ### Chains -/

theorem identityFromProto_publics {m : PIdentity} {i : Identity} (h : identityFromProto E m = some i) :
    ∀ x ∈ i.publics, x ∈ m.shown E := by
  unfold identityFromProto at h
  obtain ⟨id, k, s, t, pr⟩ := m
  cases id with
  | none => simp at h
  | some id =>
    cases k with
    | none => simp at h
    | some k =>
      cases t with
      | none => simp at h
      | some t =>
        simp only [Option.bind_eq_some_iff, identityCreate] at h
        obtain ⟨id', h1, k', h2, s', h3, h4⟩ := h
        split at h4
        · simp at h4
        · cases h4
          intro x hx
          rw [← dup_eq h1] at hx
          simp only [Identity.publics, List.mem_cons] at hx
          simp only [PIdentity.shown, List.mem_cons, List.mem_append]
          rcases hx with rfl | rfl | hx
          · exact Or.inl rfl
          · refine Or.inr (Or.inl ?_)
            simp only [importPubs, optBytes]
            rw [h2]
            simp
          · refine Or.inr (Or.inr ?_)
            cases s with
            | none =>
              cases h3
              simp at hx
            | some s =>
              simp only [optParse, Option.map_eq_some_iff] at h3
              obtain ⟨s'', h3, rfl⟩ := h3
              simp only [optBytes]
              rw [h3]
              simpa using hx

theorem hChainJoin_spec (c : Rules) (f : Bool) (r n : Addr) (i j : Identity) (hi : ∀ b ∈ i.publics, c.pub b)
    (hj : ∀ b ∈ j.publics, c.pub b) :
    Triple c f (isId r i ∗ isId n j) (hChainJoin (some r) (some n)) (fun x f' => emp ∗ fresh isChain (chainCreate i j) x f') := by
  unfold hChainJoin chainCreate
  vgo

theorem hChainFromProto_view (hE : E.Fits) (c : Rules) (f : Bool) (hc : c.crash) (h : Heap) (x : Addr) (bs : List Bytes) (j : Nat)
    (m : PChain) (hx : Has isProto h x bs) (hb : ∀ i, i < 6 → bs[j + i]? = m.parts[i]?) (hp : ∀ p ∈ m.shown E, c.pub p) :
    Triple c f (keep h) (hChainFromProto E (some x) j m) (fun r f' => keep h ∗ gives isChain (chainFromProto E m) r f') := by
  obtain ⟨rm, nm⟩ := m
  unfold hChainFromProto chainFromProto
  cases rm with
  | none => vgo
  | some rm =>
    have p1 : ∀ p ∈ rm.shown E, c.pub p := fun p h => hp p (by simp [PChain.shown, h])
    have q1 : ∀ v, identityFromProto E rm = some v → ∀ p ∈ v.publics, c.pub p := fun v hv p h => p1 p (identityFromProto_publics hv p h)
    have h0 : bs[j]? = some (optBytes rm.identifier) := hb 0 (by omega)
    have h1 : bs[j + 1]? = some (optBytes rm.sigKey) := hb 1 (by omega)
    have h2 : bs[j + 2]? = some (optBytes rm.signature) := hb 2 (by omega)
    cases nm with
    | none => vgo
    | some nm =>
      have p2 : ∀ p ∈ nm.shown E, c.pub p := fun p h => hp p (by simp [PChain.shown, h])
      have q2 : ∀ v, identityFromProto E nm = some v → ∀ p ∈ v.publics, c.pub p := fun v hv p h => p2 p (identityFromProto_publics hv p h)
      have h3 : bs[j + 3]? = some (optBytes nm.identifier) := hb 3 (by omega)
      have h4 : bs[j + 3 + 1]? = some (optBytes nm.sigKey) := hb 4 (by omega)
      have h5 : bs[j + 3 + 2]? = some (optBytes nm.signature) := hb 5 (by omega)
      clear hb hp
      vgo

theorem parts_nth {α : Type} {l : List α} : ∀ i, i < 6 → l[0 + i]? = l[i]? := fun i _ => by rw [Nat.zero_add]

theorem hChainFromBuffer_view (hE : E.Fits) (c : Rules) (f : Bool) (hc : c.crash) (h : Heap) (a : Addr) (b : Bytes)
    (hp : ∀ x ∈ chainReadPubs E b, c.pub x) (ha : Has isBuf h a b) :
    Triple c f (keep h) (hChainFromBuffer E (some a)) (fun r f' => keep h ∗ gives isChain (chainFromBuffer E b) r f') := by
  have hp' : ∀ m, (fieldsDec b).bind PChain.unpack = some m → ∀ x ∈ m.parts ++ m.shown E, c.pub x := fun m hm x hx =>
    hp x (by unfold chainReadPubs; rw [hm]; simpa using hx)
  refine hRead_view ha (fun m hm x hx => hp' m hm x (List.mem_append_left _ hx)) ?_
  intro f h x m hm hx
  exact hChainFromProto_view hE c f hc h x _ 0 m hx parts_nth fun x hx => hp' m hm x (List.mem_append_right _ hx)

/-! ### Ephemeral keys -/

theorem hEphMake_spec (c : Rules) (f : Bool) (n : UInt64) (k : Addr) (q : Ptr) (key : EcKey) (s : Option EcdsaResult)
    (hs : ∀ v, s = some v → c.pub v.sig) :
    Triple c f (isKey k key ∗ optRep isSig q s) (hEphMake n (some k) q)
      (fun r f' => emp ∗ fresh isEph ⟨n, key, s⟩ r f') := by
  unfold hEphMake
  cases s with
  | none =>
    cases q
    · vgo
    · dsimp only [optRep]
      sabsurd
  | some s =>
    have := hs s rfl
    cases q
    · dsimp only [optRep]
      sabsurd
    · vgo

theorem hEphFromProto_view (hE : E.Fits) (c : Rules) (f : Bool) (hc : c.crash) (h : Heap) (x : Addr) (bs : List Bytes) (j : Nat)
    (m : PEphKey) (hx : Has isProto h x bs) (h0 : bs[j]? = some (optBytes m.ecKey)) (h1 : bs[j + 1]? = some (optBytes m.keySig))
    (hp : ∀ p ∈ m.shown E, c.pub p) :
    Triple c f (keep h) (hEphFromProto E (some x) j m) (fun r f' => keep h ∗ gives isEph (ephFromProto E m) r f') := by
  obtain ⟨id, k, s⟩ := m
  unfold hEphFromProto ephFromProto
  have p1 : ∀ p ∈ importPubs E (optBytes k) false, c.pub p := fun p h => hp p (by simp [PEphKey.shown, h])
  have p2 : ∀ v, ecdsaFromBuffer (optBytes s) = some v → c.pub v.sig := fun v hv => hp _ (by simp [PEphKey.shown, hv])
  have n0 := Nth.of h0
  have n1 := Nth.of h1
  clear hp h0 h1
  cases k with
  | none => vgo
  | some k =>
    cases id with
    | none => vgo
    | some id =>
      have p1 : ∀ v, E.ecImport k false = some v → c.pub v.pub := fun v hv => p1 _ (by simp [importPubs, optBytes, hv])
      dsimp only [optBytes] at *
      cases s with
      | none =>
        simp only [optParse, Option.map_some]
        sread hPart_view hx
        vgo
      | some s =>
        simp only [optParse]
        dsimp only at *
        sread hPart_view hx
        vgo

theorem hEphFromBuffer_view (hE : E.Fits) (c : Rules) (f : Bool) (hc : c.crash) (h : Heap) (a : Addr) (b : Bytes)
    (hp : ∀ x ∈ ephReadPubs E b, c.pub x) (ha : Has isBuf h a b) :
    Triple c f (keep h) (hEphFromBuffer E (some a)) (fun r f' => keep h ∗ gives isEph (ephFromBuffer E b) r f') := by
  have hp' : ∀ m, (fieldsDec b).bind PEphKey.unpack = some m → ∀ x ∈ m.parts ++ m.shown E, c.pub x := fun m hm x hx =>
    hp x (by unfold ephReadPubs; rw [hm]; simpa using hx)
  refine hRead_view ha (fun m hm x hx => hp' m hm x (List.mem_append_left _ hx)) ?_
  intro f h x m hm hx
  exact hEphFromProto_view hE c f hc h x _ 0 m hx rfl rfl fun x hx => hp' m hm x (List.mem_append_right _ hx)

theorem ephFromProto_publics {m : PEphKey} {e : EphKey} (h : ephFromProto E m = some e) : ∀ x ∈ e.publics, x ∈ m.shown E := by
  unfold ephFromProto at h
  obtain ⟨id, k, s⟩ := m
  cases k with
  | none => simp at h
  | some k =>
    cases id with
    | none => simp at h
    | some id =>
      simp only [Option.bind_eq_some_iff, Option.map_eq_some_iff] at h
      obtain ⟨k', h1, s', h2, rfl⟩ := h
      intro x hx
      simp only [EphKey.publics, List.mem_cons] at hx
      simp only [PEphKey.shown, List.mem_append]
      rcases hx with rfl | hx
      · refine Or.inl ?_
        simp only [importPubs, optBytes]
        rw [h1]
        simp
      · refine Or.inr ?_
        cases s with
        | none =>
          cases h2
          simp at hx
        | some s =>
          simp only [optParse, Option.map_eq_some_iff] at h2
          obtain ⟨s'', h3, rfl⟩ := h2
          simp only [optBytes]
          rw [h3]
          simpa using hx

theorem chainFromProto_publics {m : PChain} {v : Chain} (h : chainFromProto E m = some v) : ∀ x ∈ v.publics, x ∈ m.shown E := by
  unfold chainFromProto at h
  obtain ⟨r, n⟩ := m
  cases r with
  | none => simp at h
  | some r =>
    cases n with
    | none => simp at h
    | some n =>
      simp only [Option.bind_eq_some_iff, Option.map_eq_some_iff] at h
      obtain ⟨r', h1, n', h2, rfl⟩ := h
      intro x hx
      simp only [chainCreate, Chain.publics, List.mem_append, Option.toList_none, List.not_mem_nil, or_false] at hx
      simp only [PChain.shown, Option.toList_some, List.flatMap_cons, List.flatMap_nil, List.append_nil, List.mem_append]
      rcases hx with hx | hx
      · exact Or.inl (identityFromProto_publics h1 x hx)
      · exact Or.inr (identityFromProto_publics h2 x hx)

/-! ### Nodes -/

theorem hNodeMake_spec (c : Rules) (f : Bool) (d ch : Addr) (q : Ptr) (b : Bytes) (v : Chain) (e : Option EphKey)
    (hb : c.pub b) (hv : ∀ x ∈ v.publics, c.pub x) (he : ∀ e', e = some e' → ∀ x ∈ e'.publics, c.pub x) :
    Triple c f (isBuf d b ∗ isChain ch v ∗ optRep isEph q e) (hNodeMake (some d) (some ch) q)
      (fun r f' => emp ∗ fresh isNode (nodeCreate b v e) r f') := by
  unfold hNodeMake nodeCreate
  cases e with
  | none =>
    cases q
    · vgo
    · dsimp only [optRep]
      sabsurd
  | some s =>
    have := he s rfl
    cases q
    · dsimp only [optRep]
      sabsurd
    · vgo

theorem hNodeFromProto_view (hE : E.Fits) (c : Rules) (f : Bool) (hc : c.crash) (h : Heap) (x : Addr) (m : PNode)
    (hx : Has isProto h x m.parts) (hp : ∀ p ∈ m.shown E, c.pub p) :
    Triple c f (keep h) (hNodeFromProto E (some x) m) (fun r f' => keep h ∗ gives isNode (nodeFromProto E m) r f') := by
  have n0 : Nth m.parts 0 (optBytes m.devid) := Nth.of rfl
  have hb : ∀ cm, m.idChain = some cm → ∀ i, i < 6 → m.parts[1 + i]? = cm.parts[i]? := by
    intro cm h i hi
    obtain ⟨d, ch, e⟩ := m
    dsimp only at h
    subst h
    obtain ⟨r, n⟩ := cm
    rcases i with _ | _ | _ | _ | _ | _ | i <;> first | (cases r <;> cases n <;> rfl) | omega
  have he : ∀ em, m.ephKey = some em → m.parts[7]? = some (optBytes em.ecKey) ∧ m.parts[7 + 1]? = some (optBytes em.keySig) := by
    intro em h
    obtain ⟨d, ch, e⟩ := m
    dsimp only at h
    subst h
    cases ch with
    | none => exact ⟨rfl, rfl⟩
    | some cm =>
      obtain ⟨r, n⟩ := cm
      cases r <;> cases n <;> exact ⟨rfl, rfl⟩
  obtain ⟨d, ch, e⟩ := m
  generalize PNode.parts _ = bs at *
  dsimp only at *
  unfold hNodeFromProto nodeFromProto
  dsimp only
  cases d with
  | none => vgo
  | some d =>
    have p0 : ∀ v, dup d = some v → c.pub v := fun v hv => by
      rw [(dup_eq_some.1 hv).2]
      exact hp d (by simp [PNode.shown, optBytes])
    dsimp only [optBytes] at n0
    sread hPart_view hx
    cases ch with
    | none => vgo
    | some cm =>
      have hb := hb cm rfl
      have p1 : ∀ p ∈ cm.shown E, c.pub p := fun p h => hp p (by simp [PNode.shown, h])
      have q1 : ∀ v, chainFromProto E cm = some v → ∀ p ∈ v.publics, c.pub p := fun v hv p h => p1 p (chainFromProto_publics hv p h)
      cases e with
      | none =>
        simp only [Option.map_some]
        clear hp he
        vgo
      | some em =>
        have p2 : ∀ p ∈ em.shown E, c.pub p := fun p h => hp p (by simp [PNode.shown, h])
        have q2 : ∀ v, ephFromProto E em = some v → ∀ p ∈ v.publics, c.pub p := fun v hv p h => p2 p (ephFromProto_publics hv p h)
        obtain ⟨h7, h8⟩ := he em rfl
        clear hp he
        dsimp only
        vgo

theorem hNodeFromBuffer_view (hE : E.Fits) (c : Rules) (f : Bool) (hc : c.crash) (h : Heap) (a : Addr) (b : Bytes)
    (hp : ∀ x ∈ nodeReadPubs E b, c.pub x) (ha : Has isBuf h a b) :
    Triple c f (keep h) (hNodeFromBuffer E (some a)) (fun r f' => keep h ∗ gives isNode (nodeFromBuffer E b) r f') := by
  have hp' : ∀ m, (fieldsDec b).bind PNode.unpack = some m → ∀ x ∈ m.parts ++ m.shown E, c.pub x := fun m hm x hx =>
    hp x (by unfold nodeReadPubs; rw [hm]; simpa using hx)
  refine hRead_view ha (fun m hm x hx => hp' m hm x (List.mem_append_left _ hx)) ?_
  intro f h x m hm hx
  exact hNodeFromProto_view hE c f hc h x m hx fun x hx => hp' m hm x (List.mem_append_right _ hx)

/-! ### Storage keys -/

theorem hStorageFromProto_view (c : Rules) (f : Bool) (hc : c.crash) (h : Heap) (x : Addr) (bs : List Bytes) (j : Nat)
    (m : PStorageKeys) (hx : Has isProto h x bs) (h0 : bs[j]? = some (optBytes m.localStorage))
    (h1 : bs[j + 1]? = some (optBytes m.remoteStorage)) :
    Triple c f (keep h) (hStorageFromProto (some x) j m) (fun r f' => keep h ∗ gives isStorage (storageFromProto m) r f') := by
  have n0 := Nth.of h0
  have n1 := Nth.of h1
  clear h0 h1
  obtain ⟨ver, l, r⟩ := m
  unfold hStorageFromProto storageFromProto
  cases l with
  | none => vgo
  | some l =>
    cases r with
    | none => vgo
    | some r =>
      dsimp only [optBytes] at *
      vgo

theorem hStorageFromBuffer_view (c : Rules) (f : Bool) (hc : c.crash) (h : Heap) (a : Addr) (b : Bytes)
    (hp : ∀ x ∈ storageReadPubs b, c.pub x) (ha : Has isBuf h a b) :
    Triple c f (keep h) (hStorageFromBuffer (some a)) (fun r f' => keep h ∗ gives isStorage (storageFromBuffer b) r f') := by
  refine hRead_view ha (fun m hm x hx => hp x (by unfold storageReadPubs; rw [hm]; simpa using hx)) ?_
  intro f h x m hm hx
  exact hStorageFromProto_view c f hc h x _ 0 m hx rfl rfl

/-! ### Contexts -/

theorem hCtxJoin_spec (hE : E.Fits) (c : Rules) (f : Bool) (hc : c.crash) (p q r : Addr) (d : DevInfo) (ch : Chain) (st : StorageKeys)
    (hk : HeaderOk E c ch) (hp : ∀ x ∈ ch.publics, c.pub x) :
    Triple c f (isDev p d ∗ isChain q ch ∗ isStorage r st) (hCtxJoin E (some p) (some q) (some r))
      (fun x f' => emp ∗ orSpills (isDev p d) isCtx (ctxCreate E d ch st) x f') := by
  unfold hCtxJoin
  refine Triple.onNullS (hCtxCreate_spec hE c f hc p q r d ch st hk) (by frame) ?_ ?_ ?_
  · intro f1 h1 h2
    sstep hChainDestroy_spec hp f1
    intro _ f2 h3
    sintro
    sstep hStorageDestroy_spec c r st f2
    intro _ f3 h4
    sintro
    have h5 : f3 = true := h4 (h3 h2)
    subst h5
    refine Triple.ret ?_
    dsimp only [orSpills]
    sentail
  · intro f1 h1 h2
    rw [h2]
    sstep hChainDestroy_spec hp f1
    intro _ f2 h3
    sintro
    sstep hStorageDestroy_spec c r st f2
    intro _ f3 h4
    sintro
    refine Triple.ret ?_
    dsimp only [orSpills]
    sentail
  · intro q f1 v h1 h2
    rw [h2]
    vgo

theorem hCtxFromProto_view (hE : E.Fits) (c : Rules) (f : Bool) (hc : c.crash) (h : Heap) (p x : Addr) (d : DevInfo) (m : PCtx)
    (hx : Has isProto h x m.parts) (hp : ∀ cm, m.idChain = some cm → ∀ y ∈ cm.shown E, c.pub y)
    (hk : ∀ cm ch, m.idChain = some cm → chainFromProto E cm = some ch → HeaderOk E c ch) :
    Triple c f (isDev p d ∗ keep h) (hCtxFromProto E (some p) (some x) m)
      (fun r f' => keep h ∗ orSpills (isDev p d) isCtx (ctxFromProto E d m) r f') := by
  have hb : ∀ cm, m.idChain = some cm → ∀ i, i < 6 → m.parts[2 + i]? = cm.parts[i]? := by
    intro cm h i hi
    obtain ⟨s, ch⟩ := m
    dsimp only at h
    subst h
    obtain ⟨r, n⟩ := cm
    rcases i with _ | _ | _ | _ | _ | _ | i <;> first | (cases s <;> cases r <;> cases n <;> rfl) | omega
  have hs : ∀ sm, m.storage = some sm → m.parts[0]? = some (optBytes sm.localStorage) ∧ m.parts[0 + 1]? = some (optBytes sm.remoteStorage) := by
    intro sm h
    obtain ⟨s, ch⟩ := m
    dsimp only at h
    subst h
    exact ⟨rfl, rfl⟩
  obtain ⟨s, ch⟩ := m
  generalize PCtx.parts _ = bs at *
  dsimp only at *
  unfold hCtxFromProto ctxFromProto
  dsimp only
  cases ch with
  | none => vgo
  | some cm =>
    cases s with
    | none => vgo
    | some sm =>
      have hb := hb cm rfl
      obtain ⟨h0, h1⟩ := hs sm rfl
      have p1 := hp cm rfl
      have q1 : ∀ v, chainFromProto E cm = some v → ∀ p ∈ v.publics, c.pub p := fun v hv p h => p1 p (chainFromProto_publics hv p h)
      have k1 := fun ch => hk cm ch rfl
      clear hp hk hs
      dsimp only
      vgo

theorem orSpills_mono {V : Type} {P : Asrt} {R : Addr → V → Asrt} {x : Option V} {r : Ptr} {f g : Bool} (h : f = true → g = true) :
    Asrt.le (orSpills P R x r f) (orSpills P R x r g) := by
  cases r with
  | none =>
    intro z hz
    obtain ⟨h1, h2⟩ := Asrt.pure_star.1 hz
    exact Asrt.pure_star.2 ⟨h1.imp_left h, Asrt.star_mono_r (Asrt.spill_mono h) h2⟩
  | some r => exact Asrt.le_refl _

/-- The same for an object that takes over another. -/
theorem hRead_adopts {M V : Type} {c : Rules} {f : Bool} {h : Heap} {a : Addr} {b : Bytes} {P : Asrt} {R : Addr → V → Asrt}
    {unpack : List Field → Option M} {parts : M → List Bytes} {mk : M → Option V} {go : Ptr → M → H Ptr}
    (ha : Has isBuf h a b) (hp : ∀ m, (fieldsDec b).bind unpack = some m → ∀ p ∈ parts m, c.pub p)
    (hgo : ∀ f h x m, (fieldsDec b).bind unpack = some m → Has isProto h x (parts m) →
      Triple c f (P ∗ keep h) (go (some x) m) (fun r f' => keep h ∗ orSpills P R (mk m) r f')) :
    Triple c f (P ∗ keep h) (hRead unpack parts go (some a))
      (fun r f' => keep h ∗ orSpills P R (((fieldsDec b).bind unpack).bind mk) r f') := by
  have none_of : ∀ (x : Option V) f, (f = true ∨ x = none) →
      Triple c f (P ∗ keep h) (Pure.pure none) (fun r f' => keep h ∗ orSpills P R x r f') := by
    intro x f hx
    refine Triple.ret fun y hy => ?_
    rw [Asrt.star_comm] at hy
    refine Asrt.star_mono_r (fun z hz => Asrt.pure_star.2 ⟨hx, ?_⟩) hy
    rw [← Asrt.star_emp P] at hz
    exact Asrt.star_mono_r (Asrt.emp_le_spill f) hz
  unfold hRead
  dsimp only
  sread readBuf_view ha
  cases hm : (fieldsDec b).bind unpack with
  | none => exact none_of _ _ (Or.inr rfl)
  | some m =>
    dsimp only
    rw [Option.bind_some]
    refine Triple.onNull' (hUnpack_spec c f (parts m) (hp m hm)) ?_ ?_
    · intro f1 _ hf
      exact none_of _ _ (Or.inl hf)
    · intro x f1 _
      refine Triple.lend (h := h) (P := isProto x (parts m)) (F := P) (by frame) fun h1 h' hx e s1 s2 => ?_
      sstep hgo f1 h' x m hm (Has.sub (has_of hx) s2)
      intro r f2 _
      refine Triple.giveBack (F := orSpills P R (mk m) r f2) e hx (by frame) ?_
      sstep hFreeUnpacked_spec c x (parts m) (hp m hm) f2
      intro _ f3 hf3
      sintro
      refine Triple.ret fun y hy => ?_
      have hy : (keep h ∗ orSpills P R (mk m) r f2) y := by
        revert hy
        revert y
        sentail
      exact Asrt.star_mono_r (orSpills_mono hf3) hy

theorem hCtxFromBuffer_spec (hE : E.Fits) (c : Rules) (f : Bool) (hc : c.crash) (h : Heap) (p a : Addr) (d : DevInfo) (b : Bytes)
    (hp : ∀ x ∈ ctxReadPubs E b, c.pub x) (ha : Has isBuf h a b) :
    Triple c f (isDev p d ∗ keep h) (hCtxFromBuffer E (some p) (some a))
      (fun r f' => keep h ∗ orSpills (isDev p d) isCtx (ctxFromBuffer E d b) r f') := by
  have hp' : ∀ m, (fieldsDec b).bind PCtx.unpack = some m → ∀ x ∈ m.parts ++ m.shown E, c.pub x :=
    fun m hm x hx => hp x (by unfold ctxReadPubs; rw [hm]; simpa using hx)
  refine hRead_adopts ha (fun m hm x hx => hp' m hm x (List.mem_append_left _ hx)) ?_
  intro f h x m hm hx
  refine hCtxFromProto_view hE c f hc h p x d m hx
    (fun cm e x hx => hp' m hm x (List.mem_append_right _ (by simp [PCtx.shown, e, hx]))) fun cm ch e e' y hy hl => ?_
  exact hp' m hm y (List.mem_append_right _ (by simp [PCtx.shown, e, e', headerPubs, hy, hl]))

theorem hCtxImportStorage_view (hE : E.Fits) (c : Rules) (f : Bool) (hc : c.crash) (h : Heap) (p q : Addr) (b pass : Bytes)
    (hw : ∀ m, kdfMetaFromBuffer b = some m → E.kdf m pass = none ∨ cipherResultFromBuffer (b.drop (kdfMetaSize b).toNat) ≠ none)
    (hp : ∀ x ∈ kdfDecipherPubs b pass, c.pub x) (hl : c.lax)
    (hr : ∀ d, kdfDecipher E b pass = some d → ∀ x ∈ storageReadPubs d, c.pub x)
    (hb : Has isBuf h p b) (hq : Has isBuf h q pass) :
    Triple c f (keep h) (hCtxImportStorage E (some p) (some q))
      (fun r f' => keep h ∗ givesN isStorage (ctxImportStorage E b pass) r f') := by
  unfold hCtxImportStorage ctxImportStorage
  dsimp only
  vgo

theorem hCtxImport_spec (hE : E.Fits) (c : Rules) (f : Bool) (hc : c.crash) (h : Heap) (a p q : Addr) (v : DevInfo) (b pass : Bytes)
    (hw : ∀ m, kdfMetaFromBuffer b = some m → E.kdf m pass = none ∨ cipherResultFromBuffer (b.drop (kdfMetaSize b).toNat) ≠ none)
    (hp : ∀ x ∈ kdfDecipherPubs b pass, c.pub x) (hl : c.lax)
    (hr : ∀ d, kdfDecipher E b pass = some d → ∀ x ∈ ctxReadPubs E d, c.pub x)
    (hb : Has isBuf h p b) (hq : Has isBuf h q pass) :
    Triple c f (isDev a v ∗ keep h) (hCtxImport E (some a) (some p) (some q))
      (fun r f' => keep h ∗ orSpills (isDev a v) isCtx (ctxImport E v b pass) r f') := by
  unfold hCtxImport ctxImport
  dsimp only
  refine Triple.onNullN (hKdfDecipher_view hE c f hc h p q b pass hw hp hl hb hq) (by frame) ?_ ?_ ?_
  · intro f1 h1 h2
    refine Triple.ret ?_
    dsimp only [orSpills]
    sentail
  · intro f1 h1 h2
    rw [h2]
    refine Triple.ret ?_
    dsimp only [orSpills]
    sentail
  · intro x f1 d h1 h2
    rw [h2, Option.bind_some]
    refine Triple.lend (h := h) (P := isBuf x d) (F := isDev a v) (by frame) fun h1 h' hx e s1 s2 => ?_
    sstep hCtxFromBuffer_spec hE c f1 hc h' a x v d (hr d h2) (Has.sub (has_of hx) s2)
    intro r f2 _
    refine Triple.giveBack (F := orSpills (isDev a v) isCtx (ctxFromBuffer E v d) r f2) e hx (by frame) ?_
    sstep hBufDestroyZero_spec f2
    intro _ f3 hf3
    sintro
    refine Triple.ret fun y hy => ?_
    have hy : (keep h ∗ orSpills (isDev a v) isCtx (ctxFromBuffer E v d) r f2) y := by
      revert hy
      revert y
      sentail
    exact Asrt.star_mono_r (orSpills_mono hf3) hy

end Wickr
