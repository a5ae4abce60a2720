import Verif.Lemmas.ReadBack
import Verif.Props.ComputeProto
/-
C94: objects written in one process and read in another, whatever the allocators of the two do.
-/
namespace Wickr
open Asrt Spec

variable {E : Engine}

/-- A message that was made, packed and read. -/
theorem pack_back {M V : Type} {pack : M → List Field} {unpack : List Field → Option M} {mk : Option M} {rd : M → Option V} {b : Bytes} {v : V}
    (law : ∀ m b, protoPack (pack m) = some b → (fieldsDec b).bind unpack = some m)
    (h1 : mk.bind (fun m => protoPack (pack m)) = some b) (h2 : ((fieldsDec b).bind unpack).bind rd = some v) :
    ∃ m, mk = some m ∧ rd m = some v := by
  obtain ⟨m, hm, hp⟩ := Option.bind_eq_some_iff.1 h1
  rw [law m b hp] at h2
  exact ⟨m, hm, h2⟩

/-- `wickr_identity_serialize` and `wickr_identity_create_from_buffer`: the public half of the identity. -/
theorem C94_identity (hF : E.Fits) (hE : E.Lawful) (a : Addr) (i : Identity) (h : WfIdentity E i) :
    ReadsBack (fun m => Has isId m a i) (fun _ => True) (IdButSig (publicHalf i)) (publicHalf i) isId (hIdSerialize (some a))
      (hIdFromBuffer E) := by
  obtain ⟨b₀, h1, h2⟩ := C44_identity_round_trip E hE i h
  refine ReadsBack.of (C86_identity_serialize a i) ⟨b₀, h1, h2⟩ (fun p b _ => Computes.weaken (C86_identity_parse hF p b) fun _ h => h.1) ?_
  obtain ⟨m₀, h3, h4⟩ := pack_back PIdentity.lawful.round_trip h1 h2
  rintro b u ⟨m, hw, hp⟩ hu
  unfold identityFromBuffer at hu
  rw [PIdentity.lawful.round_trip m b hp] at hu
  exact id_write_back_wf h h3 h4 hw hu

/-- `wickr_identity_chain_serialize`, and `wickr_identity_chain_serialize_private` for identities with private keys, with
`wickr_identity_chain_create_from_buffer`. -/
theorem C94_chain (hF : E.Fits) (hE : E.Lawful) (a : Addr) (c : Chain) (hr : WfIdentity E c.root) (hn : WfIdentity E c.node) :
    ReadsBack (fun m => Has isChain m a c) (fun _ => True) (ChainButSig (chainCreate (publicHalf c.root) (publicHalf c.node)))
      (chainCreate (publicHalf c.root) (publicHalf c.node)) isChain (hChainSerialize (some a) false) (hChainFromBuffer E) := by
  obtain ⟨b₀, h1, h2⟩ := C44_chain_round_trip E hE c hr hn
  refine ReadsBack.of (C86_chain_serialize a c false) ⟨b₀, h1, h2⟩ (fun p b _ => Computes.weaken (C86_chain_parse hF p b) fun _ h => h.1) ?_
  obtain ⟨m₀, h3, h4⟩ := pack_back PChain.lawful.round_trip h1 h2
  rintro b u ⟨m, hw, hp⟩ hu
  unfold chainFromBuffer at hu
  rw [PChain.lawful.round_trip m b hp] at hu
  exact chain_write_back hr hn h3 h4 hw hu

theorem C94_chain_private (hF : E.Fits) (hE : E.Lawful) (a : Addr) (c : Chain) (hr : WfIdentity E c.root) (hn : WfIdentity E c.node)
    (kr : E.KeyPair c.root.key) (kn : E.KeyPair c.node.key) (ht : c.root.type = .root ∧ c.root.sig = none ∧ c.node.type = .node) :
    ReadsBack (fun m => Has isChain m a c) (fun _ => True) (ChainButSig (chainCreate c.root c.node)) (chainCreate c.root c.node) isChain
      (hChainSerialize (some a) true) (hChainFromBuffer E) := by
  obtain ⟨b₀, h1, h2⟩ := C44_chain_private_round_trip E hE c hr hn kr kn ht
  refine ReadsBack.of (C86_chain_serialize a c true) ⟨b₀, h1, h2⟩ (fun p b _ => Computes.weaken (C86_chain_parse hF p b) fun _ h => h.1) ?_
  obtain ⟨m₀, h3, h4⟩ := pack_back PChain.lawful.round_trip h1 h2
  rintro b u ⟨m, hw, hp⟩ hu
  unfold chainFromBuffer at hu
  rw [PChain.lawful.round_trip m b hp] at hu
  exact chain_write_back hr hn h3 h4 hw hu

/-- `wickr_ephemeral_keypair_serialize` and `wickr_ephemeral_keypair_create_from_buffer`. -/
theorem C94_ephemeral (hF : E.Fits) (hE : E.Lawful) (a : Addr) (k : EphKey) (h : WfEph E k) :
    ReadsBack (fun m => Has isEph m a k) (fun _ => True) (EphButSig { k with key := { k.key with pri := none } })
      { k with key := { k.key with pri := none } } isEph (hEphSerialize (some a)) (hEphFromBuffer E) := by
  obtain ⟨b₀, h1, h2⟩ := C44_ephemeral_round_trip E hE k h
  refine ReadsBack.of (C86_ephemeral_serialize a k) ⟨b₀, h1, h2⟩ (fun p b _ => Computes.weaken (C86_ephemeral_parse hF p b) fun _ h => h.1) ?_
  obtain ⟨m₀, h3, h4⟩ := pack_back PEphKey.lawful.round_trip h1 h2
  rintro b u ⟨m, hw, hp⟩ hu
  unfold ephFromBuffer at hu
  rw [PEphKey.lawful.round_trip m b hp] at hu
  exact eph_write_back h h3 h4 hw hu

/-- `wickr_node_serialize` and `wickr_node_create_from_buffer`. -/
theorem C94_node (hF : E.Fits) (hE : E.Lawful) (a : Addr) (n : Node) (hd : 0 < n.devId.length ∧ n.devId.length ≤ 1000000)
    (hr : WfIdentity E n.chain.root) (hn : WfIdentity E n.chain.node) (hk : ∀ k, n.eph = some k → WfEph E k) :
    ReadsBack (fun m => Has isNode m a n) (fun _ => True)
      (NodeButSig (nodeCreate n.devId (chainCreate (publicHalf n.chain.root) (publicHalf n.chain.node))
        (n.eph.map fun k => { k with key := { k.key with pri := none } })))
      (nodeCreate n.devId (chainCreate (publicHalf n.chain.root) (publicHalf n.chain.node))
        (n.eph.map fun k => { k with key := { k.key with pri := none } }))
      isNode (hNodeSerialize (some a)) (hNodeFromBuffer E) := by
  obtain ⟨b₀, h1, h2⟩ := C44_node_round_trip E hE n hd hr hn hk
  refine ReadsBack.of (C86_node_serialize a n) ⟨b₀, h1, h2⟩ (fun p b _ => Computes.weaken (C86_node_parse hF p b) fun _ h => h.1) ?_
  obtain ⟨m₀, h3, h4⟩ := pack_back PNode.lawful.round_trip h1 h2
  rintro b u ⟨m, hw, hp⟩ hu
  unfold nodeFromBuffer at hu
  rw [PNode.lawful.round_trip m b hp] at hu
  exact node_write_back hr hn hk h3 h4 hw hu

theorem storage_back {k : StorageKeys} (hl : WfKey k.loc) (hr : WfKey k.rem) :
    ∃ b, (storageSerialize k).toOption = some b ∧ 0 < b.length ∧ b.length ≤ 126 ∧ storageFromBuffer b = some k := by
  have hmb := maxBuffer_val
  obtain ⟨p, p1, p2, p3, p4⟩ := storage_proto_round hl hr
  have hpk := protoPack_ok p3 (by omega)
  refine ⟨fieldsEnc p.pack, by simp [storageSerialize, p1, hpk, Res.ofOption, Res.toOption], fieldsEnc_pos p3, p2, ?_⟩
  unfold storageFromBuffer
  rw [PStorageKeys.lawful.round_trip p _ hpk]
  exact p4

/-- `wickr_storage_keys_serialize` and `wickr_storage_keys_create_from_buffer`: exactly the keys. -/
theorem C94_storage (a : Addr) (k : StorageKeys) (hl : WfKey k.loc) (hr : WfKey k.rem) :
    ReadsBack (fun m => Has isStorage m a k) (fun _ => True) (fun u => u = k) k isStorage (hStorageSerialize (some a)) hStorageFromBuffer := by
  obtain ⟨b₀, h1, -, -, h2⟩ := storage_back hl hr
  refine ReadsBack.of (Computes.among (C86_storage_serialize a k)) ⟨b₀, h1, h2⟩ (fun p b _ => Computes.weaken (C86_storage_parse p b) fun _ h => h.1) ?_
  rintro b u hb hu
  cases h1.symm.trans hb
  exact Option.some.inj (hu.symm.trans h2)

/-- Storage keys that were written can be read, even if allocations failed when they were written. -/
theorem C94_storage_readable (a : Addr) (k : StorageKeys) (hl : WfKey k.loc) (hr : WfKey k.rem) :
    KeepsReadable (fun m => Has isStorage m a k) (hStorageSerialize (some a)) hStorageFromBuffer := by
  obtain ⟨b₀, h1, -, -, h2⟩ := storage_back hl hr
  intro A s hf ha
  have := C86_storage_serialize a k A s hf ha
  revert this
  cases hStorageSerialize (some a) A s with
  | ub => exact fun _ => trivial
  | crash s' => exact fun _ => trivial
  | ret r s' =>
    cases r with
    | none => exact fun _ => trivial
    | some q =>
      rintro ⟨-, b, hb, ⟨b', rfl, hq⟩, -⟩
      cases h1.symm.trans hb
      refine ⟨b₀, hq, fun A' t p ht hp => ?_⟩
      have := C86_storage_parse p b₀ A' t ht hp
      revert this
      cases hStorageFromBuffer (some p) A' t with
      | ub => exact fun _ => trivial
      | crash s' => exact fun _ => trivial
      | ret r t' =>
        cases r with
        | some r => exact fun _ => trivial
        | none => exact fun h => h.2.1.elim id fun h => by rw [h2] at h; cases h

/-- `wickr_ctx_serialize` and `wickr_ctx_create_from_buffer`. -/
theorem C94_context (hF : E.Fits) (hE : E.Lawful) (a dp : Addr) (c : Ctx) (h : WfCtx E c) (d : DevInfo) :
    ReadsBackInto (fun m => Has isCtx m a c) (fun _ => True) (CtxButSig (stored c d)) (stored c d) isDev dp d isCtx (hCtxSerialize (some a))
      (hCtxFromBuffer E (some dp)) := by
  obtain ⟨b₀, h1, -, -, h2⟩ := ctx_round hE h d
  refine ReadsBackInto.of (C86_ctx_serialize a c) ⟨b₀, h1, h2⟩
    (fun p b _ => AdoptsFrom.weaken (C86_ctx_from_buffer hF dp p d b) fun _ h => h.1) ?_
  obtain ⟨m₀, h3, h4⟩ := pack_back PCtx.lawful.round_trip h1 h2
  rintro b u ⟨m, hw, hp⟩ hu
  unfold ctxFromBuffer at hu
  rw [PCtx.lawful.round_trip m b hp] at hu
  exact ctx_write_back h h3 h4 hw hu

theorem decipher_reads {b pass v : Bytes} (h : kdfDecipher E b pass = some v) :
    ∀ m, kdfMetaFromBuffer b = some m → E.kdf m pass = none ∨ cipherResultFromBuffer (b.drop (kdfMetaSize b).toNat) ≠ none := by
  intro m hm
  unfold kdfDecipher at h
  dsimp only at h
  split at h
  · cases h
  · rw [hm] at h
    simp only [Option.bind_some, Option.bind_eq_some_iff] at h
    obtain ⟨k, -, r, hr, -⟩ := h
    exact Or.inr (by rw [hr]; exact fun h => nomatch h)

/-- `wickr_ctx_export` and `wickr_ctx_import` with the same passphrase. -/
theorem C94_export (hF : E.Fits) (hE : E.Lawful) (a q dp q' : Addr) (c : Ctx) (h : WfCtx E c) (d : DevInfo) (pass rnd salt iv : Bytes)
    (hp : 0 < pass.length) (hpl : pass.length ≤ maxBuffer) (hs : salt.length = 16) (hiv : iv.length = 12) :
    ReadsBackInto (fun m => Has isCtx m a c ∧ Has isBuf m q pass) (fun m => Has isBuf m q' pass) (CtxButSig (stored c d)) (stored c d)
      isDev dp d isCtx (hCtxExport E (some a) (some q) rnd salt iv) (fun p => hCtxImport E (some dp) p (some q')) := by
  have hmb := maxBuffer_val
  obtain ⟨b₀, h1, h2, h2', h3⟩ := ctx_round hE h d
  have back : ∀ b r, 0 < b.length → b.length ≤ 4000 → kdfCipher E scrypt17 defaultCipher b pass salt iv = some r →
      kdfDecipher E r pass = some b := by
    intro b r hb hb' hr
    obtain ⟨out, _, o1, _, _, _, _, o2⟩ := C47_round_trip E hE scrypt17 (by simp [scrypts]) b pass salt iv hb (by omega) hp hpl hs hiv
    cases hr.symm.trans o1
    exact o2
  have forms : ∀ r, exportsOf E (packsOf (ctxWrites c) PCtx.pack) pass salt iv r →
      ∃ m b, ctxWrites c m ∧ protoPack m.pack = some b ∧ kdfDecipher E r pass = some b := by
    rintro r ⟨b, ⟨m, hw, hm⟩, hr⟩
    obtain ⟨hne, hl⟩ := ctx_write_size hE h hw
    have hpk := protoPack_ok hne (by omega)
    cases hm.symm.trans hpk
    exact ⟨m, _, hw, hpk, back _ r (fieldsEnc_pos hne) hl hr⟩
  obtain ⟨⟨out, o1, o2⟩, -⟩ := C48_context_export_import E hE c h d pass salt iv hp hpl hs hiv
  refine ReadsBackInto.of (val := fun r => ctxImport E d r pass) (C86_ctx_export hF a q c pass rnd salt iv ⟨by omega, by omega⟩ hs) ⟨out, o1, o2⟩ ?_ ?_
  · intro p r hr
    obtain ⟨m, b, -, -, hd⟩ := forms r hr
    exact C86_ctx_import_partial hF dp p q' d r pass (decipher_reads hd)
  · intro r u hr hu
    obtain ⟨m, b, hw, hm, hd⟩ := forms r hr
    obtain ⟨m₀, h4, h5⟩ := pack_back PCtx.lawful.round_trip h1 h3
    rw [ctxImport, hd, Option.bind_some, ctxFromBuffer, PCtx.lawful.round_trip m b hm] at hu
    exact ctx_write_back h h4 h5 hw hu

/-- `wickr_ctx_export_storage_keys` and `wickr_ctx_import_storage_keys` with the same passphrase: exactly the keys. -/
theorem C94_export_storage (hF : E.Fits) (hE : E.Lawful) (a q q' : Addr) (c : Ctx) (h : WfCtx E c) (pass rnd salt iv : Bytes)
    (hp : 0 < pass.length) (hpl : pass.length ≤ maxBuffer) (hs : salt.length = 16) (hiv : iv.length = 12) :
    ReadsBack (fun m => Has isCtx m a c ∧ Has isBuf m q pass) (fun m => Has isBuf m q' pass) (fun u => u = c.storage) c.storage isStorage
      (hCtxExportStorage E (some a) (some q) rnd salt iv) (fun p => hCtxImportStorage E p (some q')) := by
  have hmb := maxBuffer_val
  obtain ⟨-, out, o1, o2⟩ := C48_context_export_import E hE c h c.dev pass salt iv hp hpl hs hiv
  have o1 : (ctxExportStorage E c pass salt iv).toOption = some out := by rw [o1]; rfl
  refine ReadsBack.of (val := fun r => ctxImportStorage E r pass) (Computes.among (C86_ctx_export_storage hF a q c pass rnd salt iv ⟨by omega, by omega⟩ hs)) ⟨out, o1, o2⟩ ?_ ?_
  · intro p r hr
    cases o1.symm.trans hr
    refine C86_ctx_import_storage_partial hF p q' out pass ?_
    unfold ctxImportStorage at o2
    obtain ⟨v, hv, -⟩ := Option.bind_eq_some_iff.1 o2
    exact decipher_reads hv
  · rintro b u hb hu
    cases o1.symm.trans hb
    exact Option.some.inj (hu.symm.trans o2)

/-! ### There are such objects -/

example : WfCtx toyEngine (toyCtx 4) := toyCtx_wf 4
example : WfIdentity toyEngine toyChain.node ∧ WfIdentity toyEngine toyChain.root := ⟨(toyCtx_wf 4).nodeWf, (toyCtx_wf 4).rootWf⟩

theorem toyLongId_wf : WfIdentity toyEngine toyLongId :=
  ⟨by decide, by decide +kernel, fun _ => ⟨_, rfl, by decide, by decide⟩⟩

/-! ### What does not hold -/

/-- A run that writes, and then one that reads what was written with an allocator that does not fail, has a result that `probe` tells
from the value. -/
def reread (w : H Ptr) (rd : Ptr → H Ptr) (probe : Ptr → H Bool) (fail : List Nat) (s : St) : Bool :=
  match w (bump fail) s with
  | .ret (some q) s' => (rd (some q) (bump []) { s' with oom := false }).lacks probe (bump [])
  | _ => false

/-- A run that writes, and then one that reads what was written with an allocator that does not fail, has no result. -/
def unread (w : H Ptr) (rd : Ptr → H Ptr) (fail : List Nat) (s : St) : Bool :=
  match w (bump fail) s with
  | .ret (some q) s' =>
    match rd (some q) (bump []) { s' with oom := false } with
    | .ret none t => !t.oom
    | _ => false
  | _ => false

theorem idProbe (b : Addr) (t : IdType) (i : Bytes) (k : EcKey) (s : EcdsaResult) (n : Nat) (hv : s.sig.length = n) :
    Reads (isId b ⟨t, i, k, some s⟩)
    (do
      let s ← field (some b) 2
      let g ← field s 0
      let x ← scal g
      Pure.pure (match x with | .len m => decide (m ≠ n) | _ => false)) false := by
  subst hv
  intro c f
  sopen isId
  sopt
  dsimp only [optRep]
  sopen isSig
  sgo
  sopen isBuf
  sgo

/-- What was written without memory for the padding is read as an identity with another signature, one that lacks its beginning, although
memory is there when it is read. -/
theorem C94_signature_cut : ¬ ∀ x : Wr, ReadsBack (fun m => Has isId m x.id toyLongId) (fun _ => True) (fun u => u = publicHalf toyLongId)
    (publicHalf toyLongId) isId (hIdSerialize (some x.id)) (hIdFromBuffer toyEngine) := by
  intro h
  obtain ⟨x, s, h1, h2, h3⟩ := wrScene.run (P := fun x s => reread (hIdSerialize (some x.id)) (hIdFromBuffer toyEngine) (fun b => do
      let s ← field b 2
      let g ← field s 0
      let x ← scal g
      Pure.pure (match x with | .len m => decide (m ≠ 100) | _ => false)) [90] s) (by decide +kernel)
  have := h x (bump [90]) s h1 h2.id
  unfold reread at h3
  revert this h3
  cases hIdSerialize (some x.id) (bump [90]) s with
  | ub => exact fun h => nomatch h
  | crash s' => exact fun h => nomatch h
  | ret r s' =>
    cases r with
    | none => exact fun h => nomatch h
    | some q =>
      dsimp only
      rintro h3 ⟨b, hb, h⟩
      have := h (bump []) { s' with oom := false } q rfl ⟨hb, trivial⟩
      revert this h3
      cases hIdFromBuffer toyEngine (some q) (bump []) { s' with oom := false } with
      | ub => exact fun h => nomatch h
      | crash s' => exact fun h => nomatch h
      | ret r t =>
        cases r with
        | none => exact fun h => nomatch h
        | some r =>
          rintro h3 ⟨u, hu, rfl, -⟩
          exact lacks_not (S := isId) (y := publicHalf toyLongId) (fun b => idProbe b _ _ _ ⟨.p521, .sha512, List.replicate 100 7⟩ 100 rfl) hu h3

/-- Or it cannot be read at all: writing succeeded, but what was written is lost. -/
theorem C94_written_unreadable : ¬ ∀ x : Wr, KeepsReadable (fun m => Has isNode m x.node toyPeerNode) (hNodeSerialize (some x.node))
    (hNodeFromBuffer toyEngine) := by
  intro h
  obtain ⟨x, s, h1, h2, h3⟩ := wrScene.run (P := fun x s => unread (hNodeSerialize (some x.node)) (hNodeFromBuffer toyEngine) [97] s)
    (by decide +kernel)
  have := h x (bump [97]) s h1 h2.node
  unfold unread at h3
  revert this h3
  cases hNodeSerialize (some x.node) (bump [97]) s with
  | ub => exact fun h => nomatch h
  | crash s' => exact fun h => nomatch h
  | ret r s' =>
    cases r with
    | none => exact fun h => nomatch h
    | some q =>
      dsimp only
      rintro h3 ⟨b, hb, h⟩
      have := h (bump []) { s' with oom := false } q rfl hb
      revert this h3
      cases hNodeFromBuffer toyEngine (some q) (bump []) { s' with oom := false } with
      | ub => exact fun h => nomatch h
      | crash s' => exact fun h => nomatch h
      | ret r t =>
        cases r with
        | some r => exact fun h => nomatch h
        | none =>
          intro h3 h
          simp [h] at h3

end Wickr
