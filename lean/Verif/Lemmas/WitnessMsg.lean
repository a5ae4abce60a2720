import Verif.Lemmas.ViewSpecsMessage
import Verif.Lemmas.WitnessCtx
import Verif.Lemmas.RefuteMore
import Verif.Props.MessageWitness
/-
The toy parties in memory, and runs of functions whose arguments are several objects.
-/
namespace Wickr
open Asrt Spec

local macro "dead!" : term => `((do store none (Cell.raw 0); Pure.pure none : H Ptr))

/-- Short enough for the examples. -/
def Small (b : Bytes) : Prop := 0 < b.length ∧ b.length ≤ 1000
instance (b : Bytes) : Decidable (Small b) := by unfold Small; infer_instance

def litOpt : Option Bytes → H Ptr
  | none => pure none
  | some b => litBuf b

def litKey (k : EcKey) : H Ptr := do
  let b ← litBuf k.pub
  let p ← litOpt k.pri
  hKeyCreate k.curve b p

theorem litKey_spec (c : Rules) (f : Bool) (hc : c.crash) (k : EcKey) (h1 : Small k.pub) (h2 : ∀ b, k.pri = some b → Small b) :
    Triple c f emp (litKey k) (fun r _ => made isKey k r) := by
  obtain ⟨cv, pub, pri⟩ := k
  unfold litKey
  unfold Small at h1 h2
  dsimp only at *
  cases pri with
  | none => unfold litOpt; sgo
  | some p =>
    have h2 := h2 p rfl
    unfold litOpt
    sgo

def litSig (s : EcdsaResult) : H Ptr := do
  let b ← litBuf s.sig
  hSigCreate s.curve s.digest b

theorem litSig_spec (c : Rules) (f : Bool) (hc : c.crash) (s : EcdsaResult) (h1 : Small s.sig) :
    Triple c f emp (litSig s) (fun r _ => made isSig s r) := by
  obtain ⟨cv, d, b⟩ := s
  unfold litSig
  unfold Small at h1
  dsimp only at *
  sgo

def litId (i : Identity) : H Ptr := do
  let b ← litBuf i.identifier
  let k ← litKey i.key
  let s ← match i.sig with
    | none => pure none
    | some s => litSig s
  onNull (hIdCreate i.type b k s) dead! fun p => pure p

def Identity.Small (i : Identity) : Prop :=
  (0 < i.identifier.length ∧ i.identifier.length < 128) ∧ Wickr.Small i.key.pub ∧ (∀ b, i.key.pri = some b → Wickr.Small b) ∧ ∀ s, i.sig = some s → Wickr.Small s.sig

theorem litId_spec (c : Rules) (f : Bool) (hc : c.crash) (i : Identity) (h : i.Small) :
    Triple c f emp (litId i) (fun r _ => made isId i r) := by
  obtain ⟨t, b, k, s⟩ := i
  obtain ⟨h1, h2, h3, h4⟩ := h
  have h1' : b.length < 128 := h1.2
  have h1 : 0 < b.length ∧ b.length ≤ 1000 := ⟨h1.1, by have := h1.2; dsimp only at this; omega⟩
  unfold litId
  dsimp only at *
  cases s with
  | none => dsimp only; sgo
  | some s =>
    have h4 := h4 s rfl
    dsimp only
    sgo

def litChain (ch : Chain) : H Ptr := do
  let r ← litId ch.root
  let n ← litId ch.node
  onNull (hChainCreate r n) dead! fun p => pure p

theorem litChain_spec (c : Rules) (f : Bool) (hc : c.crash) (r n : Identity) (h : r.Small) (h' : n.Small) :
    Triple c f emp (litChain (chainCreate r n)) (fun r' _ => made isChain (chainCreate r n) r') := by
  unfold litChain chainCreate
  sgo

def litNode (v : Node) (e : EphKey) (s : EcdsaResult) : H Ptr := do
  let d ← litBuf v.devId
  let ch ← litChain v.chain
  let k ← litKey e.key
  let g ← litSig s
  onNull (hEphCreate e.identifier k g) dead! fun e => onNull (hNodeCreate d ch e) dead! fun p => pure p

theorem litNode_spec (c : Rules) (f : Bool) (hc : c.crash) (d : Bytes) (r n : Identity) (i : UInt64) (k : EcKey) (s : EcdsaResult)
    (h1 : Small d) (h2 : r.Small) (h3 : n.Small) (h4 : Small k.pub) (h5 : ∀ b, k.pri = some b → Small b) (h6 : Small s.sig) :
    Triple c f emp (litNode (nodeCreate d (chainCreate r n) (some ⟨i, k, some s⟩)) ⟨i, k, some s⟩ s)
      (fun r' _ => made isNode (nodeCreate d (chainCreate r n) (some ⟨i, k, some s⟩)) r') := by
  unfold litNode nodeCreate
  unfold Small at h1
  dsimp only
  sgo

def litCKey (k : CipherKey) : H Ptr := do
  let b ← litBuf k.key
  hCKeyCreate k.cipher b

theorem litCKey_spec (c : Rules) (f : Bool) (hc : c.crash) (k : CipherKey) (h1 : Small k.key) (hl : k.key.length = k.cipher.keyLen) :
    Triple c f emp (litCKey k) (fun r _ => made isCKey k r) := by
  obtain ⟨ci, b⟩ := k
  unfold litCKey
  unfold Small at h1
  dsimp only at *
  sgo

def litCRes (r : CipherResult) (ct : Bytes) : H Ptr := do
  let i ← litBuf r.iv
  let b ← litBuf ct
  let t ← litOpt r.tag
  hCResCreate r.cipher i b t

theorem litCRes_spec (c : Rules) (f : Bool) (hc : c.crash) (ci : Cipher) (iv ct : Bytes) (tag : Option Bytes) (h1 : Small iv) (h2 : Small ct)
    (h3 : ∀ b, tag = some b → Small b) (ho : CipherResult.Ok ⟨ci, iv, some ct, tag⟩) :
    Triple c f emp (litCRes ⟨ci, iv, some ct, tag⟩ ct) (fun r _ => made isCRes ⟨ci, iv, some ct, tag⟩ r) := by
  unfold litCRes
  unfold Small at h1 h2 h3
  dsimp only at *
  cases tag with
  | none => unfold litOpt; sgo
  | some t =>
    have h3 := h3 t rfl
    unfold litOpt
    sgo

/-! ### The objects -/

/-- The exchange, the sealed payload, the set and the packet for the peer. -/
abbrev toyExCt : Bytes := [193] ++ List.replicate 31 200 ++ [192]
abbrev toyEx : KeyExchange := ⟨[4, 4], 77, ⟨.ctr, List.replicate 16 0, some toyExCt, none⟩⟩
abbrev toySealedCt : Bytes := [99, 116, 115, 125, 113, 124, 105, 127, 107, 122, 120, 123, 122, 97, 126, 91, 122, 115, 109, 103]
abbrev toySealed : CipherResult := ⟨.gcm, List.replicate 12 5, some toySealedCt, some (List.replicate 16 107)⟩
abbrev toySet : KeyExchangeSet := ⟨⟨.p521, [0, 41], none⟩, [some toyEx]⟩
abbrev toyParse : ParseResult := ⟨.success, .valid, some toySet, some toyEx, some toySealed⟩
def toyContent : Bytes := [10, 93, 0] ++ List.replicate 12 4 ++ List.replicate 16 254 ++
  [203, 195, 193, 232, 211, 251, 203, 195, 197, 197, 209, 140, 219, 243, 192] ++ List.replicate 16 193 ++ [0] ++ List.replicate 31 9 ++
  [1, 18, 49, 0] ++ List.replicate 12 5 ++ List.replicate 16 107 ++ toySealedCt
def toyMsg : Msg := ⟨4, toyContent, ⟨.p521, .sha512, [7, 3, 144]⟩⟩
abbrev toyWire : Bytes := (toyPacket 4 [some toyPeerNode]).getD []
/-- The sender as the peer knows them, without private keys. -/
abbrev toySender : Chain := chainCreate ⟨.root, [1], ⟨.p521, [0, 5], none⟩, none⟩
  ⟨.node, [2], ⟨.p521, [0, 7], none⟩, some ⟨.p521, .sha512, [5, 3, 168]⟩⟩
abbrev toyReader : Ctx := ⟨toyPeerDev, toyPeer, toyStorage, (genHeaderKey toyEngine .gcm toyPeer).getD ⟨.gcm, []⟩, 4⟩
/-- The peer with the private keys. -/
abbrev toyOwn : Node := nodeCreate [8, 8] toyPeer (some ⟨77, toyKey 31, some (toyEphSig 23 31)⟩)

example : toyWire.length = 291 ∧ ctxParse toyEngine toyReader toyWire (some toySender) = .ok ⟨toyMsg, toySender, toyParse⟩ ∧
    ctxDecode toyEngine toyReader ⟨toyMsg, toySender, toyParse⟩ (some (toyKey 31)) = .ok ⟨.success, some toyPayload, some toyPk⟩ := by
  decide +kernel

def litExCt : H Ptr := litCRes toyEx.ct toyExCt

theorem litExCt_spec (c : Rules) (f : Bool) (hc : c.crash) : Triple c f emp litExCt (fun r _ => made isCRes toyEx.ct r) :=
  litCRes_spec c f hc .ctr (List.replicate 16 0) toyExCt none (by decide) (by decide) (by intro b h; cases h)
    ⟨by decide, by decide, by intro t h; cases h⟩

def litEx : H Ptr := do
  let b ← litBuf [4, 4]
  let r ← litExCt
  hExCreate b 77 r

theorem litEx_spec (c : Rules) (f : Bool) (hc : c.crash) : Triple c f emp litEx (fun r _ => made isEx toyEx r) := by
  unfold litEx
  sgo

def litSealed : H Ptr := litCRes toySealed toySealedCt

theorem litSealed_spec (c : Rules) (f : Bool) (hc : c.crash) : Triple c f emp litSealed (fun r _ => made isCRes toySealed r) :=
  litCRes_spec c f hc .gcm (List.replicate 12 5) toySealedCt _ (by decide) (by decide) (by intro b h; cases h; decide)
    ⟨by decide, by decide, by intro t h; cases h; decide⟩

def litExs : H Ptr := do
  let x ← litEx
  litArr x

theorem litExs_spec (c : Rules) (f : Bool) (hc : c.crash) : Triple c f emp litExs (fun r _ => made (isArr isEx) [some toyEx] r) := by
  unfold litExs
  sgo

def litSenderPub : H Ptr := litKey toySet.senderPub

theorem litSenderPub_spec (c : Rules) (f : Bool) (hc : c.crash) : Triple c f emp litSenderPub (fun r _ => made isKey toySet.senderPub r) :=
  litKey_spec c f hc _ (by decide) (by intro b h; cases h)

def litSet : H Ptr := do
  let k ← litSenderPub
  let x ← litExs
  onNull (hSetCreate k x) dead! fun p => pure p

theorem litSet_spec (c : Rules) (f : Bool) (hc : c.crash) : Triple c f emp litSet (fun r _ => made isSet toySet r) := by
  unfold litSet
  sgo

def litParse : H Ptr := do
  let s ← litSet
  let x ← litEx
  let r ← litSealed
  onNull (hParseCreate s x r .valid .success) dead! fun p => pure p

theorem litParse_spec (c : Rules) (f : Bool) (hc : c.crash) : Triple c f emp litParse (fun r _ => made isParse toyParse r) := by
  unfold litParse
  sgo

def litMsgSig : H Ptr := litSig toyMsg.sig

theorem litMsgSig_spec (c : Rules) (f : Bool) (hc : c.crash) : Triple c f emp litMsgSig (fun r _ => made isSig toyMsg.sig r) :=
  litSig_spec c f hc _ (by decide)

def litMsgOf (b : Bytes) : H Ptr := do
  let b ← litBuf b
  let g ← litMsgSig
  onNull (hPacketCreate 4 b g) dead! fun p => pure p

theorem litMsgOf_spec (c : Rules) (f : Bool) (hc : c.crash) (b : Bytes) (h : Small b) :
    Triple c f emp (litMsgOf b) (fun r _ => made isPacket ⟨4, b, toyMsg.sig⟩ r) := by
  unfold litMsgOf
  unfold Small at h
  sgo

def litMsg : H Ptr := litMsgOf toyContent

theorem toyContent_small : Small toyContent := by decide +kernel

set_option maxRecDepth 20000 in
theorem litMsg_spec (c : Rules) (f : Bool) (hc : c.crash) : Triple c f emp litMsg (fun r _ => made isPacket toyMsg r) := by
  have := litMsgOf_spec c f hc toyContent toyContent_small
  unfold litMsg
  have e : toyMsg = ⟨4, toyContent, toyMsg.sig⟩ := rfl
  rw [e]
  exact this

def litSender : H Ptr := litChain toySender

theorem litSender_spec (c : Rules) (f : Bool) (hc : c.crash) : Triple c f emp litSender (fun r _ => made isChain toySender r) :=
  litChain_spec c f hc _ _ ⟨by decide, by decide, fun _ h => (nomatch h), by intro s h; cases h⟩
    ⟨by decide, by decide, fun _ h => (nomatch h), by intro s h; cases h; decide⟩

def litSelf : H Ptr := litChain toyChain

theorem litSelf_spec (c : Rules) (f : Bool) (hc : c.crash) : Triple c f emp litSelf (fun r _ => made isChain toyChain r) :=
  litChain_spec c f hc _ _ ⟨by decide, by decide, by intro b h; cases h; decide, by intro s h; cases h⟩
    ⟨by decide, by decide, by intro b h; cases h; decide, by intro s h; cases h; decide⟩

def litPeer : H Ptr := litChain toyPeer

theorem litPeer_spec (c : Rules) (f : Bool) (hc : c.crash) : Triple c f emp litPeer (fun r _ => made isChain toyPeer r) :=
  litChain_spec c f hc _ _ ⟨by decide, by decide, by intro b h; cases h; decide, by intro s h; cases h⟩
    ⟨by decide, by decide, by intro b h; cases h; decide, by intro s h; cases h; decide⟩

def litPeerNode : H Ptr := litNode toyPeerNode ⟨77, { toyKey 31 with pri := none }, some (toyEphSig 23 31)⟩ (toyEphSig 23 31)

theorem litPeerNode_spec (c : Rules) (f : Bool) (hc : c.crash) : Triple c f emp litPeerNode (fun r _ => made isNode toyPeerNode r) :=
  litNode_spec c f hc [8, 8] (publicHalf toyPeer.root) (publicHalf toyPeer.node) 77 { toyKey 31 with pri := none } (toyEphSig 23 31) (by decide)
    ⟨by decide, by decide, fun _ h => (nomatch h), by intro s h; cases h⟩
    ⟨by decide, by decide, fun _ h => (nomatch h), by intro s h; cases h; decide⟩ (by decide) (by intro b h; cases h) (by decide)

def litOwn : H Ptr := litNode toyOwn ⟨77, toyKey 31, some (toyEphSig 23 31)⟩ (toyEphSig 23 31)

theorem litOwn_spec (c : Rules) (f : Bool) (hc : c.crash) : Triple c f emp litOwn (fun r _ => made isNode toyOwn r) :=
  litNode_spec c f hc [8, 8] toyPeer.root toyPeer.node 77 (toyKey 31) (toyEphSig 23 31) (by decide)
    ⟨by decide, by decide, by intro b h; cases h; decide, by intro s h; cases h⟩
    ⟨by decide, by decide, by intro b h; cases h; decide, by intro s h; cases h; decide⟩ (by decide) (by intro b h; cases h; decide) (by decide)

def litPk : H Ptr := litCKey toyPk

theorem litPk_spec (c : Rules) (f : Bool) (hc : c.crash) : Triple c f emp litPk (fun r _ => made isCKey toyPk r) :=
  litCKey_spec c f hc _ (by decide) (by decide)

def litToyPayload : H Ptr := do
  let b ← litBuf [1, 2, 3]
  let i ← hInfoCreate 5 6 b 7
  let b ← litBuf [10, 20, 30]
  onNull (hPayloadCreate i b) dead! fun p => pure p

theorem litToyPayload_spec (c : Rules) (f : Bool) (hc : c.crash) :
    Triple c f emp litToyPayload (fun r _ => made isPayload toyPayload r) := by
  unfold litToyPayload toyPayload
  sgo

def litDev (x y z w : Bytes) : H Ptr := do
  let p ← litBuf x
  let q ← litBuf y
  let r ← litBuf z
  let t ← litBuf w
  onNull (hDevCreate p q r t) dead! fun p => pure p

theorem litDev_spec (c : Rules) (f : Bool) (hc : c.crash) (x y z w : Bytes) (h1 : Small x) (h2 : Small y) (h3 : Small z) (h4 : Small w) :
    Triple c f emp (litDev x y z w) (fun r _ => made isDev ⟨x, some y, z, w⟩ r) := by
  unfold litDev
  unfold Small at h1 h2 h3 h4
  sgo

def litToyDev : H Ptr := litDev [1, 1] [2] [9, 9] [3]
theorem litToyDev_spec (c : Rules) (f : Bool) (hc : c.crash) : Triple c f emp litToyDev (fun r _ => made isDev toyDev r) :=
  litDev_spec c f hc _ _ _ _ (by decide) (by decide) (by decide) (by decide)

def litPeerDev : H Ptr := litDev [1, 2] [2] [8, 8] [3]
theorem litPeerDev_spec (c : Rules) (f : Bool) (hc : c.crash) : Triple c f emp litPeerDev (fun r _ => made isDev toyPeerDev r) :=
  litDev_spec c f hc _ _ _ _ (by decide) (by decide) (by decide) (by decide)

def litStorage : H Ptr := do
  let k ← mkToyCKey 1
  let l ← mkToyCKey 2
  onNull (hStorageCreate k l) dead! fun p => pure p

theorem litStorage_spec (c : Rules) (f : Bool) (hc : c.crash) : Triple c f emp litStorage (fun r _ => made isStorage toyStorage r) := by
  unfold litStorage toyStorage
  sgo

theorem litCtx_spec (c : Rules) (f : Bool) (hc : c.crash) (p q r : Addr) (d : DevInfo) (ch : Chain) (st : StorageKeys)
    (hl : ((toyEngine.digest ch.root.identifier (some ch.node.identifier) (digestMatchingCipher defaultCipher)).map
      List.length).all (· = defaultCipher.keyLen) = true)
    (hg : genHeaderKey toyEngine defaultCipher ch = some ((genHeaderKey toyEngine .gcm ch).getD ⟨.gcm, []⟩)) :
    Triple c f (isDev p d ∗ isChain q ch ∗ isStorage r st) (onNull (hCtxCreate toyEngine (some p) (some q) (some r)) dead! fun p => pure p)
      (fun r _ => made isCtx ⟨d, ch, st, (genHeaderKey toyEngine .gcm ch).getD ⟨.gcm, []⟩, 4⟩ r) := by
  refine Triple.onNullS (hCtxCreate_spec toyEngine_fits c _ hc _ _ _ _ _ _ ?_) (by frame) ?_ ?_ ?_
  · intro x hx h
    simp [hx, h] at hl
  · intro f1 _ _; sgo
  · intro f1 _ hn
    simp [ctxCreate, hg] at hn
  · intro q f1 v _ hv
    simp only [ctxCreate, hg, Option.map_some, Option.some.injEq] at hv
    subst hv
    sgo

def litSenderCtx : H Ptr := do
  let d ← litToyDev
  let ch ← litSelf
  let st ← litStorage
  onNull (hCtxCreate toyEngine d ch st) dead! fun p => pure p

theorem litSenderCtx_spec (c : Rules) (f : Bool) (hc : c.crash) : Triple c f emp litSenderCtx (fun r _ => made isCtx (toyCtx 4) r) := by
  unfold litSenderCtx
  sgo
  refine Triple.conseq (litCtx_spec c _ hc _ _ _ _ _ _ (by decide +kernel) (by decide +kernel)) (by sentail) (fun _ _ _ _ h => h)

def litReader : H Ptr := do
  let d ← litPeerDev
  let ch ← litPeer
  let st ← litStorage
  onNull (hCtxCreate toyEngine d ch st) dead! fun p => pure p

theorem litReader_spec (c : Rules) (f : Bool) (hc : c.crash) : Triple c f emp litReader (fun r _ => made isCtx toyReader r) := by
  unfold litReader
  sgo
  refine Triple.conseq (litCtx_spec c _ hc _ _ _ _ _ _ (by decide +kernel) (by decide +kernel)) (by sentail) (fun _ _ _ _ h => h)

def litCtxPacket : H Ptr := do
  let m ← litMsg
  let s ← litSender
  let r ← litParse
  onNull (hCtxPacketCreate m s r) dead! fun p => pure p

set_option maxRecDepth 20000 in
theorem litCtxPacket_spec (c : Rules) (f : Bool) (hc : c.crash) :
    Triple c f emp litCtxPacket (fun r _ => made isCtxPacket ⟨toyMsg, toySender, toyParse⟩ r) := by
  have hm := fun f => litMsg_spec c f hc
  unfold litCtxPacket
  generalize toyMsg = m at *
  generalize litMsg = l at *
  smade hm f
  intro p f1 _
  sgo
