import Verif.Model.Identity
/-
Model of ephemeral_keypair.c, ephemeral_keypair_priv.c, node.c and node_priv.c.
-/
namespace Wickr

/-- ephemeral_keypair.h `wickr_ephemeral_keypair_t`. -/
structure EphKey where
  identifier : UInt64
  key : EcKey
  sig : Option EcdsaResult
deriving Repr, DecidableEq

/-- ephemeral_keypair.c:25-48 `wickr_ephemeral_keypair_generate_identity` (`newKey` is the key drawn
at line 27). -/
def ephGenerate (E : Engine) (identifier : UInt64) (i : Identity) (newKey : EcKey) (nonce : Bytes) :
    Option EphKey :=
  (identitySign E i newKey.pub nonce).map fun s => ⟨identifier, newKey, some s⟩

/-- ephemeral_keypair.c:50-53 `wickr_ephemeral_keypair_make_public`. -/
def ephMakePublic (k : EphKey) : EphKey := { k with key := { k.key with pri := none } }

/-- ephemeral_keypair.c:55-82 `wickr_ephemeral_keypair_copy`. -/
def ephCopy (k : EphKey) : Option EphKey :=
  (ecKeyCopy k.key).bind fun e =>
    match k.sig with
    | none => some ⟨k.identifier, e, none⟩
    | some s => (ecdsaCopy s).map fun s => ⟨k.identifier, e, some s⟩

/-- ephemeral_keypair.c:84-91 `wickr_ephemeral_keypair_verify_owner` (possibly NULL keypair). -/
def ephVerifyOwner (E : Engine) (k : Option EphKey) (owner : Identity) : Bool :=
  match k with
  | none => false
  | some k => E.verifyOpt k.sig owner.key k.key.pub

/-- ephemeral_keypair_priv.c:21-64 `wickr_ephemeral_keypair_to_proto`. -/
def ephToProto (k : EphKey) : Option PEphKey :=
  match k.sig with
  | none => some ⟨some k.identifier, some k.key.pub, none⟩
  | some s => (ecdsaSerialize s).map fun b => ⟨some k.identifier, some k.key.pub, some b⟩

/-- ephemeral_keypair_priv.c:66-102 `wickr_ephemeral_keypair_create_from_proto`. -/
def ephFromProto (E : Engine) (p : PEphKey) : Option EphKey :=
  match p.ecKey, p.identifier with
  | some kb, some id =>
    (E.ecImport kb false).bind fun k =>
      (optParse ecdsaFromBuffer p.keySig).map fun s => ⟨id, k, s⟩
  | _, _ => none

/-- ephemeral_keypair.c:105-130 `wickr_ephemeral_keypair_serialize`. -/
def ephSerialize (k : EphKey) : Option Bytes := (ephToProto k).bind fun p => protoPack p.pack

/-- ephemeral_keypair.c:132-148 `wickr_ephemeral_keypair_create_from_buffer`. -/
def ephFromBuffer (E : Engine) (b : Bytes) : Option EphKey :=
  ((fieldsDec b).bind PEphKey.unpack).bind (ephFromProto E)

/-- node.h `wickr_node_t`. -/
structure Node where
  devId : Bytes
  chain : Chain
  eph : Option EphKey
  status : Status
  cache : Option Bytes
deriving Repr, DecidableEq

/-- node.c:9-26 `wickr_node_create` (non-NULL arguments). -/
def nodeCreate (devId : Bytes) (c : Chain) (k : Option EphKey) : Node := ⟨devId, c, k, .unknown, none⟩

/-- node.c:28-50 `wickr_node_rotate_keypair` (non-NULL keypair); the status cache is kept. -/
def nodeRotate (n : Node) (k : EphKey) (copy : Bool) : Node × Bool :=
  if copy then
    match ephCopy k with
    | none => ({ n with eph := none, status := .unknown }, false)
    | some k => ({ n with eph := some k, status := .unknown }, true)
  else ({ n with eph := some k, status := .unknown }, true)

/-- node_priv.c:104-138 `wickr_node_make_status_cache`. -/
def nodeStatusCache (E : Engine) (n : Node) : Option Bytes :=
  match n.eph with
  | none => none
  | some k =>
    match k.sig, n.chain.cache with
    | some s, some _ =>
      (concatMulti [some k.key.pub, some s.sig, some [n.status.byte]]).bind
        fun b => E.digest b none .sha512
    | _, _ => none

/-- node_priv.c:140-159 `wickr_node_has_valid_cache`. -/
def nodeHasValidCache (E : Engine) (n : Node) : Bool :=
  match n.cache with
  | none => false
  | some _ => if chainHasValidCache E n.chain then bufIsEqual (nodeStatusCache E n) n.cache none else false

/-- node_priv.c:161-165 `wickr_node_update_status_cache`. -/
def nodeUpdateCache (E : Engine) (n : Node) : Node := { n with cache := nodeStatusCache E n }

/-- node.c:52-77 `wickr_node_verify_signature_chain`: the new state and the answer. -/
def nodeVerify (E : Engine) (n : Node) : Node × Bool :=
  if nodeHasValidCache E n then (n, decide (n.status = .valid))
  else
    let (c, ok) := chainValidate E n.chain
    if !ok then (nodeUpdateCache E { n with chain := c, status := .invalid }, false)
    else
      let st := if ephVerifyOwner E n.eph c.node then Status.valid else Status.invalid
      (nodeUpdateCache E { n with chain := c, status := st },
        decide (st = .valid) && decide (c.status = .valid))

/-- node.c:79-129 `wickr_node_copy`. -/
def nodeCopy (n : Node) : Option Node :=
  (dup n.devId).bind fun d => (chainCopy n.chain).bind fun c =>
    (match n.eph with
      | none => some none
      | some k => (ephCopy k).map some).bind fun k =>
    (dupOpt n.cache).map fun h => ⟨d, c, k, n.status, h⟩

/-- node_priv.c:21-56 `wickr_node_to_proto`. -/
def nodeToProto (n : Node) : Option PNode :=
  (match n.eph with
    | none => some none
    | some k => (ephToProto k).map some).bind fun k =>
  (chainBuildProto n.chain false).map fun c => ⟨some n.devId, some c, k⟩

/-- node_priv.c:58-102 `wickr_node_create_from_proto`. -/
def nodeFromProto (E : Engine) (p : PNode) : Option Node :=
  match p.devid, p.idChain with
  | some d, some c =>
    (dup d).bind fun d => (chainFromProto E c).bind fun c =>
      (match p.ephKey with
        | none => some none
        | some k => (ephFromProto E k).map some).map fun k => nodeCreate d c k
  | _, _ => none

/-- node.c:175-200 `wickr_node_serialize`. -/
def nodeSerialize (n : Node) : Option Bytes := (nodeToProto n).bind fun p => protoPack p.pack

/-- node.c:202-218 `wickr_node_create_from_buffer`. -/
def nodeFromBuffer (E : Engine) (b : Bytes) : Option Node :=
  ((fieldsDec b).bind PNode.unpack).bind (nodeFromProto E)

end Wickr
