import Verif.Model.Engine
import Verif.Model.Proto
/-
Model of identity.c and identity_priv.c.

Objects are values: `destroy` and aliasing are not modelled.  Random values (identifiers, signature
nonces, keys) are arguments.
-/
namespace Wickr

/-- identity.h:45: `IDENTITY_TYPE_ROOT`, `IDENTITY_TYPE_NODE`. -/
inductive IdType where
  | root
  | node
deriving Repr, DecidableEq

/-- identity.proto `Type`: ROOT = 0, NODE = 1. -/
def IdType.protoId : IdType → UInt32
  | .root => 0
  | .node => 1

/-- identity.h:53-59 `wickr_identity_t`. -/
structure Identity where
  type : IdType
  identifier : Bytes
  key : EcKey
  sig : Option EcdsaResult
deriving Repr, DecidableEq

/-- identity.h:66: `UNKNOWN = 0`, `VALID = 1`, `INVALID = 2`; node.h:57-61 has the same values for
`wickr_node_status`. -/
inductive Status where
  | unknown
  | valid
  | invalid
deriving Repr, DecidableEq

/-- The byte a status is hashed as (identity_priv.c:253, node_priv.c:112). -/
def Status.byte : Status → UInt8
  | .unknown => 0
  | .valid => 1
  | .invalid => 2

/-- identity.h:68-80 `wickr_identity_chain_t`. -/
structure Chain where
  root : Identity
  node : Identity
  status : Status
  cache : Option Bytes
deriving Repr, DecidableEq

/-- identity.c:6-24 `wickr_identity_create`. -/
def identityCreate (type : IdType) (identifier : Bytes) (key : EcKey) (sig : Option EcdsaResult) :
    Option Identity :=
  if identifier.length ≥ 128 then none else some ⟨type, identifier, key, sig⟩

/-- identity.c:26-33 `wickr_identity_sign`. -/
def identitySign (E : Engine) (i : Identity) (data nonce : Bytes) : Option EcdsaResult :=
  match i.key.pri with
  | none => none
  | some _ => E.sign i.key data .sha512 nonce

/-- identity.c:35-71 `wickr_node_identity_gen`: `newKey` is the key drawn at line 41, `identifier`
the one given or the 32 random bytes of line 56. -/
def nodeIdentityGen (E : Engine) (root : Identity) (newKey : EcKey) (identifier nonce : Bytes) :
    Option Identity :=
  if root.type ≠ .root then none
  else match identitySign E root newKey.pub nonce with
    | none => none
    | some s => (dup identifier).bind fun i => identityCreate .node i newKey (some s)

/-- identity.c:73-103 `wickr_identity_copy`: a failing signature copy is not noticed. -/
def identityCopy (i : Identity) : Option Identity :=
  (dup i.identifier).bind fun id => (ecKeyCopy i.key).bind fun k =>
    identityCreate i.type id k (i.sig.bind ecdsaCopy)

/-- identity_priv.c:29-92 `wickr_identity_build_proto`. -/
def identityBuildProto (i : Identity) (isPrivate : Bool) : Option PIdentity :=
  match (if isPrivate then i.key.pri else some i.key.pub) with
  | none => none
  | some kb =>
    match i.type with
    | .root => some ⟨some i.identifier, some kb, none, some IdType.root.protoId, some isPrivate⟩
    | .node => (i.sig.bind ecdsaSerialize).map fun s =>
        ⟨some i.identifier, some kb, some s, some IdType.node.protoId, some isPrivate⟩

/-- An optional field parsed by `f`: absent is fine, present but unparsable is an error. -/
def optParse (f : Bytes → Option α) : Option Bytes → Option (Option α)
  | none => some none
  | some b => (f b).map some

/-- identity_priv.c:104-152 `wickr_identity_create_from_proto`, eckey_priv.c:4-11 (the key field is
handed to the engine's import as it is), buffer_priv.c:6-9 (NULL for an empty field). -/
def identityFromProto (E : Engine) (p : PIdentity) : Option Identity :=
  match p.identifier, p.sigKey, p.type with
  | some id, some kb, some ty =>
    (dup id).bind fun id =>
      (E.ecImport kb (p.isPrivate.getD false)).bind fun k =>
        (optParse ecdsaFromBuffer p.signature).bind fun s =>
          identityCreate (if ty = 1 then .node else .root) id k s
  | _, _, _ => none

/-- identity.c:118-143 `wickr_identity_serialize`. -/
def identitySerialize (i : Identity) : Option Bytes :=
  (identityBuildProto i false).bind fun p => protoPack p.pack

/-- identity.c:145-161 `wickr_identity_create_from_buffer`. -/
def identityFromBuffer (E : Engine) (b : Bytes) : Option Identity :=
  ((fieldsDec b).bind PIdentity.unpack).bind (identityFromProto E)

/-- identity.c:212-229 `wickr_identity_chain_create`. -/
def chainCreate (root node : Identity) : Chain := ⟨root, node, .unknown, none⟩

/-- identity.c:231-271 `wickr_identity_chain_copy`. -/
def chainCopy (c : Chain) : Option Chain :=
  (identityCopy c.root).bind fun r => (identityCopy c.node).bind fun n =>
    (dupOpt c.cache).map fun h => ⟨r, n, c.status, h⟩

/-- identity_priv.c:245-280 `make_status_cache`. -/
def chainStatusCache (E : Engine) (c : Chain) : Option Bytes :=
  match c.node.sig with
  | none => none
  | some s =>
    (concatMulti [some c.root.key.pub, some s.sig, some c.node.key.pub, some [c.status.byte]]).bind
      fun b => E.digest b none .sha512

/-- identity_priv.c:282-296 `wickr_identity_chain_has_valid_cache`. -/
def chainHasValidCache (E : Engine) (c : Chain) : Bool :=
  match c.cache with
  | none => false
  | some _ => bufIsEqual c.cache (chainStatusCache E c) none

/-- identity_priv.c:298-302 `wickr_identity_chain_update_cache`. -/
def chainUpdateCache (E : Engine) (c : Chain) : Chain := { c with cache := chainStatusCache E c }

/-- identity.c:273-290 `wickr_identity_chain_validate`: the new state and the answer. -/
def chainValidate (E : Engine) (c : Chain) : Chain × Bool :=
  if chainHasValidCache E c then (c, decide (c.status = .valid))
  else
    let ok := E.verifyOpt c.node.sig c.root.key c.node.key.pub
    (chainUpdateCache E { c with status := if ok then .valid else .invalid }, ok)

/-- identity_priv.c:154-202 `wickr_identity_chain_build_proto` (and 204-212). -/
def chainBuildProto (c : Chain) (isPrivate : Bool) : Option PChain :=
  (identityBuildProto c.root isPrivate).bind fun r =>
    (identityBuildProto c.node isPrivate).map fun n => ⟨some r, some n⟩

/-- identity_priv.c:214-243 `wickr_identity_chain_create_from_proto`. -/
def chainFromProto (E : Engine) (p : PChain) : Option Chain :=
  match p.root, p.node with
  | some r, some n => (identityFromProto E r).bind fun r => (identityFromProto E n).map (chainCreate r)
  | _, _ => none

/-- identity.c:292-333 `wickr_identity_chain_serialize` / `_serialize_private`. -/
def chainSerialize (c : Chain) (isPrivate : Bool) : Option Bytes :=
  (chainBuildProto c isPrivate).bind fun p => protoPack p.pack

/-- identity.c:335-351 `wickr_identity_chain_create_from_buffer`. -/
def chainFromBuffer (E : Engine) (b : Bytes) : Option Chain :=
  ((fieldsDec b).bind PChain.unpack).bind (chainFromProto E)

end Wickr
