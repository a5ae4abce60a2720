import Verif.Model.Node
/-
What it means for identities, chains and nodes to be genuine, and the histories the caching
theorems range over.  Nothing here mentions caches or status fields except to let a history write them.
-/
namespace Wickr.Spec

/-- `sig` is present and verifies over `data` under `key`. -/
def Signed (E : Engine) (sig : Option EcdsaResult) (key : EcKey) (data : Bytes) : Prop :=
  ∃ s, sig = some s ∧ E.verify s key data = true

/-- The root vouches for the node key. -/
def ChainGenuine (E : Engine) (c : Chain) : Prop := Signed E c.node.sig c.root.key c.node.key.pub

/-- The chain is genuine and its node vouches for the ephemeral key, which exists. -/
def NodeGenuine (E : Engine) (n : Node) : Prop :=
  ChainGenuine E n.chain ∧ ∃ k, n.eph = some k ∧ Signed E k.sig n.chain.node.key k.key.pub

/-- What can happen to a chain: validation, being replaced by its copy (when copying succeeds), a
write to the public `status` field, and writes to the `root` and `node` fields. -/
inductive ChainOp where
  | validate
  | copy
  | setStatus (s : Status)
  | setRoot (i : Identity)
  | setNode (i : Identity)

def ChainOp.apply (E : Engine) (c : Chain) : ChainOp → Chain
  | .validate => (chainValidate E c).1
  | .copy => (chainCopy c).getD c
  | .setStatus s => { c with status := s }
  | .setRoot i => { c with root := i }
  | .setNode i => { c with node := i }

def chainRun (E : Engine) (c : Chain) (ops : List ChainOp) : Chain := ops.foldl (ChainOp.apply E) c

/-- The operation leaves keys and signature alone. -/
def ChainOp.KeepsKeys : ChainOp → Prop
  | .setRoot _ | .setNode _ => False
  | _ => True

/-- Roots and nodes that occur in a history. -/
def rootsOf (c : Chain) (ops : List ChainOp) : List Identity :=
  c.root :: ops.filterMap fun | .setRoot i => some i | _ => none
def nodesOf (c : Chain) (ops : List ChainOp) : List Identity :=
  c.node :: ops.filterMap fun | .setNode i => some i | _ => none

/-- What can happen to a node through the API: verification, key rotation, copying, validation of
its chain. -/
inductive NodeOp where
  | verify
  | rotate (k : EphKey) (copy : Bool)
  | copy
  | validateChain

def NodeOp.apply (E : Engine) (n : Node) : NodeOp → Node
  | .verify => (nodeVerify E n).1
  | .rotate k b => (nodeRotate n k b).1
  | .copy => (nodeCopy n).getD n
  | .validateChain => { n with chain := (chainValidate E n.chain).1 }

def nodeRun (E : Engine) (n : Node) (ops : List NodeOp) : Node := ops.foldl (NodeOp.apply E) n

/-- Ephemeral keys that occur in a history. -/
def ephsOf (n : Node) (ops : List NodeOp) : List EphKey :=
  n.eph.toList ++ ops.filterMap fun | .rotate k _ => some k | _ => none

/-- No two of the byte strings satisfying `I` have the same SHA-512 digest. -/
def NoCollision (E : Engine) (I : Bytes → Prop) : Prop :=
  ∀ a b h, I a → I b → E.digest a none .sha512 = some h → E.digest b none .sha512 = some h → a = b

/-- An identity without its private key. -/
def publicHalf (i : Identity) : Identity :=
  { i with key := { i.key with pri := none }, sig := if i.type = .node then i.sig else none }

/-- An identity the library can produce: identifier of 1 to 127 bytes; a key pair or public key
that survives export and import; a node has a signature of legal size. -/
structure WfIdentity (E : Engine) (i : Identity) : Prop where
  id : 0 < i.identifier.length ∧ i.identifier.length < 128
  pub : E.ecImport i.key.pub false = some { i.key with pri := none }
  sig : i.type = .node → ∃ s, i.sig = some s ∧ 0 < s.sig.length ∧ s.sig.length + 2 ≤ s.curve.sigSize

/-- An ephemeral key pair the library can produce. -/
structure WfEph (E : Engine) (k : EphKey) : Prop where
  pub : E.ecImport k.key.pub false = some { k.key with pri := none }
  sig : ∀ s, k.sig = some s → 0 < s.sig.length ∧ s.sig.length + 2 ≤ s.curve.sigSize

end Wickr.Spec
