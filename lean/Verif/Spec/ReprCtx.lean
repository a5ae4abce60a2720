import Verif.Spec.Releases
import Verif.Model.HeapCtx
/-
What contexts look like in memory.
-/
namespace Wickr
open Asrt

/-- A context. -/
def isCtx (a : Addr) (v : Ctx) : Asrt :=
  Asrt.ex fun (p : Addr) => Asrt.ex fun (q : Addr) => Asrt.ex fun (r : Addr) => Asrt.ex fun (k : Addr) =>
  (a ↦ .obj (.ver v.version) [some p, some q, some r, some k]) ∗ isDev p v.dev ∗ isChain q v.chain ∗ isStorage r v.storage ∗
    isCKey k v.headerKey

def Ctx.publics (v : Ctx) : List Bytes := v.chain.publics

/-- What may be missing from a copy of a context: signatures of its chain. -/
def ctxLoss (v v' : Ctx) : Prop :=
  v'.dev = v.dev ∧ chainLoss v.chain v'.chain ∧ v'.storage = v.storage ∧ v'.headerKey = v.headerKey ∧ v'.version = v.version

/-- The result of making a context. -/
def isGen (a : Addr) (v : GenResult) : Asrt := Asrt.ex fun (p : Addr) => Asrt.ex fun (q : Addr) => Asrt.ex fun (r : Addr) =>
  (a ↦ .obj .plain [some p, some q, some r]) ∗ isCtx p v.ctx ∗ isCKey q v.recoveryKey ∗ isRoot r v.rootKeys

/-- Copying root keys may release their public key. -/
def GenResult.publics (v : GenResult) : List Bytes := v.rootKeys.sigRoot.pub :: v.ctx.publics

/-- What may be missing from a copy: what may be missing from a copy of the context. -/
def genLoss (v v' : GenResult) : Prop :=
  ctxLoss v.ctx v'.ctx ∧ v'.recoveryKey = v.recoveryKey ∧ v'.rootKeys = v.rootKeys

/-- A new chain may lack the stored digest of its status. -/
def chainUncached (c c' : Chain) : Prop := c' = c ∨ c' = { c with cache := none }

/-- A new context may lack the stored digest of the status of its chain. -/
def ctxUncached (v v' : Ctx) : Prop := v' = v ∨ v' = { v with chain := { v.chain with cache := none } }

def genUncached (v v' : GenResult) : Prop :=
  v' = v ∨ v' = { v with ctx := { v.ctx with chain := { v.ctx.chain with cache := none } } }

/-! ### What is released without being wiped -/

/-- The digest of the identifiers of a chain, if it has not the length of a header key. -/
def headerPubs (E : Engine) (ch : Chain) : List Bytes :=
  (E.digest ch.root.identifier (some ch.node.identifier) (digestMatchingCipher defaultCipher)).toList.filter
    fun x => x.length != defaultCipher.keyLen

/-- The chain of a new context before it is validated. -/
def chainDraft (E : Engine) (k : EcKey) (i : Bytes) (nk : EcKey) (nid nonce : Bytes) : Option Chain :=
  (identityCreate .root i k none).bind fun r => (nodeIdentityGen E r nk nid nonce).map fun n => ⟨r, n, .unknown, none⟩

/-- The public parts of a chain and what is digested to store its status. -/
def draftPubs (E : Engine) (ch : Chain) : List Bytes :=
  ch.publics ++ (chainValidate E ch).1.publics ++ (chainStatusCache E ch).toList ++ headerPubs E ch ++
    [Status.unknown, .valid, .invalid].flatMap fun st => { ch with status := st }.digestInput.toList

/-- What making a context releases: identifiers, public keys, signatures and digests of them. -/
def genPubs (E : Engine) (k : RootKeys) (b : Bytes) (nk : EcKey) (rid nonce : Bytes) : List Bytes :=
  b :: rid :: k.sigRoot.pub :: ((identityCreate .root b k.sigRoot none).toList.flatMap (fun r => signPubs E r nk.pub nonce) ++
    (chainDraft E k.sigRoot b nk rid nonce).toList.flatMap (draftPubs E))

/-- What opening recovery data releases: parts of the data, the keys in it, and the public key that is made of them. -/
def recoverPubs (E : Engine) (data : Bytes) (key : CipherKey) : List Bytes :=
  cresHead data ++ (cipherResultFromBuffer data).toList.flatMap fun r => r.publics ++
    (E.decrypt r none key true).toList.flatMap (rootPubs E)

/-- What `wickr_ctx_gen_with_recovery` releases. -/
abbrev recoveryPubs (E : Engine) (data : Bytes) (key : CipherKey) (b : Bytes) (nk : EcKey) (rid nonce : Bytes) : List Bytes :=
  b :: rid :: (recoverPubs E data key ++ (importRecovery E data key).toList.flatMap fun k => genPubs E k b nk rid nonce)

/-! ### Conditions -/

/-- The signature that the root key makes verifies. -/
abbrev Verifies (E : Engine) (k : RootKeys) (b pub nonce : Bytes) : Prop :=
  ∀ r s, identityCreate .root b k.sigRoot none = some r → identitySign E r pub nonce = some s → E.verify s r.key pub = true

/-- Recovery data of which a context can be made. -/
def Recovers (E : Engine) (d : DevInfo) (data : Bytes) (key : CipherKey) (b : Bytes) (rnd : GenRand) : Prop :=
  ∀ k, importRecovery E data key = some k →
    Verifies E k b rnd.nodeKey.pub rnd.nonce ∧ (ctxGenWithRootKeys E d k b rnd).isSome

/-- A sealed value that can be read if a key can be derived for it. -/
def Readable (E : Engine) (b pass : Bytes) : Prop :=
  ∀ m, kdfMetaFromBuffer b = some m → E.kdf m pass = none ∨ cipherResultFromBuffer (b.drop (kdfMetaSize b).toNat) ≠ none

end Wickr
