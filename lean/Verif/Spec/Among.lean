import Verif.Spec.Compute
import Verif.Spec.ReleasesMsg
import Verif.Model.Ctx
/-
What a function owes its callers that looks at objects and makes a new one, where allocations that fail may change the value of the
result.
-/
namespace Wickr
open Asrt

/-- The result of a function that computes `x`; if an allocation failed it may have another value that `S` allows. -/
def among {α : Type _} (R : Addr → α → Asrt) (S : α → Prop) (x : Option α) (r : Ptr) (f : Bool) : Asrt :=
  match r with
  | none => ⌜f = true ∨ x = none⌝
  | some a => Asrt.ex fun v => ⌜S v ∧ (f = false → x = some v)⌝ ∗ R a v

/-- The same for a function that may leak when an allocation failed. -/
def amongA {α : Type _} (R : Addr → α → Asrt) (S : α → Prop) (x : Option α) (r : Ptr) (f : Bool) : Asrt :=
  match r with
  | none => ⌜f = true ∨ x = none⌝ ∗ spill f
  | some a => Asrt.ex fun v => ⌜S v ∧ (f = false → x = some v)⌝ ∗ R a v ∗ spill f

namespace Spec

variable {V : Type}

/-- Whatever the allocator does: there is no undefined behaviour; NULL is dereferenced only after an allocation has failed; every
block that was there is as it was; a result is an object with a value that `S` allows, and there is one unless `x` does not exist or
an allocation failed.  If no allocation failed, the result is exactly `x`, consists of new blocks, and nothing else is new in
memory. -/
def ComputesAmong (S : V → Prop) (args : Heap → Prop) (R : Addr → V → Asrt) (x : Option V) (m : H Ptr) : Prop :=
  ∀ (A : Alloc) (s : St), s.oom = false → args s.heap →
    match m A s with
    | .ub => False
    | .crash s' => s'.oom = true
    | .ret r s' => (∀ a, s.heap a ≠ none → s'.heap a = s.heap a) ∧
      match r with
      | none => (s'.oom = true ∨ x = none) ∧ (s'.oom = false → s'.heap = s.heap)
      | some b => ∃ v, S v ∧ Has R s'.heap b v ∧ (s'.oom = false → x = some v ∧ (R b v ∗ keep s.heap) s'.heap)

end Spec

/-! ### Values that are written when there is too little memory -/

/-- The bytes that a signature may be written as: its padding may be missing. -/
def sigWrites (s : EcdsaResult) (b : Bytes) : Prop := ∃ b₀, ecdsaSerialize s = some b₀ ∧ (b = b₀ ∨ ecdsaBare s = some b)

/-- The messages that an identity may be written as: its signature may lack its padding. -/
def idWrites (i : Identity) (isPrivate : Bool) (m : PIdentity) : Prop :=
  ∃ m₀, identityBuildProto i isPrivate = some m₀ ∧ (m = m₀ ∨ ∃ s b, i.type = .node ∧ i.sig = some s ∧ ecdsaBare s = some b ∧
    m = { m₀ with signature := some b })

/-- The messages that a chain may be written as. -/
def chainWrites (c : Chain) (isPrivate : Bool) (m : PChain) : Prop :=
  ∃ r n, idWrites c.root isPrivate r ∧ idWrites c.node isPrivate n ∧ m = ⟨some r, some n⟩

/-- The messages that an ephemeral key pair may be written as. -/
def ephWrites (e : EphKey) (m : PEphKey) : Prop :=
  ∃ m₀, ephToProto e = some m₀ ∧ (m = m₀ ∨ ∃ s b, e.sig = some s ∧ ecdsaBare s = some b ∧ m = { m₀ with keySig := some b })

/-- The messages that a node may be written as. -/
def nodeWrites (v : Node) (m : PNode) : Prop :=
  ∃ c e, chainWrites v.chain false c ∧ (match v.eph with | none => e = none | some k => ∃ k', ephWrites k k' ∧ e = some k') ∧
    m = ⟨some v.devId, some c, e⟩

/-- The messages that a context may be written as. -/
def ctxWrites (v : Ctx) (m : PCtx) : Prop :=
  ∃ c s, chainWrites v.chain true c ∧ storageToProto v.storage = some s ∧ m = ⟨some s, some c⟩

/-- The bytes of one of the messages. -/
def packsOf {M : Type} (W : M → Prop) (pack : M → List Field) (b : Bytes) : Prop := ∃ m, W m ∧ protoPack (pack m) = some b

/-- What an export of a context may be: one of the ways in which it is written, sealed. -/
def exportsOf (E : Engine) (S : Bytes → Prop) (pass salt iv : Bytes) (r : Bytes) : Prop :=
  ∃ b, S b ∧ kdfCipher E scrypt17 defaultCipher b pass salt iv = some r

end Wickr
