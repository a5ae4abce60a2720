import Verif.Spec.Verify
import Verif.Spec.ReleasesKx
import Verif.Model.HeapMessage
/-
Sending in memory: the recipients are an array of nodes that sending verifies, and whose stored results it may change.
-/
namespace Wickr.Spec
open Wickr Asrt

variable {V : Type}

/-- There is a node in every slot, and every node is genuine. -/
def AllGenuine (E : Engine) (ns : List (Option Node)) : Prop := ∀ o ∈ ns, ∃ n, o = some n ∧ NodeGenuine E n

/-- The stored results of every node tell the truth. -/
def AllHonest (E : Engine) (ns : List (Option Node)) : Prop := ∀ n, some n ∈ ns → NodeHonest E n

/-- The same keys, device and ephemeral key, in every slot. -/
def SameNodes : List (Option Node) → List (Option Node) → Prop
  | [], [] => True
  | none :: ns, none :: ns' => SameNodes ns ns'
  | some n :: ns, some n' :: ns' => SameKeys n.chain n'.chain ∧ n'.eph = n.eph ∧ n'.devId = n.devId ∧ SameNodes ns ns'
  | _, _ => False

/-- Called with recipients `ns`, an array at `p`, in a memory whose other blocks, `h`, satisfy `args`, whatever the allocator does: there
is no undefined behaviour; NULL is dereferenced only after an allocation has failed.  Otherwise the other blocks are as they were, the
recipients are the same and their stored results tell the truth.  There is a result only if every recipient is genuine; it has the
value `x`.  There is one unless `x` does not exist or an allocation failed.  Unless an allocation failed, in this call or before, the
recipients are left as `ns₁` and nothing is leaked. -/
def Sends (E : Engine) (args : Heap → Prop) (p : Addr) (ns ns₁ : List (Option Node)) (R : Addr → V → Asrt) (x : Option V) (m : H Ptr) : Prop :=
  ∀ (A : Alloc) (s : St) (h : Heap), args h → (isArr isNode p ns ∗ keep h) s.heap →
    match m A s with
    | .ub => False
    | .crash s' => s'.oom = true
    | .ret r s' => ∃ ns', SameNodes ns ns' ∧ AllHonest E ns' ∧ (s'.oom = false → ns' = ns₁) ∧
      match r with
      | none => (s'.oom = true ∨ x = none) ∧ (isArr isNode p ns' ∗ keep h ∗ Asrt.any) s'.heap ∧
          (s'.oom = false → (isArr isNode p ns' ∗ keep h) s'.heap)
      | some b => AllGenuine E ns ∧ ∃ v, x = some v ∧ (R b v ∗ isArr isNode p ns' ∗ keep h) s'.heap

/-- Unless an allocation fails no block is released that still holds a secret: what is not wiped is in `pubs`. -/
def SendsDiscreetly (args : Heap → Prop) (p : Addr) (ns : List (Option Node)) (pubs : List Bytes) (m : H Ptr) : Prop :=
  ∀ (A : Alloc) (s : St) (h : Heap), args h → (isArr isNode p ns ∗ keep h) s.heap →
    ∀ r s', m A s = .ret r s' → s'.oom = false → ReleasesOnly pubs s (m A s)

/-- What verifying a chain releases: the digests of its public keys, signature and status, and what they are digests of. -/
def chainShown (E : Engine) (ch : Chain) : List Bytes :=
  ch.cache.toList ++ (chainStatusCache E ch).toList ++
    [Status.unknown, .valid, .invalid].flatMap fun st => { ch with status := st }.digestInput.toList

/-- What verifying a node releases: the same for its chain and for its ephemeral key. -/
def nodeShown (E : Engine) (n : Node) : List Bytes :=
  chainShown E n.chain ++ n.cache.toList ++ (nodeStatusCache E n).toList ++
    n.eph.toList.flatMap fun k => k.sig.toList.flatMap fun s => [Status.unknown, .valid, .invalid].map fun st => k.key.pub ++ s.sig ++ [st.byte]

/-- What making a packet for these recipients releases: what verifying them does, and what making the packet does. -/
def sendPubs (E : Engine) (hk pk : CipherKey) (exKey : EcKey) (pl : Payload) (ns : List (Option Node)) (s : Chain) (v : UInt8) (rnd : MsgRand) :
    List Bytes :=
  (ns.flatMap fun n => n.toList.flatMap (nodeShown E)) ++ msgPubs E hk pk exKey pl ns s v rnd

/-- One call of `wickr_ctx_encode_packet`: the allocator, the payload and where it is, what is drawn. -/
structure SendCall where
  A : Alloc
  y : Addr
  payload : Payload
  key : CipherKey
  curve : Curve
  pub : Bytes
  pri : Bytes
  rnd : MsgRand

/-- A call draws keys of the right sizes, and its payload is in memory. -/
structure SendCall.Ok (E : Engine) (x : Ctx) (ns : List (Option Node)) (h : Heap) (c : SendCall) : Prop where
  key : ValidBuf c.key.key
  len : c.key.key.length = c.key.cipher.keyLen
  pub : ValidBuf c.pub
  pri : ValidBuf c.pri
  payload : Has isPayload h c.y c.payload
  safe : (ctxEncode E x c.payload ns c.key ⟨c.curve, c.pub, some c.pri⟩ c.rnd).2 ≠ .ub

/-- Sending several times; the results. -/
def sendMany (E : Engine) (a p : Addr) : List SendCall → St → Option (List Ptr × St)
  | [], s => some ([], s)
  | c :: cs, s =>
    match hCtxEncode E (some a) (some c.y) (some p) c.key c.curve c.pub c.pri c.rnd c.A s with
    | .ret r s' => (sendMany E a p cs s').map fun z => (r :: z.1, z.2)
    | _ => none

end Wickr.Spec
