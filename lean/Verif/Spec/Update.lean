import Verif.Spec.Memory
import Verif.Model.HeapStream
/-
What a function owes its callers that changes an object in memory and may make a new one, said about runs.
-/
namespace Wickr.Spec
open Wickr Asrt

variable {U V : Type}

/-- Called on an object at `a` with value `u` in a memory whose other blocks, `h`, satisfy `args`, whatever the allocator does: there
is no undefined behaviour; NULL is dereferenced only after an allocation has failed.  Otherwise the other blocks are as they were,
the object has a value `w` that `may` allows, and nothing else is in memory except the result.  A result has the value `x`, and
there is one unless `x` does not exist or an allocation failed.  If there is a result, or no allocation failed, `w` is `u'`. -/
def Updates (args : Heap → Prop) (R₀ : Addr → U → Asrt) (a : Addr) (u : U) (may : U → Prop) (u' : U) (R : Addr → V → Asrt)
    (x : Option V) (m : H Ptr) : Prop :=
  ∀ (A : Alloc) (s : St) (h : Heap), s.oom = false → args h → (R₀ a u ∗ keep h) s.heap →
    match m A s with
    | .ub => False
    | .crash s' => s'.oom = true
    | .ret r s' => ∃ w, may w ∧ (s'.oom = false ∨ r ≠ none → w = u') ∧
      match r with
      | none => (s'.oom = true ∨ x = none) ∧ (R₀ a w ∗ keep h) s'.heap
      | some b => ∃ v, x = some v ∧ (R b v ∗ R₀ a w ∗ keep h) s'.heap

/-- No block is released that still holds a secret: what is not wiped is in `pubs`. -/
def UpdatesDiscreetly (args : Heap → Prop) (R₀ : Addr → U → Asrt) (a : Addr) (u : U) (pubs : List Bytes) (m : H Ptr) : Prop :=
  ∀ (A : Alloc) (s : St) (h : Heap), s.oom = false → args h → (R₀ a u ∗ keep h) s.heap → ReleasesOnly pubs s (m A s)

/-- NULL is never dereferenced. -/
def UpdatesSturdily (args : Heap → Prop) (R₀ : Addr → U → Asrt) (a : Addr) (u : U) (m : H Ptr) : Prop :=
  ∀ (A : Alloc) (s : St) (h : Heap), s.oom = false → args h → (R₀ a u ∗ keep h) s.heap → ∀ s', m A s ≠ .crash s'

/-- Called on an object at `p` that it may take over: with a result, which has the value `x`, the object belongs to the result; without
one it is as it was.  Nothing else in memory changes, and nothing is leaked unless an allocation failed. -/
def Adopts (R₀ : Addr → U → Asrt) (p : Addr) (u : U) (R : Addr → V → Asrt) (x : Option V) (m : H Ptr) : Prop :=
  ∀ (A : Alloc) (s : St) (h : Heap), s.oom = false → (R₀ p u ∗ keep h) s.heap →
    match m A s with
    | .ub => False
    | .crash s' => s'.oom = true
    | .ret none s' => (s'.oom = true ∨ x = none) ∧ (R₀ p u ∗ keep h ∗ Asrt.any) s'.heap ∧ (s'.oom = false → (R₀ p u ∗ keep h) s'.heap)
    | .ret (some b) s' => ∃ v, x = some v ∧ (R b v ∗ keep h) s'.heap

/-- Without a result memory is as it was, whatever the allocator does. -/
def AdoptsTidily (R₀ : Addr → U → Asrt) (p : Addr) (u : U) (m : H Ptr) : Prop :=
  ∀ (A : Alloc) (s : St), s.oom = false → Has R₀ s.heap p u →
    match m A s with
    | .ret none s' => s'.heap = s.heap
    | _ => True

/-- No block is released that still holds a secret: what is not wiped is in `pubs`. -/
def AdoptsDiscreetly (R₀ : Addr → U → Asrt) (p : Addr) (u : U) (pubs : List Bytes) (m : H Ptr) : Prop :=
  ∀ (A : Alloc) (s : St), s.oom = false → Has R₀ s.heap p u → ReleasesOnly pubs s (m A s)

/-! ### Streams -/

/-- HKDF-SHA512 makes 64 bytes when it is asked for 64 bytes. -/
def _root_.Wickr.Engine.Hkdf64 (E : Engine) : Prop :=
  ∀ s i z x, E.kdf ⟨hkdfSha512, some s, some i⟩ z = some x → x.length = 64

/-- What is asked of a serialized stream key: that it has no user data if the number of packets is refused. -/
def _root_.Wickr.PStreamKey.NoLeak (k : PStreamKey) : Prop := k.userData = none ∨ ∀ n, k.ppe = some n → ppeMin ≤ n ∧ n ≤ ppeMax

/-- The states in which encoding may leave a stream: as it was, with the factory moved on, or as the value model says. -/
def EncodeMay (E : Engine) (v : StreamCtx) (b : Bytes) (aad : Option Bytes) (seq : UInt64) (w : StreamCtx) : Prop :=
  w = v ∨ (∃ i, v.iv = some i ∧ w = { v with iv := some { i with count := i.count + 1 } }) ∨ w = (streamEncode E v b aad seq).1

/-- The blocks that encoding may release unwiped: the user data of the key, the HMAC that the IV is cut from, and a result. -/
def encodePubs (E : Engine) (v : StreamCtx) (b : Bytes) (aad : Option Bytes) (seq : UInt64) : List Bytes :=
  v.key.publics ++ (v.iv.toList.flatMap fun i => (E.hmac (le64 i.count) i.seed .sha512).toList) ++
    (streamEncode E v b aad seq).2.toList.flatMap CipherResult.publics

/-! ### Histories of a stream in memory -/

/-- One call of `wickr_stream_ctx_encode` on the stream at `a`, whatever the allocator does and whatever else is in memory: its value
before and after, the sequence number and the result. -/
def EncodeStep (E : Engine) (a : Addr) (v : StreamCtx) (seq : UInt64) (o : Option CipherResult) (w : StreamCtx) : Prop :=
  ∃ (A : Alloc) (s : St) (h : Heap) (p : Addr) (q : Ptr) (b : Bytes) (aad : Option Bytes) (r : Ptr) (s' : St),
    s.oom = false ∧ (isSCtx a v ∗ keep h) s.heap ∧ Has isBuf h p b ∧ HasOpt isBuf h q aad ∧
    hSEncode E (some a) (some p) q seq A s = .ret r s' ∧ Has isSCtx s'.heap a w ∧ HasOpt isCRes s'.heap r o

/-- The same for `wickr_stream_ctx_decode`. -/
def DecodeStep (E : Engine) (a : Addr) (v : StreamCtx) (seq : UInt64) (o : Option Bytes) (w : StreamCtx) : Prop :=
  ∃ (A : Alloc) (s : St) (h : Heap) (p : Addr) (q : Ptr) (x : CipherResult) (aad : Option Bytes) (r : Ptr) (s' : St),
    s.oom = false ∧ (isSCtx a v ∗ keep h) s.heap ∧ Has isCRes h p x ∧ HasOpt isBuf h q aad ∧
    hSDecode E (some a) (some p) q seq A s = .ret r s' ∧ Has isSCtx s'.heap a w ∧ HasOpt isBuf s'.heap r o

/-- Calls one after the other, on the value that the one before has left; what else is in memory may have changed in between. -/
inductive History {O : Type} (step : StreamCtx → UInt64 → Option O → StreamCtx → Prop) : StreamCtx → List (UInt64 × Option O) → StreamCtx → Prop
  | none (v : StreamCtx) : History step v [] v
  | call {v w u : StreamCtx} {seq : UInt64} {o : Option O} {os : List (UInt64 × Option O)} :
      step v seq o w → History step w os u → History step v ((seq, o) :: os) u

/-- The IV that a factory makes of the value `n` of its counter. -/
def factoryIv (E : Engine) (i : StreamIv) (n : Nat) : Option Bytes :=
  (E.hmac (le64 (UInt64.ofNat n)) i.seed .sha512).map fun h => h.take i.cipher.ivLen

end Wickr.Spec
