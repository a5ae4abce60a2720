import Verif.Model.Stream
/-
Specification vocabulary for streams: pure key evolution on bytes, and histories of calls.
-/
namespace Wickr.Spec

/-- One evolution: HMAC-SHA512 of the cipher key under the evolution key; the first half of the
output is the next cipher key, the second half the next evolution key. -/
def evoStep (E : Engine) (k : Bytes × Bytes) : Bytes × Bytes :=
  match E.hmac k.1 k.2 .sha512 with
  | none => k
  | some h => (h.take 32, h.drop 32)

/-- `n` evolutions. -/
def evo (E : Engine) (k : Bytes × Bytes) : Nat → Bytes × Bytes
  | 0 => k
  | n + 1 => evo E (evoStep E k) n

/-- The key pair of bytes in a stream key. -/
def keyBytes (k : StreamKey) : Bytes × Bytes := (k.cipherKey.key, k.evoKey)

/-- A stream key the library can produce. -/
structure WfStreamKey (k : StreamKey) : Prop where
  auth : k.cipherKey.cipher.isAuth = true
  key : k.cipherKey.key.length = 32
  evo : ValidBuf k.evoKey
  ppe : 1 ≤ k.ppe.toNat ∧ k.ppe.toNat ≤ 32768
  user : ∀ u, k.userData = some u → ValidBuf u

/-- One call on a stream context; `copy` continues with the copy of the context. -/
inductive StreamOp where
  | encode (data : Bytes) (aad : Option Bytes) (seq : UInt64)
  | decode (r : CipherResult) (aad : Option Bytes) (seq : UInt64)
  | copy

/-- What a call returned: data was produced for sequence number `seq`. -/
inductive StreamEv where
  | encoded (seq : UInt64) (data : Bytes) (aad : Option Bytes) (r : CipherResult)
  | decoded (seq : UInt64) (r : CipherResult) (aad : Option Bytes) (data : Bytes)

def StreamEv.seq : StreamEv → UInt64
  | .encoded s _ _ _ => s
  | .decoded s _ _ _ => s

def StreamOp.step (E : Engine) (c : StreamCtx) : StreamOp → StreamCtx × List StreamEv
  | .encode d a s => match streamEncode E c d a s with
    | (c, some r) => (c, [.encoded s d a r])
    | (c, none) => (c, [])
  | .decode r a s => match streamDecode E c r a s with
    | (c, some d) => (c, [.decoded s r a d])
    | (c, none) => (c, [])
  | .copy => ((streamCtxCopy c).getD c, [])

/-- Final context and everything that was produced, in order. -/
def streamRun (E : Engine) (c : StreamCtx) : List StreamOp → StreamCtx × List StreamEv
  | [] => (c, [])
  | op :: ops =>
    let r := op.step E c
    let q := streamRun E r.1 ops
    (q.1, r.2 ++ q.2)

end Wickr.Spec
