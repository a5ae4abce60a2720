import Verif.Model.Engine
import Verif.Model.Proto
/-
Model of key_exchange.c.

An exchange array is the list of its slots, `none` being a slot that was never set; C05 proves that
the pointer arrays of array.c behave like such lists.
-/
namespace Wickr

/-- key_exchange.h:53-57 `wickr_key_exchange_t`. -/
structure KeyExchange where
  id : Bytes
  keyId : UInt64
  ct : CipherResult
deriving Repr, DecidableEq

/-- key_exchange.h:169-172 `wickr_key_exchange_set_t`. -/
structure KeyExchangeSet where
  senderPub : EcKey
  exchanges : List (Option KeyExchange)
deriving Repr, DecidableEq

/-- array.c:26-32: an array of `n` slots needs `8 * n` bytes. -/
def arrayFits (n : Nat) : Bool := decide (8 * n ≤ maxBuffer)

/-- key_exchange.c:26-53 `wickr_key_exchange_copy` (with `create`, 10-24). -/
def exchangeCopy (x : KeyExchange) : Option KeyExchange :=
  (cipherResultCopy x.ct).bind fun c => (dup x.id).map fun i => ⟨i, x.keyId, c⟩

/-- key_exchange.c:77-111 `__wickr_key_exchange_to_proto`. -/
def exchangeToProto (x : KeyExchange) : Option PExchange :=
  (cipherResultSerialize x.ct).map fun d => ⟨x.id, x.keyId, d⟩

/-- key_exchange.c:113-144 `__wickr_key_exchange_create_with_proto`; an empty field has NULL data. -/
def exchangeFromProto (p : PExchange) : Option KeyExchange :=
  if p.data = [] ∨ p.identifier = [] then none
  else (dup p.data).bind fun d => (cipherResultFromBuffer d).bind fun c =>
    (dup p.identifier).map fun i => ⟨i, p.keyId, c⟩

/-- key_exchange.c:203-208: the search loop.  A slot that is not set is dereferenced. -/
def exchangeFind : List (Option KeyExchange) → Bytes → Res KeyExchange
  | [], _ => .null
  | none :: _, _ => .ub
  | some x :: xs, i =>
    if bufIsEqual (some i) (some x.id) none then Res.ofOption (exchangeCopy x) else exchangeFind xs i

/-- key_exchange.c:196-211 `wickr_key_exchange_set_find` (non-NULL arguments). -/
def exchangeSetFind (s : KeyExchangeSet) (i : Bytes) : Res KeyExchange := exchangeFind s.exchanges i

/-- array.c:119-137 on an exchange array: unset slots stay unset. -/
def exchangeArrayCopy (xs : List (Option KeyExchange)) : Option (List (Option KeyExchange)) :=
  if ¬ arrayFits xs.length then none
  else xs.mapM fun
    | none => some none
    | some x => (exchangeCopy x).map some

/-- key_exchange.c:213-240 `wickr_key_exchange_set_copy`. -/
def exchangeSetCopy (s : KeyExchangeSet) : Option KeyExchangeSet :=
  (ecKeyCopy s.senderPub).bind fun k => (exchangeArrayCopy s.exchanges).map fun xs => ⟨k, xs⟩

/-- key_exchange.c:278-328 `__wickr_key_exchange_set_create_with_proto`. -/
def exchangeSetFromProto (E : Engine) (p : PExchangeSet) : Option KeyExchangeSet :=
  if p.exchanges.length = 0 ∨ p.exchanges.length > 2147483647 ∨ p.senderPub = [] then none
  else if ¬ arrayFits p.exchanges.length then none
  else (p.exchanges.mapM exchangeFromProto).bind fun xs =>
    (E.ecImport p.senderPub false).map fun k => ⟨k, xs.map some⟩

/-- key_exchange.c:330-376 `__wickr_key_exchange_set_to_proto`; an unset slot makes it fail, and so does an
empty set, for which an array of 0 bytes is asked for (memory.c:20-22). -/
def exchangeSetToProto (s : KeyExchangeSet) : Option PExchangeSet :=
  if s.exchanges = [] then none
  else (s.exchanges.mapM fun (x : Option KeyExchange) => x.bind exchangeToProto).map fun xs => ⟨s.senderPub.pub, xs⟩

/-- key_exchange.c:378-403 `wickr_key_exchange_set_serialize`. -/
def exchangeSetSerialize (s : KeyExchangeSet) : Option Bytes :=
  (exchangeSetToProto s).bind fun p => protoPack p.pack

/-- key_exchange.c:405-424 `wickr_key_exchange_set_create_from_buffer`. -/
def exchangeSetFromBuffer (E : Engine) (b : Bytes) : Option KeyExchangeSet :=
  ((fieldsDec b).bind PExchangeSet.unpack).bind (exchangeSetFromProto E)

/-- key_exchange.c:426-444 `wickr_key_exchange_set_encrypt`; `iv` is the random IV. -/
def exchangeSetEncrypt (E : Engine) (s : KeyExchangeSet) (k : CipherKey) (iv : Bytes) : Option CipherResult :=
  (exchangeSetSerialize s).bind fun b => E.encrypt b none k iv

/-- key_exchange.c:446-464 `wickr_key_exchange_set_create_from_cipher` (possibly NULL key). -/
def exchangeSetFromCipher (E : Engine) (r : CipherResult) (k : Option CipherKey) : Option KeyExchangeSet :=
  k.bind fun k => (E.decrypt r none k true).bind (exchangeSetFromBuffer E)

end Wickr
