import Verif.Spec.Prim
import Verif.Spec.Repr
/-
Sizes: what is assumed of the engine where its results are written into buffers.
-/
namespace Wickr

/-- The results of the engine fit into buffers. -/
structure Engine.Fits (E : Engine) : Prop where
  digest : ∀ b s d h, E.digest b s d = some h → ValidBuf h
  hmac : ∀ b k d h, E.hmac b k d = some h → ValidBuf h
  ecImport : ∀ b p k, E.ecImport b p = some k → ValidBuf k.pub ∧ ∀ d, k.pri = some d → ValidBuf d
  sign : ∀ k b d n s, E.sign k b d n = some s → ValidBuf s.sig
  encrypt : ∀ b a k iv r, ValidBuf b → E.encrypt b a k iv = some r →
    r.Ok ∧ ValidBuf r.iv ∧ (∃ ct, r.ct = some ct ∧ ValidBuf ct) ∧ ∀ t, r.tag = some t → ValidBuf t
  decrypt : ∀ r a k o b, E.decrypt r a k o = some b → ValidBuf b
  secret : ∀ k l z, E.sharedSecret k l = some z → ValidBuf z
  kdf : ∀ m p h, E.kdf m p = some h → ValidBuf h
  bcrypt : ∀ m p h, E.kdf m p = some h → m.algo.kind = .bcrypt → ∀ s, m.salt = some s → 7 + s.length ≤ 64 ∧ p.length < maxBuffer

/-- Sizes of the raw primitives that `Prim.Lawful` leaves open. -/
structure Prim.Sized (P : Prim) : Prop where
  open_len : ∀ k iv a ct t pt, P.gcmOpen k iv a ct t = some pt → pt.length = ct.length
  ecdh_len : ∀ s p z, P.ecdh s p = some z → 0 < z.length ∧ z.length ≤ 1024

end Wickr
