import Verif.Lemmas.Compute
import Verif.Lemmas.SepNode
import Verif.Spec.Releases
/-
The functions that make objects out of objects, in the form from which statements about runs follow.
-/
namespace Wickr
open Asrt Spec

/-- What a program that needs nothing in memory makes. -/
theorem ViewSpec.ofFresh {V : Type} {c : Rules} {R : Addr → V → Asrt} {v : V} {m : H Ptr}
    (hm : ∀ f, Triple c f emp m (fun r f' => fresh R v r f')) : ViewSpec c (fun _ => True) (gives R (some v)) m := by
  intro f h _
  have := (hm f).frame (keep h)
  rw [Asrt.star_comm, Asrt.star_emp] at this
  refine Triple.conseq this (fun _ h => h) fun r f' x _ hx => ?_
  rw [Asrt.star_comm]
  refine Asrt.star_mono (fun y hy => ?_) hx
  cases r with
  | none => exact ⟨Or.inl hy.1, hy.2⟩
  | some a => exact ⟨v, Asrt.pure_star.2 ⟨rfl, hy⟩⟩

theorem ViewSpec.ofMade {V : Type} {c : Rules} {R : Addr → V → Asrt} {v : V} {m : H Ptr}
    (hm : ∀ f, Triple c f emp m (fun r _ => made R v r)) : ViewSpec c (fun _ => True) (gives R (some v)) m := by
  refine ViewSpec.ofFresh fun f => Triple.conseq (hm f) (fun _ h => h) fun r f' x _ hx => ?_
  cases r with
  | none => exact hx.1.elim
  | some a => exact hx

/-- Only what is in the list may be released unwiped. -/
abbrev only (pubs : List Bytes) : Rules := { pub := fun b => b ∈ pubs, crash := True }
/-- The same, and NULL may not be dereferenced. -/
abbrev onlyStrict (pubs : List Bytes) : Rules := { pub := fun b => b ∈ pubs, crash := False }

/-- Only what is in the list may be released unwiped unless an allocation fails. -/
abbrev onlyLax (pubs : List Bytes) : Rules := { pub := fun b => b ∈ pubs, crash := True, lax := True }

variable {E : Engine}

/-! ### The functions -/

theorem random_vs (b : Bytes) (hv : ValidBuf b) : ViewSpec (only []) (fun _ => True) (gives isBuf (some b)) (hRandom b) :=
  ViewSpec.ofMade fun f => hRandom_spec _ f trivial b hv

theorem randCKey_vs (k : CipherKey) (hv : ValidBuf k.key) (hk : k.key.length = k.cipher.keyLen) :
    ViewSpec (only []) (fun _ => True) (gives isCKey (some k)) (hRandCKey k) :=
  ViewSpec.ofFresh fun f => hRandCKey_spec _ f trivial k hv hk

theorem randKey_vs (cv : Curve) (pub pri : Bytes) (hv : ValidBuf pub) (hv' : ValidBuf pri) :
    ViewSpec (only []) (fun _ => True) (gives isKey (some ⟨cv, pub, some pri⟩)) (hRandKey cv pub pri) :=
  ViewSpec.ofFresh fun f => hRandKey_spec _ f trivial cv pub pri hv hv'

theorem import_vs (hE : E.Fits) (a : Addr) (b : Bytes) (pr : Bool) :
    ViewSpec (only (importPubs E b pr)) (fun h => Has isBuf h a b) (gives isKey (E.ecImport b pr)) (hImport E (some a) pr) :=
  fun f h ha => hImport_view hE _ f trivial h a b pr (fun k hk => by simp [hk]) ha

theorem digest_vs (hE : E.Fits) (a : Addr) (p : Ptr) (b : Bytes) (s : Option Bytes) (d : Digest) :
    ViewSpec (only []) (fun h => Has isBuf h a b ∧ HasOpt isBuf h p s) (gives isBuf (E.digest b s d)) (hDigest E (some a) p d) :=
  fun f h ha => hDigest_view hE _ f trivial h a p b s d ha.1 ha.2

theorem sign_vs (hE : E.Fits) (a p : Addr) (k : EcKey) (b : Bytes) (d : Digest) (n : Bytes) :
    ViewSpec (only []) (fun h => Has isKey h a k ∧ Has isBuf h p b) (gives isSig (E.sign k b d n)) (hSign E (some a) (some p) d n) :=
  fun f h ha => hSign_view hE _ f trivial h a p k b d n ha.1 ha.2

theorem encrypt_vs (hE : E.Fits) (a p : Addr) (q : Ptr) (b : Bytes) (aad : Option Bytes) (k : CipherKey) (iv : Bytes) :
    ViewSpec (only (encryptPubs E b aad k iv)) (fun h => Has isBuf h a b ∧ HasOpt isBuf h q aad ∧ Has isCKey h p k)
      (gives isCRes (E.encrypt b aad k iv)) (hEncrypt E (some a) q (some p) iv) :=
  fun f h ha => hEncrypt_view hE _ f trivial h a p q b aad k iv (fun r hr x hx => by simp [hr, hx]) ha.1 ha.2.1 ha.2.2

theorem decrypt_vs (hE : E.Fits) (a p : Addr) (q : Ptr) (r : CipherResult) (aad : Option Bytes) (k : CipherKey) (o : Bool) :
    ViewSpec (onlyStrict []) (fun h => Has isCRes h a r ∧ HasOpt isBuf h q aad ∧ Has isCKey h p k)
      (gives isBuf (E.decrypt r aad k o)) (hDecrypt E (some a) q (some p) o) :=
  fun f h ha => hDecrypt_view hE _ f h a p q r aad k o ha.1 ha.2.1 ha.2.2

theorem secret_vs (hE : E.Fits) (a p : Addr) (k l : EcKey) :
    ViewSpec (onlyStrict []) (fun h => Has isKey h a k ∧ Has isKey h p l) (gives isBuf (E.sharedSecret k l))
      (hSecret E (some a) (some p)) :=
  fun f h ha => hSecret_view hE _ f h a p k l ha.1 ha.2

theorem hmac_vs (hE : E.Fits) (a p : Addr) (b k : Bytes) (d : Digest) :
    ViewSpec (onlyStrict []) (fun h => Has isBuf h a b ∧ Has isBuf h p k) (gives isBuf (E.hmac b k d))
      (hHmac E (some a) (some p) d) :=
  fun f h ha => hHmac_view hE _ f h a p b k d ha.1 ha.2

theorem identity_sign_vs (hE : E.Fits) (a p : Addr) (i : Identity) (b n : Bytes) :
    ViewSpec (only []) (fun h => Has isId h a i ∧ Has isBuf h p b) (gives isSig (identitySign E i b n))
      (hIdentitySign E (some a) (some p) n) :=
  fun f h ha => hIdentitySign_view hE _ f trivial h a p i b n ha.1 ha.2

theorem node_identity_vs (hE : E.Fits) (a : Addr) (p : Ptr) (i : Identity) (idn : Option Bytes) (cv : Curve)
    (pub pri rid n : Bytes) (hv : ValidBuf pub) (hv' : ValidBuf pri) (hr : ValidBuf rid) :
    ViewSpec (only (idn.getD rid :: signPubs E i pub n)) (fun h => Has isId h a i ∧ HasOpt isBuf h p idn)
      (gives isId (nodeIdentityGen E i ⟨cv, pub, some pri⟩ (idn.getD rid) n)) (hNodeIdentityGen E (some a) p cv pub pri rid n) :=
  fun f h ha => hNodeIdentityGen_view hE _ f trivial h a p i idn cv pub pri rid n hv hv' hr (by simp)
    (fun s hs => by simp [hs]) ha.1 ha.2

theorem ephemeral_vs (hE : E.Fits) (id : UInt64) (a : Addr) (i : Identity) (cv : Curve) (pub pri n : Bytes) (hv : ValidBuf pub)
    (hv' : ValidBuf pri) :
    ViewSpec (only (signPubs E i pub n)) (fun h => Has isId h a i) (gives isEph (ephGenerate E id i ⟨cv, pub, some pri⟩ n))
      (hEphGenerate E id (some a) cv pub pri n) :=
  fun f h ha => hEphGenerate_view hE _ f trivial h id a i cv pub pri n hv hv' (fun s hs => by simp [hs]) ha

end Wickr
