import Verif.Lemmas.View
import Verif.Lemmas.SepKeys
import Verif.Lemmas.SepMsg
import Verif.Model.HeapEngine
import Verif.Spec.Fits
/-
The functions of the crypto engine on the heap.
-/
namespace Wickr
open Asrt Spec

theorem has_valid {h : Heap} {a : Addr} {b : Bytes} (hb : Has isBuf h a b) : ValidBuf b := by
  sview hb isBuf
  assumption

theorem readOpt_view {h : Heap} {p : Ptr} {v : Option Bytes} (hb : HasOpt isBuf h p v) : Reads (keep h) (readOpt p) v := by
  intro c f
  unfold readOpt
  svopt <;> vgo

theorem readKey_view {h : Heap} {a : Addr} {k : EcKey} (hb : Has isKey h a k) : Reads (keep h) (readKey (some a)) k := by
  intro c f
  unfold readKey
  obtain ⟨cv, pub, pri⟩ := k
  sview hb isKey
  vgo

theorem readSig_view {h : Heap} {a : Addr} {s : EcdsaResult} (hb : Has isSig h a s) : Reads (keep h) (readSig (some a)) s := by
  intro c f
  unfold readSig
  obtain ⟨cv, d, b⟩ := s
  sview hb isSig
  vgo

theorem readCKey_view {h : Heap} {a : Addr} {k : CipherKey} (hb : Has isCKey h a k) : Reads (keep h) (readCKey (some a)) k := by
  intro c f
  unfold readCKey
  obtain ⟨cv, b⟩ := k
  sview hb isCKey
  vgo

theorem readCRes_view {h : Heap} {a : Addr} {r : CipherResult} (hb : Has isCRes h a r) : Reads (keep h) (readCRes (some a)) r := by
  intro c f
  unfold readCRes
  obtain ⟨cv, iv, ct, tag⟩ := r
  sview hb isCRes
  vgo

/-! ### New buffers -/

theorem hOut_spec (c : Rules) (f : Bool) (b : Bytes) (hv : ValidBuf b) :
    Triple c f emp (hOut b) (fun r f' => fresh isBuf b r f') := by
  have : hOut b = hBufCreate b := by
    unfold hOut hBufCreate onNull
    congr 1
  rw [this]
  refine Triple.conseq (hBufCreate_spec c f b) (fun _ h => h) ?_
  intro r f' h _ hh
  cases r with
  | none => exact ⟨hh.1.resolve_right (fun h => h hv), hh.2⟩
  | some q => exact hh

theorem hOutUntested_spec (c : Rules) (f : Bool) (hc : c.crash) (b : Bytes) (hv : ValidBuf b) :
    Triple c f emp (hOutUntested b) (fun r _ => made isBuf b r) := by
  unfold hOutUntested
  sstep hBufNew_spec c f _ _
  intro p f1 h1
  rw [Asrt.star_emp]
  cases p with
  | none =>
    refine Triple.pure' fun h => ?_
    have h : f1 = true := h.resolve_right (fun h => h hv)
    subst h
    intro A s F hf hp
    exact ⟨hc, hf, fun b hb => Or.inl hb⟩
  | some a =>
    dsimp only
    refine Triple.pure fun hv => Triple.ex fun q => ?_
    sread field_reads a _ _ 0 (some q) rfl
    simp only [Bool.false_eq_true, if_false]
    sstep fill_spec c f1 q b
    intro _ f3 h3
    exact Triple.ret fun h' hh => Asrt.pure_star.2 ⟨hv, q, by rwa [Asrt.star_comm] at hh⟩

theorem hRandom_spec (c : Rules) (f : Bool) (hc : c.crash) (b : Bytes) (hv : ValidBuf b) :
    Triple c f emp (hRandom b) (fun r _ => made isBuf b r) := by
  unfold hRandom
  rw [if_neg (by have := hv.2; simp only [maxBuffer, intMax] at *; omega)]
  exact hOutUntested_spec c f hc b hv

theorem hRandCKey_spec (c : Rules) (f : Bool) (hc : c.crash) (k : CipherKey) (hv : ValidBuf k.key)
    (hk : k.key.length = k.cipher.keyLen) :
    Triple c f emp (hRandCKey k) (fun r f' => fresh isCKey k r f') := by
  unfold hRandCKey
  obtain ⟨cv, k⟩ := k
  vgo

theorem hRandKey_spec (c : Rules) (f : Bool) (hc : c.crash) (cv : Curve) (pub pri : Bytes) (hv : ValidBuf pub)
    (hv' : ValidBuf pri) :
    Triple c f emp (hRandKey cv pub pri) (fun r f' => fresh isKey ⟨cv, pub, some pri⟩ r f') := by
  unfold hRandKey
  vgo

/-! ### The engine -/

variable {E : Engine}

theorem hImportBytes_spec (hE : E.Fits) (c : Rules) (f : Bool) (hc : c.crash) (b : Bytes) (pr : Bool)
    (hp : ∀ k, E.ecImport b pr = some k → c.pub k.pub) :
    Triple c f emp (hImportBytes E b pr) (fun r f' => emp ∗ gives isKey (E.ecImport b pr) r f') := by
  unfold hImportBytes
  cases hk : E.ecImport b pr with
  | none => vgo
  | some k =>
    have h1 := hp k hk
    have h2 := (hE.ecImport _ _ _ hk).1
    have h3 := (hE.ecImport _ _ _ hk).2
    obtain ⟨cv, pub, pri⟩ := k
    cases pri <;> vgo

theorem hImport_view (hE : E.Fits) (c : Rules) (f : Bool) (hc : c.crash) (h : Heap) (a : Addr) (b : Bytes) (pr : Bool)
    (hp : ∀ k, E.ecImport b pr = some k → c.pub k.pub) (hb : Has isBuf h a b) :
    Triple c f (keep h) (hImport E (some a) pr) (fun r f' => keep h ∗ gives isKey (E.ecImport b pr) r f') := by
  unfold hImport
  vgo

theorem hDigest_view (hE : E.Fits) (c : Rules) (f : Bool) (hc : c.crash) (h : Heap) (a : Addr) (p : Ptr) (b : Bytes)
    (s : Option Bytes) (d : Digest) (hb : Has isBuf h a b) (hs : HasOpt isBuf h p s) :
    Triple c f (keep h) (hDigest E (some a) p d) (fun r f' => keep h ∗ gives isBuf (E.digest b s d) r f') := by
  unfold hDigest
  vgo
  cases hk : E.digest b s d with
  | none => vgo
  | some k =>
    have h2 := hE.digest _ _ _ _ hk
    vgo

theorem hSign_view (hE : E.Fits) (c : Rules) (f : Bool) (hc : c.crash) (h : Heap) (a p : Addr) (k : EcKey)
    (b : Bytes) (d : Digest) (n : Bytes) (hb : Has isKey h a k) (hs : Has isBuf h p b) :
    Triple c f (keep h) (hSign E (some a) (some p) d n) (fun r f' => keep h ∗ gives isSig (E.sign k b d n) r f') := by
  unfold hSign
  vgo
  cases hk : E.sign k b d n with
  | none => vgo
  | some k =>
    have h2 := hE.sign _ _ _ _ _ hk
    obtain ⟨cv, d, k⟩ := k
    vgo

theorem hVerify_view (h : Heap) (p : Ptr) (a q : Addr) (s : Option EcdsaResult) (k : EcKey)
    (b : Bytes) (hb : HasOpt isSig h p s) (hs : Has isKey h a k) (hk : Has isBuf h q b) :
    Reads (keep h) (hVerify E p (some a) (some q)) (E.verifyOpt s k b) := by
  intro c f
  unfold hVerify Engine.verifyOpt
  svopt <;> vgo

theorem hDecrypt_view (hE : E.Fits) (c : Rules) (f : Bool) (h : Heap) (a p : Addr) (q : Ptr) (r : CipherResult)
    (aad : Option Bytes) (k : CipherKey) (o : Bool) (hb : Has isCRes h a r) (hq : HasOpt isBuf h q aad) (hs : Has isCKey h p k) :
    Triple c f (keep h) (hDecrypt E (some a) q (some p) o) (fun x f' => keep h ∗ gives isBuf (E.decrypt r aad k o) x f') := by
  unfold hDecrypt
  vgo
  cases hk : E.decrypt r aad k o with
  | none => vgo
  | some k =>
    have h2 := hE.decrypt _ _ _ _ _ hk
    vgo

theorem hSecret_view (hE : E.Fits) (c : Rules) (f : Bool) (h : Heap) (a p : Addr) (k l : EcKey)
    (hb : Has isKey h a k) (hs : Has isKey h p l) :
    Triple c f (keep h) (hSecret E (some a) (some p)) (fun x f' => keep h ∗ gives isBuf (E.sharedSecret k l) x f') := by
  unfold hSecret
  vgo
  cases hk : E.sharedSecret k l with
  | none => vgo
  | some k =>
    have h2 := hE.secret _ _ _ hk
    vgo

theorem hHmac_view (hE : E.Fits) (c : Rules) (f : Bool) (h : Heap) (a p : Addr) (b k : Bytes) (d : Digest)
    (hb : Has isBuf h a b) (hs : Has isBuf h p k) :
    Triple c f (keep h) (hHmac E (some a) (some p) d) (fun x f' => keep h ∗ gives isBuf (E.hmac b k d) x f') := by
  unfold hHmac
  vgo
  cases hk : E.hmac b k d with
  | none => vgo
  | some k =>
    have h2 := hE.hmac _ _ _ _ hk
    vgo

theorem hEncryptRest_spec (hE : E.Fits) (c : Rules) (f : Bool) (hc : c.crash) (b : Bytes) (aad : Option Bytes) (k : CipherKey)
    (iv : Bytes) (hv : ValidBuf b) (r : CipherResult) (hk : E.encrypt b aad k iv = some r) (hp : ∀ x ∈ r.publics, c.pub x) (p : Ptr) :
    Triple c f (fresh isBuf r.iv p f) (hEncryptRest r p) (fun x f' => emp ∗ gives isCRes (some r) x f') := by
  unfold hEncryptRest
  obtain ⟨h1, h2, ⟨ct, h3, h4⟩, h5⟩ := hE.encrypt _ _ _ _ _ hv hk
  obtain ⟨cv, iv', ct', tag⟩ := r
  dsimp only at *
  subst h3
  cases p <;> dsimp only [fresh] <;> cases tag <;> simp [CipherResult.publics] at hp h5 <;> vgo

theorem hEncryptWith_spec (hE : E.Fits) (c : Rules) (f : Bool) (hc : c.crash) (b : Bytes) (aad : Option Bytes) (k : CipherKey)
    (iv : Bytes) (hv : ValidBuf b) (hp : ∀ r, E.encrypt b aad k iv = some r → ∀ x ∈ r.publics, c.pub x) :
    Triple c f emp (hEncryptWith E b aad k iv) (fun x f' => emp ∗ gives isCRes (E.encrypt b aad k iv) x f') := by
  unfold hEncryptWith
  cases hk : E.encrypt b aad k iv with
  | none => vgo
  | some r =>
    have h1 := (hE.encrypt _ _ _ _ _ hv hk).2.1
    dsimp only
    refine Triple.seq (hRandom_spec c f hc _ h1) (by frame) fun p f' _ => ?_
    refine Triple.conseq (hEncryptRest_spec hE c f' hc b aad k iv hv r hk (hp _ hk) p) ?_ (fun _ _ _ _ h => h)
    intro x hx
    rw [Asrt.star_emp] at hx
    cases p with
    | none => exact hx.1.elim
    | some a => exact hx

theorem hEncryptGiven_spec (hE : E.Fits) (c : Rules) (f : Bool) (hc : c.crash) (b : Bytes) (aad : Option Bytes) (k : CipherKey)
    (iv : Bytes) (hv : ValidBuf b) (hp : ∀ r, E.encrypt b aad k iv = some r → ∀ x ∈ r.publics, c.pub x) :
    Triple c f emp (hEncryptGiven E b aad k iv) (fun x f' => emp ∗ gives isCRes (E.encrypt b aad k iv) x f') := by
  unfold hEncryptGiven
  cases hk : E.encrypt b aad k iv with
  | none => vgo
  | some r =>
    have h1 := (hE.encrypt _ _ _ _ _ hv hk).2.1
    dsimp only
    refine Triple.seq (hOut_spec c f _ h1) (by frame) fun p f' _ => ?_
    rw [Asrt.star_emp]
    exact hEncryptRest_spec hE c f' hc b aad k iv hv r hk (hp _ hk) p

theorem hEncrypt_view (hE : E.Fits) (c : Rules) (f : Bool) (hc : c.crash) (h : Heap) (a p : Addr) (q : Ptr) (b : Bytes)
    (aad : Option Bytes) (k : CipherKey) (iv : Bytes)
    (hp : ∀ r, E.encrypt b aad k iv = some r → ∀ x ∈ r.publics, c.pub x)
    (hb : Has isBuf h a b) (hq : HasOpt isBuf h q aad) (hs : Has isCKey h p k) :
    Triple c f (keep h) (hEncrypt E (some a) q (some p) iv) (fun x f' => keep h ∗ gives isCRes (E.encrypt b aad k iv) x f') := by
  unfold hEncrypt
  have hv := has_valid hb
  vgo

end Wickr
