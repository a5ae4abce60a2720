import Verif.Lemmas.ViewSpecs
import Verif.Lemmas.SepText
/-
Texts, fingerprints and raw signatures: the functions in the form from which statements about runs follow.
-/
namespace Wickr
open Asrt Spec

variable {E : Engine}

/-- Anything may be released, and NULL may not be dereferenced. -/
abbrev anyStrict : Rules := { pub := fun _ => True, crash := False }

theorem hex_vs (fill : Nat → UInt8) (a : Addr) (b : Bytes) :
    ViewSpec (onlyStrict []) (fun h => Has isBuf h a b) (gives isText (hexEncode fill (some b)).toOption) (hHex (some a)) :=
  fun f h ha => hHex_view _ f fill h a b ha

theorem unhex_vs (a : Addr) (t : CBuf) (hu : hexDecode (some t) ≠ .ub) :
    ViewSpec (onlyStrict []) (fun h => Has isText h a t) (gives isBuf (hexDecode (some t)).toOption) (hUnhex (some a)) :=
  fun f h ha => hUnhex_view _ f h a t ha hu

theorem base64_vs (fill : Nat → UInt8) (a : Addr) (b : Bytes) :
    ViewSpec (onlyStrict []) (fun h => Has isBuf h a b) (gives isText (base64Encode fill (some b)).toOption) (hBase64 (some a)) :=
  fun f h ha => hBase64_view _ f fill h a b ha

theorem unbase64_vs (a : Addr) (t : CBuf) (hu : base64Decode (some t) ≠ .ub) :
    ViewSpec anyStrict (fun h => Has isText h a t) (gives isSlack (base64Decode (some t)).toOption) (hUnbase64 (some a)) :=
  fun f h ha => hUnbase64_view _ f h a t ha hu

theorem base32_vs (a : Addr) (b : Bytes) :
    ViewSpec (onlyStrict []) (fun h => Has isBuf h a b) (gives isBuf (base32Encode (some b)).toOption) (hBase32 (some a)) :=
  fun f h ha => hBase32_view _ f h a b ha

theorem unbase32_vs (a : Addr) (b : Bytes) :
    ViewSpec anyStrict (fun h => Has isBuf h a b) (gives isSlack (base32Decode (some b)).toOption) (hUnbase32 (some a)) :=
  fun f h ha => hUnbase32_view _ f (fun _ => trivial) h a b ha

theorem pub_fixed_vs (a : Addr) (k : EcKey) :
    ViewSpec (onlyStrict []) (fun h => Has isKey h a k) (gives isBuf (ecKeyPubFixed k)) (hPubFixed (some a)) :=
  fun f h ha => hPubFixed_view _ f h a k ha

theorem fp_gen_vs (hE : E.Fits) (a p : Addr) (k : EcKey) (i : Bytes) :
    ViewSpec (only (fpPubs E ⟨.root, i, k, none⟩)) (fun h => Has isKey h a k ∧ Has isBuf h p i) (gives isFp (fpGen E k i))
      (hFpGen E (some a) (some p)) :=
  fun f h ha => hFpGen_view hE _ f trivial h a p k i (fpPubs_ok _ ⟨.root, i, k, none⟩ fun _ h => h) ha.1 ha.2

theorem fp_identity_vs (hE : E.Fits) (a : Addr) (i : Identity) :
    ViewSpec (only (fpPubs E i)) (fun h => Has isId h a i) (gives isFp (identityFp E i)) (hIdentityFp E (some a)) :=
  fun f h ha => hIdentityFp_view hE _ f trivial h a i (fpPubs_ok _ i fun _ h => h) ha

theorem fp_bilateral_vs (hE : E.Fits) (a p : Addr) (i j : Identity) :
    ViewSpec (only (bilateralPubs E i j)) (fun h => Has isId h a i ∧ Has isId h p j) (gives isFp (bilateralFp E i j))
      (hBilateralFp E (some a) (some p)) :=
  fun f h ha => hBilateralFp_view hE _ f trivial h a p i j (fun _ h => h) ha.1 ha.2

/-- What combining two fingerprints releases. -/
def Spec.combinePubs (E : Engine) (x y : Bytes) : List Bytes := (fpOrder x y x y).toList ++ (fpCombine E x y).toList

theorem fp_combine_vs (hE : E.Fits) (a p : Addr) (x y : Bytes) :
    ViewSpec (only (combinePubs E x y)) (fun h => Has isFp h a x ∧ Has isFp h p y) (gives isFp (fpCombine E x y))
      (hFpCombine E (some a) (some p)) :=
  fun f h ha => hFpCombine_view hE _ f trivial h a p x y (fun hl b hb => ⟨by simp [combinePubs, hb], fun d hd => by
    have : fpCombine E x y = some d := by simp [fpCombine, fpDigest, hl, hb, hd]
    simp [combinePubs, this]⟩) ha.1 ha.2

theorem fp_b32_vs (a : Addr) (x : Bytes) (short : Bool) (hu : fpB32 x short ≠ .ub) :
    ViewSpec (only []) (fun h => Has isFp h a x) (gives isText (fpB32 x short).toOption) (hFpB32 (some a) short) :=
  fun f h ha => hFpB32_view _ f trivial h a x short hu ha

theorem fp_hex_vs (fill : Nat → UInt8) (a : Addr) (x : Bytes) (short : Bool) (hu : fpHex fill x short ≠ .ub) :
    ViewSpec (only []) (fun h => Has isFp h a x) (gives isText (fpHex fill x short).toOption) (hFpHex (some a) short) :=
  fun f h ha => hFpHex_view _ f trivial fill h a x short hu ha

theorem to_raw_vs (D : DerSig) (a : Addr) (x : EcdsaResult) :
    ViewSpec (onlyStrict []) (fun h => Has isSig h a x) (gives isBuf (ecdsaToRaw D x)) (hToRaw D (some a)) :=
  fun f h ha => hToRaw_view _ f h a D x ha

theorem from_raw_vs (D : DerSig) (cv : Curve) (d : Digest) (a : Addr) (b : Bytes) :
    ViewSpec (only []) (fun h => Has isBuf h a b) (gives isSig (ecdsaFromRaw D cv d b)) (hFromRaw D cv d (some a)) :=
  fun f h ha => hFromRaw_view _ f trivial h a D cv d b ha

theorem fpKeep {cr : Prop} : KeepSpec (V := Bytes) (fun v => ⟨(· ∈ [v]), cr, False⟩) isFp (fun _ => True) (fun v => fresh isFp v) hFpCopy :=
  fun a v _ f h hx => hFpCopy_view _ f h a v (by simp) (has_of hx)

/-! ### `openssl_hmac_verify` -/

theorem hHmacVerify_view (hE : E.Fits) (c : Rules) (f : Bool) (h : Heap) (a p q : Addr) (b k x : Bytes) (d : Digest)
    (ha : Has isBuf h a b) (hk : Has isBuf h p k) (hx : Has isBuf h q x) :
    Triple c f (keep h) (hHmacVerify E (some a) (some p) d (some q))
      (fun r f' => keep h ∗ ⌜(r = true → E.hmac b k d = some x) ∧ (f' = false → E.hmac b k d = some x → r = true)⌝) := by
  unfold hHmacVerify
  refine Triple.bind (hHmac_view hE c f h a p b k d ha hk) fun r f' _ => ?_
  cases r with
  | none =>
    unfold gives
    dsimp only
    rw [Asrt.star_comm]
    refine Triple.pure fun hz => Triple.ret fun y hy => ?_
    rw [Asrt.star_comm]
    refine Asrt.pure_star.2 ⟨⟨nofun, fun h1 h2 => ?_⟩, hy⟩
    rcases hz with h | h
    · simp [h1] at h
    · simp [h] at h2
  | some w =>
    unfold gives
    dsimp only
    sintro
    rename_i v hv
    sread readOwned w v
    sread readBuf_view hx
    sstep hBufDestroyZero_spec (c := c) (a := w) (b := v) _
    intro _ _ _
    sintro
    refine Triple.ret fun y hy => ?_
    rw [Asrt.star_comm]
    refine Asrt.pure_star.2 ⟨?_, hy⟩
    have e : bufIsEqual (some v) (some x) none = true ↔ v = x := by
      unfold bufIsEqual
      by_cases h : v = x
      · simp [h]
      · simp [h]
    rw [e, hv]
    exact ⟨fun h => by rw [h], fun _ h => by simpa using h⟩

end Wickr
