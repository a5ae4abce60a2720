import Verif.Lemmas.ViewSpecsText
import Verif.Lemmas.Refute
import Verif.Lemmas.WitnessPair
import Verif.Lemmas.Fits
/-
C78-C83 and C86-C88 for texts, fingerprints, raw signatures and HMACs.
-/
namespace Wickr
open Asrt Spec

variable {E : Engine}

/-! ### Hexadecimal, base 64 and base 32 -/

/-- `getHexStringFromData`. -/
theorem C86_hex (fill : Nat → UInt8) (a : Addr) (b : Bytes) :
    Computes (fun h => Has isBuf h a b) isText (hexEncode fill (some b)).toOption (hHex (some a)) := Computes.of (hex_vs fill a b)

theorem C87_hex (a : Addr) (b : Bytes) :
    Tidy (fun h => Has isBuf h a b) isText (hHex (some a)) ∧ Sturdy (fun h => Has isBuf h a b) (hHex (some a)) :=
  ⟨Tidy.of (hex_vs (fun _ => 0) a b), Sturdy.of (hex_vs (fun _ => 0) a b) id⟩

theorem C88_hex (a : Addr) (b : Bytes) : Discreet (fun h => Has isBuf h a b) [] (hHex (some a)) :=
  Discreet.of (hex_vs (fun _ => 0) a b) fun _ h => h

/-- `getDataFromHexString`, of a text that ends within its block. -/
theorem C86_unhex (a : Addr) (t : CBuf) (hu : hexDecode (some t) ≠ .ub) :
    Computes (fun h => Has isText h a t) isBuf (hexDecode (some t)).toOption (hUnhex (some a)) := Computes.of (unhex_vs a t hu)

theorem C87_unhex (a : Addr) (t : CBuf) (hu : hexDecode (some t) ≠ .ub) :
    Tidy (fun h => Has isText h a t) isBuf (hUnhex (some a)) ∧ Sturdy (fun h => Has isText h a t) (hUnhex (some a)) :=
  ⟨Tidy.of (unhex_vs a t hu), Sturdy.of (unhex_vs a t hu) id⟩

theorem C88_unhex (a : Addr) (t : CBuf) (hu : hexDecode (some t) ≠ .ub) :
    Discreet (fun h => Has isText h a t) [] (hUnhex (some a)) := Discreet.of (unhex_vs a t hu) fun _ h => h

/-- `getBase64FromData`. -/
theorem C86_base64 (fill : Nat → UInt8) (a : Addr) (b : Bytes) :
    Computes (fun h => Has isBuf h a b) isText (base64Encode fill (some b)).toOption (hBase64 (some a)) := Computes.of (base64_vs fill a b)

theorem C87_base64 (a : Addr) (b : Bytes) :
    Tidy (fun h => Has isBuf h a b) isText (hBase64 (some a)) ∧ Sturdy (fun h => Has isBuf h a b) (hBase64 (some a)) :=
  ⟨Tidy.of (base64_vs (fun _ => 0) a b), Sturdy.of (base64_vs (fun _ => 0) a b) id⟩

theorem C88_base64 (a : Addr) (b : Bytes) : Discreet (fun h => Has isBuf h a b) [] (hBase64 (some a)) :=
  Discreet.of (base64_vs (fun _ => 0) a b) fun _ h => h

/-- `getDataFromBase64`, of a text that ends within its block. -/
theorem C86_unbase64 (a : Addr) (t : CBuf) (hu : base64Decode (some t) ≠ .ub) :
    Computes (fun h => Has isText h a t) isSlack (base64Decode (some t)).toOption (hUnbase64 (some a)) := Computes.of (unbase64_vs a t hu)

theorem C87_unbase64 (a : Addr) (t : CBuf) (hu : base64Decode (some t) ≠ .ub) :
    Tidy (fun h => Has isText h a t) isSlack (hUnbase64 (some a)) ∧ Sturdy (fun h => Has isText h a t) (hUnbase64 (some a)) :=
  ⟨Tidy.of (unbase64_vs a t hu), Sturdy.of (unbase64_vs a t hu) id⟩

/-- `base32_encode`. -/
theorem C86_base32 (a : Addr) (b : Bytes) :
    Computes (fun h => Has isBuf h a b) isBuf (base32Encode (some b)).toOption (hBase32 (some a)) := Computes.of (base32_vs a b)

theorem C87_base32 (a : Addr) (b : Bytes) :
    Tidy (fun h => Has isBuf h a b) isBuf (hBase32 (some a)) ∧ Sturdy (fun h => Has isBuf h a b) (hBase32 (some a)) :=
  ⟨Tidy.of (base32_vs a b), Sturdy.of (base32_vs a b) id⟩

theorem C88_base32 (a : Addr) (b : Bytes) : Discreet (fun h => Has isBuf h a b) [] (hBase32 (some a)) :=
  Discreet.of (base32_vs a b) fun _ h => h

/-- `base32_decode`. -/
theorem C86_unbase32 (a : Addr) (b : Bytes) :
    Computes (fun h => Has isBuf h a b) isSlack (base32Decode (some b)).toOption (hUnbase32 (some a)) := Computes.of (unbase32_vs a b)

theorem C87_unbase32 (a : Addr) (b : Bytes) :
    Tidy (fun h => Has isBuf h a b) isSlack (hUnbase32 (some a)) ∧ Sturdy (fun h => Has isBuf h a b) (hUnbase32 (some a)) :=
  ⟨Tidy.of (unbase32_vs a b), Sturdy.of (unbase32_vs a b) id⟩

/-! ### Fingerprints -/

/-- `wickr_ec_key_get_pubdata_fixed_len`. -/
theorem C86_pub_fixed (a : Addr) (k : EcKey) : Computes (fun h => Has isKey h a k) isBuf (ecKeyPubFixed k) (hPubFixed (some a)) :=
  Computes.of (pub_fixed_vs a k)

theorem C87_pub_fixed (a : Addr) (k : EcKey) :
    Tidy (fun h => Has isKey h a k) isBuf (hPubFixed (some a)) ∧ Sturdy (fun h => Has isKey h a k) (hPubFixed (some a)) :=
  ⟨Tidy.of (pub_fixed_vs a k), Sturdy.of (pub_fixed_vs a k) id⟩

theorem C88_pub_fixed (a : Addr) (k : EcKey) : Discreet (fun h => Has isKey h a k) [] (hPubFixed (some a)) :=
  Discreet.of (pub_fixed_vs a k) fun _ h => h

/-- `wickr_fingerprint_gen`; without memory the digest dereferences NULL: `C87_digest_not_sturdy`. -/
theorem C86_fp_gen (hE : E.Fits) (a p : Addr) (k : EcKey) (i : Bytes) :
    Computes (fun h => Has isKey h a k ∧ Has isBuf h p i) isFp (fpGen E k i) (hFpGen E (some a) (some p)) :=
  Computes.of (fp_gen_vs hE a p k i)

theorem C87_fp_gen (hE : E.Fits) (a p : Addr) (k : EcKey) (i : Bytes) :
    Tidy (fun h => Has isKey h a k ∧ Has isBuf h p i) isFp (hFpGen E (some a) (some p)) := Tidy.of (fp_gen_vs hE a p k i)

/-- Only the padded public key, the identifier with it, and their hash are released; no private key is. -/
theorem C88_fp_gen (hE : E.Fits) (a p : Addr) (k : EcKey) (i : Bytes) :
    Discreet (fun h => Has isKey h a k ∧ Has isBuf h p i) (fpPubs E ⟨.root, i, k, none⟩) (hFpGen E (some a) (some p)) :=
  Discreet.of (fp_gen_vs hE a p k i) fun _ h => h

/-- `wickr_identity_get_fingerprint`. -/
theorem C86_fp_identity (hE : E.Fits) (a : Addr) (i : Identity) :
    Computes (fun h => Has isId h a i) isFp (identityFp E i) (hIdentityFp E (some a)) := Computes.of (fp_identity_vs hE a i)

theorem C87_fp_identity (hE : E.Fits) (a : Addr) (i : Identity) :
    Tidy (fun h => Has isId h a i) isFp (hIdentityFp E (some a)) := Tidy.of (fp_identity_vs hE a i)

theorem C88_fp_identity (hE : E.Fits) (a : Addr) (i : Identity) :
    Discreet (fun h => Has isId h a i) (fpPubs E i) (hIdentityFp E (some a)) := Discreet.of (fp_identity_vs hE a i) fun _ h => h

/-- `wickr_identity_get_bilateral_fingerprint`. -/
theorem C86_fp_bilateral (hE : E.Fits) (a p : Addr) (i j : Identity) :
    Computes (fun h => Has isId h a i ∧ Has isId h p j) isFp (bilateralFp E i j) (hBilateralFp E (some a) (some p)) :=
  Computes.of (fp_bilateral_vs hE a p i j)

theorem C87_fp_bilateral (hE : E.Fits) (a p : Addr) (i j : Identity) :
    Tidy (fun h => Has isId h a i ∧ Has isId h p j) isFp (hBilateralFp E (some a) (some p)) := Tidy.of (fp_bilateral_vs hE a p i j)

theorem C88_fp_bilateral (hE : E.Fits) (a p : Addr) (i j : Identity) :
    Discreet (fun h => Has isId h a i ∧ Has isId h p j) (bilateralPubs E i j) (hBilateralFp E (some a) (some p)) :=
  Discreet.of (fp_bilateral_vs hE a p i j) fun _ h => h

/-- `wickr_fingerprint_gen_bilateral`. -/
theorem C86_fp_combine (hE : E.Fits) (a p : Addr) (x y : Bytes) :
    Computes (fun h => Has isFp h a x ∧ Has isFp h p y) isFp (fpCombine E x y) (hFpCombine E (some a) (some p)) :=
  Computes.of (fp_combine_vs hE a p x y)

theorem C87_fp_combine (hE : E.Fits) (a p : Addr) (x y : Bytes) :
    Tidy (fun h => Has isFp h a x ∧ Has isFp h p y) isFp (hFpCombine E (some a) (some p)) := Tidy.of (fp_combine_vs hE a p x y)

theorem C88_fp_combine (hE : E.Fits) (a p : Addr) (x y : Bytes) :
    Discreet (fun h => Has isFp h a x ∧ Has isFp h p y) (combinePubs E x y) (hFpCombine E (some a) (some p)) :=
  Discreet.of (fp_combine_vs hE a p x y) fun _ h => h

/-- `wickr_fingerprint_get_b32`, of a fingerprint whose text fits into a buffer or that is asked for in full. -/
theorem C86_fp_b32 (a : Addr) (x : Bytes) (short : Bool) (hu : fpB32 x short ≠ .ub) :
    Computes (fun h => Has isFp h a x) isText (fpB32 x short).toOption (hFpB32 (some a) short) := Computes.of (fp_b32_vs a x short hu)

theorem C87_fp_b32 (a : Addr) (x : Bytes) (short : Bool) (hu : fpB32 x short ≠ .ub) :
    Tidy (fun h => Has isFp h a x) isText (hFpB32 (some a) short) := Tidy.of (fp_b32_vs a x short hu)

theorem C88_fp_b32 (a : Addr) (x : Bytes) (short : Bool) (hu : fpB32 x short ≠ .ub) :
    Discreet (fun h => Has isFp h a x) [] (hFpB32 (some a) short) := Discreet.of (fp_b32_vs a x short hu) fun _ h => h

/-- `wickr_fingerprint_get_hex`. -/
theorem C86_fp_hex (fill : Nat → UInt8) (a : Addr) (x : Bytes) (short : Bool) (hu : fpHex fill x short ≠ .ub) :
    Computes (fun h => Has isFp h a x) isText (fpHex fill x short).toOption (hFpHex (some a) short) :=
  Computes.of (fp_hex_vs fill a x short hu)

theorem C87_fp_hex (fill : Nat → UInt8) (a : Addr) (x : Bytes) (short : Bool) (hu : fpHex fill x short ≠ .ub) :
    Tidy (fun h => Has isFp h a x) isText (hFpHex (some a) short) := Tidy.of (fp_hex_vs fill a x short hu)

theorem C88_fp_hex (fill : Nat → UInt8) (a : Addr) (x : Bytes) (short : Bool) (hu : fpHex fill x short ≠ .ub) :
    Discreet (fun h => Has isFp h a x) [] (hFpHex (some a) short) := Discreet.of (fp_hex_vs fill a x short hu) fun _ h => h

/-- `wickr_fingerprint_copy` and `wickr_fingerprint_destroy`. -/
theorem C78_fp : CopySafe isFp (fun _ => True) id hFpCopy := CopySafe.of (KeepSpec.wasteful (KeepSpec.leaky (KeepSpec.freshL (fpKeep (cr := True)))))

theorem C79_fp_destroy : DestroySafe isFp (fun _ => True) hFpDestroy :=
  DestroySafe.of (pubs := fun v => [v]) fun _ _ _ => hFpDestroy_spec (List.mem_singleton.2 rfl)

theorem C79_fp_copy : CopyUndone isFp (fun _ => True) hFpCopy hFpDestroy :=
  CopyUndone.of (KeepSpec.leaky (KeepSpec.freshL (fpKeep (cr := True)))) C79_fp_destroy (fun _ _ _ _ => trivial)

theorem C80_fp : CopyNoLeak isFp (fun _ => True) hFpCopy := CopyNoLeak.of (KeepSpec.freshL (fpKeep (cr := True)))

theorem C81_fp : CopyFaithful isFp (fun _ => True) id hFpCopy :=
  CopyFaithful.of (KeepSpec.wasteful (KeepSpec.leaky (KeepSpec.freshL (fpKeep (cr := True)))))

theorem C82_fp : CopyNoCrash isFp (fun _ => True) hFpCopy := CopyNoCrash.of (pubs := fun v => [v]) (fpKeep (cr := False))

/-! ### Raw signatures and HMACs -/

/-- `openssl_ecdsa_to_raw`. -/
theorem C86_to_raw (D : DerSig) (a : Addr) (x : EcdsaResult) :
    Computes (fun h => Has isSig h a x) isBuf (ecdsaToRaw D x) (hToRaw D (some a)) := Computes.of (to_raw_vs D a x)

theorem C87_to_raw (D : DerSig) (a : Addr) (x : EcdsaResult) :
    Tidy (fun h => Has isSig h a x) isBuf (hToRaw D (some a)) ∧ Sturdy (fun h => Has isSig h a x) (hToRaw D (some a)) :=
  ⟨Tidy.of (to_raw_vs D a x), Sturdy.of (to_raw_vs D a x) id⟩

theorem C88_to_raw (D : DerSig) (a : Addr) (x : EcdsaResult) : Discreet (fun h => Has isSig h a x) [] (hToRaw D (some a)) :=
  Discreet.of (to_raw_vs D a x) fun _ h => h

/-- `openssl_ecdsa_from_raw`; without memory for the result NULL is dereferenced: `C87_from_raw_not_sturdy`. -/
theorem C86_from_raw (D : DerSig) (cv : Curve) (d : Digest) (a : Addr) (b : Bytes) :
    Computes (fun h => Has isBuf h a b) isSig (ecdsaFromRaw D cv d b) (hFromRaw D cv d (some a)) := Computes.of (from_raw_vs D cv d a b)

theorem C87_from_raw (D : DerSig) (cv : Curve) (d : Digest) (a : Addr) (b : Bytes) :
    Tidy (fun h => Has isBuf h a b) isSig (hFromRaw D cv d (some a)) := Tidy.of (from_raw_vs D cv d a b)

theorem C88_from_raw (D : DerSig) (cv : Curve) (d : Digest) (a : Addr) (b : Bytes) :
    Discreet (fun h => Has isBuf h a b) [] (hFromRaw D cv d (some a)) := Discreet.of (from_raw_vs D cv d a b) fun _ h => h

/-- `openssl_hmac_verify` with an expected value, whatever the allocator does: it returns; memory is as it was; what it computed was
wiped; it accepts only the HMAC, and accepts the HMAC if no allocation failed. -/
theorem C86_hmac_verify (hE : E.Fits) (a p q : Addr) (b k x : Bytes) (d : Digest) (A : Alloc) (s : St) (hs : s.oom = false)
    (ha : Has isBuf s.heap a b) (hk : Has isBuf s.heap p k) (hx : Has isBuf s.heap q x) :
    ∃ r s', hHmacVerify E (some a) (some p) d (some q) A s = .ret r s' ∧ s'.heap = s.heap ∧
      (∀ y ∈ s'.log, y ∈ s.log ∨ Wiped y) ∧ (r = true → E.hmac b k d = some x) ∧
      (s'.oom = false → (r = true ↔ E.hmac b k d = some x)) := by
  have := hHmacVerify_view hE .strict false s.heap a p q b k x d ha hk hx A s emp hs (by rw [Asrt.star_emp]; rfl)
  revert this
  cases e : hHmacVerify E (some a) (some p) d (some q) A s with
  | ub => exact fun h => h.elim
  | crash s' => exact fun h => h.1.elim
  | ret r s' =>
    intro h
    obtain ⟨h1, _, h3⟩ := h
    rw [Asrt.star_emp, Asrt.star_comm] at h1
    obtain ⟨⟨h4, h5⟩, h6⟩ := Asrt.pure_star.1 h1
    refine ⟨r, s', rfl, h6, fun y hy => (h3 y hy).imp_right ?_, h4, fun h => ⟨h4, h5 h⟩⟩
    rintro (h | h | h)
    · exact h
    · exact h.elim
    · exact h.2.elim

/-! ### There are such objects -/

/-- Makes a text. -/
theorem litText_spec (c : Rules) (f : Bool) (hc : c.crash) (b : Bytes) (hb : 0 < b.length ∧ b.length ≤ 1000) :
    Triple c f emp (litBuf b) (fun r _ => made isText ⟨b, b.length⟩ r) :=
  Triple.conseq (litBuf_spec c f hc b hb) (fun _ h => h) fun r _ h _ hr => by
    cases r with
    | none => exact hr
    | some a => exact isBuf_text _ hr

/-- Makes a fingerprint. -/
def litFp (b : Bytes) : H Ptr := do
  let p ← litBuf b
  onNull (hFpCreate p) (do store none (Cell.raw 0); Pure.pure none) fun p => pure p

theorem litFp_spec (c : Rules) (f : Bool) (hc : c.crash) (b : Bytes) (hb : 0 < b.length ∧ b.length ≤ 1000) :
    Triple c f emp (litFp b) (fun r _ => made isFp b r) := by
  have := litBuf_spec c f hc b hb
  unfold litFp
  sgo

example : ∃ (s : St) (a : Addr), s.oom = false ∧ Has isText s.heap a ⟨[0x34, 0x31, 0], 3⟩ :=
  exists_has (litText_spec _ _ trivial [0x34, 0x31, 0] (by decide)) (by decide +kernel)
example : hexDecode (some ⟨[0x34, 0x31, 0], 3⟩) = .ok [0x41] := by decide +kernel
example : base64Decode (some ⟨[0x51, 0x55, 0x49, 0x3d, 0], 4⟩) ≠ .ub := by decide +kernel
example : base32Decode (some [0x38, 0x34]) = .ok [0x41] := by decide +kernel
example : ∃ (s : St) (a : Addr), s.oom = false ∧ Has isFp s.heap a [1, 2] :=
  exists_has (litFp_spec _ _ trivial [1, 2] (by decide)) (by decide +kernel)
example : fpHex (fun _ => 0) [1, 2] true ≠ .ub ∧ fpB32 [1, 2] true ≠ .ub := by decide +kernel

/-! ### Lack of memory -/

/-- The short form of a fingerprint is written through NULL if there is no memory for the text: fingerprint.c:186. -/
theorem C87_fp_short_not_sturdy : ¬ ∀ a, Sturdy (fun h => Has isFp h a [1, 2]) (hFpHex (some a) true) :=
  not_sturdy (m := fun p => hFpHex p true) [3] (litFp_spec _ _ trivial [1, 2] (by decide)) (fun _ _ h => h) (by decide +kernel)

theorem C87_fp_short_b32_not_sturdy : ¬ ∀ a, Sturdy (fun h => Has isFp h a [1, 2]) (hFpB32 (some a) true) :=
  not_sturdy (m := fun p => hFpB32 p true) [3] (litFp_spec _ _ trivial [1, 2] (by decide)) (fun _ _ h => h) (by decide +kernel)

set_option maxRecDepth 20000 in
/-- The structure of a signature is written through NULL if there is no memory for it: ecdsa.c:7-19. -/
theorem C87_from_raw_not_sturdy : ¬ ∀ a, Sturdy (fun h => Has isBuf h a (List.replicate 132 1))
    (hFromRaw ⟨fun _ => none, fun _ _ => [1]⟩ .p521 .sha256 (some a)) :=
  not_sturdy (m := hFromRaw ⟨fun _ => none, fun _ _ => [1]⟩ .p521 .sha256) [4] (litBuf_spec _ _ trivial (List.replicate 132 1) (by decide))
    (fun _ _ h => h) (by decide +kernel)

/-- `openssl_hmac_verify` without an expected value leaves the HMAC it computed in memory, although no allocation failed. -/
theorem C87_hmac_verify_leaks : ∃ (A : Alloc) (s s' : St) (a : Addr), s.oom = false ∧ Has isBuf s.heap a [1] ∧
    hHmacVerify toyEngine (some a) (some a) .sha256 none A s = .ret false s' ∧ s'.oom = false ∧ s'.heap ≠ s.heap := by
  obtain ⟨s, a, h1, h2, h3⟩ := run_of (m := fun p => hHmacVerify toyEngine p p .sha256 none)
    (fun s o => match o with
      | .ret r s' => !r && !s'.oom && decide (s'.heap 2 ≠ s.heap 2)
      | _ => false) [] (litBuf_spec _ _ trivial [1] (by decide)) (fun _ _ h => h) (by decide +kernel)
  revert h3
  cases e : hHmacVerify toyEngine (some a) (some a) .sha256 none (bump []) s with
  | ub => exact fun h => nomatch h
  | crash s' => exact fun h => nomatch h
  | ret r s' =>
    intro h
    dsimp only at h
    simp only [Bool.and_eq_true, Bool.not_eq_true', decide_eq_true_eq] at h
    obtain ⟨⟨rfl, h4⟩, h5⟩ := h
    exact ⟨bump [], s, s', a, h1, h2, e, h4, fun h => h5 (congrFun h 2)⟩

end Wickr
