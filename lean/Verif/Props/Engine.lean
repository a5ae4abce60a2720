import Verif.Lemmas.Engine
set_option linter.unusedSimpArgs false
/-
C52, C55, C56: the OpenSSL wrapper.
-/
namespace Wickr

/-- C52.  Decryption gives plaintext only if: there is cipher text, the key is for the result's
cipher, the tag has the cipher's length and GCM accepted it, and the cipher is an authenticated one
whenever authentication was demanded or AAD was given. -/
theorem C52_decrypt_requires (P : Prim) (r : CipherResult) (aad : Option Bytes) (k : CipherKey)
    (onlyAuth : Bool) (pt : Bytes) (h : aesDecrypt P r aad k onlyAuth = .ok pt) :
    k.cipher = r.cipher ∧
    (onlyAuth = true → r.cipher = .gcm) ∧ (aad ≠ none → r.cipher = .gcm) ∧
    ∃ ct, r.ct = some ct ∧ ct ≠ [] ∧
      (r.cipher = .gcm → ∃ t, r.tag = some t ∧ t.length = 16 ∧
        P.gcmOpen (k.key.take 32) (r.iv.take 12) aad ct t = some pt) ∧
      (r.cipher = .ctr → pt = P.ctr (k.key.take 32) (r.iv.take 16) ct) := by
  unfold aesDecrypt at h
  split at h
  · simp at h
  next ct hct =>
  split at h
  · simp at h
  next c1 =>
  split at h
  · simp at h
  next c2 =>
  split at h
  · simp at h
  next c3 =>
  split at h
  · simp at h
  next c4 =>
  split at h
  · simp at h
  next c5 =>
  split at h
  · simp at h
  next c6 =>
  have hid : k.cipher.id = r.cipher.id := by
    apply Decidable.byContradiction; intro hn; exact c3 (Or.inl hn)
  have hne : ct ≠ [] := by
    intro he; apply c5; intro hv; rw [he] at hv; exact absurd hv.1 (by simp)
  have hkc : k.cipher = r.cipher := by
    revert hid; cases k.cipher <;> cases r.cipher <;> decide
  cases hc : r.cipher with
  | gcm =>
    rw [hc] at h c4
    cases ht : r.tag with
    | none => rw [ht] at h; simp at h
    | some t =>
      rw [ht] at h
      have htl : t.length = 16 := by simpa [tagLenOk, ht, hc, Cipher.isAuth, Cipher.tagLen] using c4
      refine ⟨by rw [hkc, hc], fun _ => rfl, fun _ => rfl, ct, hct, hne, fun _ => ⟨t, rfl, htl, ?_⟩, by simp⟩
      simp only [Cipher.keyLen, Cipher.ivLen] at h
      revert h
      cases P.gcmOpen (List.take 32 k.key) (List.take 12 r.iv) aad ct t <;> simp [Res.ofOption]
  | ctr =>
    rw [hc] at h c1 c2
    refine ⟨by rw [hkc, hc], ?_, ?_, ct, hct, hne, by simp, fun _ => ?_⟩
    · intro hb; subst hb; simp [Cipher.isAuth] at c1
    · intro ha; exfalso; revert c2
      cases aad with
      | none => exact absurd rfl ha
      | some a => simp [Cipher.isAuth]
    · simp at h; exact h.symm

/-- C52.  The refusals, one by one: each inconsistency on its own makes decryption return NULL,
whatever the other arguments are. -/
theorem C52_decrypt_refuses (P : Prim) (r : CipherResult) (aad : Option Bytes) (k : CipherKey)
    (onlyAuth : Bool)
    (h : r.ct = none ∨ k.cipher ≠ r.cipher ∨ (onlyAuth = true ∧ r.cipher = .ctr) ∨
      (aad ≠ none ∧ r.cipher = .ctr) ∨
      (r.cipher = .gcm ∧ (r.tag = none ∨ ∃ t, r.tag = some t ∧ t.length ≠ 16))) :
    aesDecrypt P r aad k onlyAuth = .null := by
  unfold aesDecrypt
  cases hct : r.ct with
  | none => rfl
  | some ct =>
    rw [hct] at h
    rcases h with h | h | h | h | h
    · simp at h
    · have : k.cipher.id ≠ r.cipher.id := by
        revert h; cases k.cipher <;> cases r.cipher <;> decide
      simp [this]
    · simp [h.1, h.2, Cipher.isAuth]
    · cases aad with
      | none => simp at h
      | some a => simp [h.2, Cipher.isAuth]
    · obtain ⟨hc, ht⟩ := h
      simp only [hc, Cipher.isAuth, Cipher.tagLen]
      rcases ht with ht | ⟨t, ht, hl⟩
      · simp [tagLenOk, ht]
      · simp [tagLenOk, ht, hl, hc, Cipher.tagLen]

/-- C52.  Encryption succeeds only with a key and an IV of exactly the cipher's size, and AAD only
with the authenticated cipher; the result names the key's cipher, carries the given IV, and a tag
exactly for the authenticated cipher. -/
theorem C52_encrypt_requires (P : Prim) (hP : P.Lawful) (pt : Bytes) (aad : Option Bytes) (k : CipherKey)
    (iv : Bytes) (r : CipherResult) (h : aesEncrypt P pt aad k iv = .ok r) :
    k.key.length = k.cipher.keyLen ∧ iv.length = k.cipher.ivLen ∧ (aad ≠ none → k.cipher = .gcm) ∧
    r.cipher = k.cipher ∧ r.iv = iv ∧ (r.tag.isSome ↔ k.cipher = .gcm) ∧
    ∃ ct, r.ct = some ct ∧ ct.length = pt.length := by
  unfold aesEncrypt at h
  split at h
  · simp at h
  next c1 =>
  split at h
  · simp at h
  next c2 =>
  split at h
  · simp at h
  next ivf hiv =>
  have he := (dup_eq_some.1 hiv).2
  subst ivf
  split at h
  · simp at h
  split at h
  · simp at h
  next c3 =>
  cases k with
  | mk c key =>
  cases c with
  | gcm =>
    simp only [Cipher.ivLen] at h c3
    unfold cipherResultCreate at h
    split at h
    · simp [Res.ofOption] at h
    next c4 =>
    have hi : iv.length = 12 := by simpa [Cipher.ivLen] using c4
    have hl := hP.gcm_len key (iv.take 12) aad pt
    simp only [Cipher.isAuth, Option.isNone_some, Bool.and_false, Bool.false_eq_true, if_false,
      Cipher.tagLen, hl.2, ne_eq, not_true_eq_false, Res.ofOption, Res.ok.injEq] at h
    subst h
    refine ⟨?_, hi, fun _ => rfl, rfl, rfl, by simp, _, rfl, hl.1⟩
    exact Decidable.byContradiction fun hn => c2 (Or.inl hn)
  | ctr =>
    simp only [Cipher.ivLen] at h c3
    unfold cipherResultCreate at h
    split at h
    · simp [Res.ofOption] at h
    next c4 =>
    have hi : iv.length = 16 := by simpa [Cipher.ivLen] using c4
    have hl := hP.ctr_len key (iv.take 16) pt
    simp only [Cipher.isAuth, Bool.false_and, Bool.false_eq_true, if_false, Res.ofOption,
      Res.ok.injEq] at h
    subst h
    refine ⟨?_, hi, ?_, rfl, rfl, by simp, _, rfl, hl⟩
    · exact Decidable.byContradiction fun hn => c2 (Or.inl hn)
    · intro ha; exfalso; revert c1
      cases aad with
      | none => exact absurd rfl ha
      | some a => simp [Cipher.isAuth]

/-- C52.  No memory error for the objects the API builds: keys from `wickr_cipher_key_create` have
the cipher's key length, results from `wickr_cipher_result_create` its IV length, and an IV argument
of at least the cipher's IV length is needed for encryption. -/
theorem C52_no_ub (P : Prim) (aad : Option Bytes) (k : CipherKey) :
    (∀ r b, k.key.length = k.cipher.keyLen → r.iv.length = r.cipher.ivLen →
      aesDecrypt P r aad k b ≠ .ub) ∧
    (∀ pt iv, k.cipher.ivLen ≤ iv.length → aesEncrypt P pt aad k iv ≠ .ub) := by
  constructor
  · intro r b hk hi h
    unfold aesDecrypt at h
    split at h
    · simp at h
    split at h
    · simp at h
    split at h
    · simp at h
    split at h
    · simp at h
    next c3 =>
    split at h
    · simp at h
    split at h
    · simp at h
    split at h
    · next c6 =>
      have hid : k.cipher.id = r.cipher.id := by
        apply Decidable.byContradiction; intro hn; exact c3 (Or.inl hn)
      have : k.cipher = r.cipher := by
        revert hid; cases k.cipher <;> cases r.cipher <;> decide
      rw [this] at hk; omega
    · simp only at h
      split at h
      · revert h; generalize P.gcmOpen _ _ _ _ _ = z; cases z <;> simp [Res.ofOption]
      · simp at h
      · simp at h
  · intro pt iv hi h
    unfold aesEncrypt at h
    split at h
    · simp at h
    split at h
    · simp at h
    split at h
    · simp at h
    next ivf hiv =>
    obtain ⟨_, rfl⟩ := dup_eq_some.1 hiv
    split at h
    · simp at h
    split at h
    · omega
    · simp only at h
      split at h
      · revert h; cases cipherResultCreate _ _ _ _ <;> simp [Res.ofOption]
      · revert h; cases cipherResultCreate _ _ _ _ <;> simp [Res.ofOption]

/-- The precondition on the IV argument is needed: with a shorter one OpenSSL reads past the end of
the copied IV buffer. -/
theorem C52_short_iv_is_undefined :
    aesEncrypt toyPrim [1, 2, 3] none ⟨.gcm, List.replicate 32 7⟩ [9] = .ub := by decide

set_option maxRecDepth 8192 in
/-- The hypotheses of the C52 theorems are met by a concrete GCM round trip with AAD. -/
example : ∃ r, aesEncrypt toyPrim [1, 2, 3] (some [4]) ⟨.gcm, List.replicate 32 7⟩ (List.replicate 12 5) = .ok r ∧
    aesDecrypt toyPrim r (some [4]) ⟨.gcm, List.replicate 32 7⟩ true = .ok [1, 2, 3] := by
  refine ⟨_, rfl, ?_⟩; decide

set_option maxRecDepth 8192 in
/-- …and a wrong AAD is refused by the toy cipher, so acceptance is not automatic. -/
example : ∀ r, aesEncrypt toyPrim [1, 2, 3] (some [4]) ⟨.gcm, List.replicate 32 7⟩ (List.replicate 12 5) = .ok r →
    aesDecrypt toyPrim r (some [8]) ⟨.gcm, List.replicate 32 7⟩ true = .null := by
  intro r h; cases h; decide

/-- C55.  HMAC verification accepts a tag exactly if it equals the HMAC of the data under the key. -/
theorem C55_hmac_verify_exact (P : Prim) (hP : P.Lawful) (data key : Bytes) (d : Digest)
    (expected : Option Bytes) :
    hmacVerify P data key d expected = true ↔ expected = some (P.hmac d key data) := by
  have hc : hmacCreate P data key d = some (P.hmac d key data) := by
    unfold hmacCreate; simp [hP.hmac_len]
  unfold hmacVerify
  rw [hc]
  cases expected with
  | none => simp
  | some e =>
    simp only [Option.some.injEq]
    constructor
    · intro h
      simp only [bufIsEqual] at h
      split at h
      · simp at h
      · split at h
        · simp at h
        · next hn => exact (Decidable.not_not.1 hn).symm
    · intro h; subst h; simp [bufIsEqual]

example : hmacVerify toyPrim [1] [2] .sha256 (some (List.replicate 32 (toySum [2, 1]))) = true := by decide
example : hmacVerify toyPrim [1] [2] .sha256 (some (List.replicate 31 (toySum [2, 1]))) = false := by decide

/-- C56.  Over primitives that are functionally correct, the engine the library ships satisfies
every law the higher layers rely on: decryption inverts encryption, own signatures verify,
Diffie-Hellman commutes, all outputs have the documented size. -/
theorem C56_default_engine_lawful (P : Prim) (hP : P.Lawful) : (defaultEngine P).Lawful :=
  defaultEngine_lawful P hP

/-- C56.  Every key pair the engine generates round-trips through import of its private and its
public encoding. -/
theorem C56_generated_keys_import (P : Prim) (hP : P.Lawful) (s : P.Pri)
    (hi : P.isInf (P.pubOf s) = false) (hc : P.isP521 s = true) :
    ∃ k, ecRandKey P s = some k ∧ (defaultEngine P).KeyPair k :=
  ecRandKey_pair P hP s hi hc

/-- C56.  What a public key import accepts: exactly the P-521 curve byte followed by a point encoding
that is not the point at infinity; the imported key is public only. -/
theorem C56_public_import_iff (P : Prim) (b : Bytes) (k : EcKey) :
    ecKeyImport P b false = some k ↔
      ∃ rest p, b = 0 :: rest ∧ rest ≠ [] ∧ P.o2i rest = some p ∧ P.isInf p = false ∧
        (0 :: P.i2o p).length ≤ maxBuffer ∧ k = ⟨.p521, 0 :: P.i2o p, none⟩ := by
  have hd : ∀ (p : P.Pub) (x : Bytes), pubToBuffer P .p521 p = some x ↔
      (0 :: P.i2o p).length ≤ maxBuffer ∧ x = 0 :: P.i2o p := by
    intro p x
    rw [pubToBuffer, dup_eq_some]
    show ValidBuf (0 :: P.i2o p) ∧ x = 0 :: P.i2o p ↔ _
    simp [ValidBuf]
  constructor
  · intro h
    unfold ecKeyImport at h
    rw [if_neg (by simp)] at h
    cases he : evpPublic P b with
    | none => rw [he] at h; simp at h
    | some p =>
      rw [he] at h
      simp only [] at h
      split at h
      · simp at h
      next hinf =>
      unfold evpPublic at he
      split at he
      · simp at he
      next hl =>
      cases b with
      | nil => simp at he
      | cons c rest =>
        simp only [] at he
        have hc : c = 0 := by
          cases hf : Curve.find c with
          | none => rw [hf] at he; simp at he
          | some q =>
            unfold Curve.find at hf
            split at hf
            · assumption
            · simp at hf
        subst hc
        have he' : P.o2i rest = some p := he
        cases hx : pubToBuffer P .p521 p with
        | none => rw [hx] at h; simp at h
        | some x =>
          rw [hx] at h
          obtain ⟨h1, h2⟩ := (hd p x).1 hx
          subst h2
          refine ⟨rest, p, rfl, ?_, he', by simpa using hinf, h1, by simpa using h.symm⟩
          intro hr; subst hr; simp at hl
  · rintro ⟨rest, p, rfl, hr, ho, hinf, hl, rfl⟩
    have he : evpPublic P (0 :: rest) = some p := by
      unfold evpPublic
      have : ¬ (0 :: rest : Bytes).length ≤ 1 := by
        have := List.length_pos_iff.2 hr
        simp only [List.length_cons]; omega
      rw [if_neg this]
      exact ho
    unfold ecKeyImport
    rw [if_neg (by simp), he]
    simp only [hinf, (hd p _).2 ⟨hl, rfl⟩]
    simp

/-- C56.  Import refuses the point at infinity and, for private keys, curves other than P-521. -/
theorem C56_import_refuses (P : Prim) (b : Bytes) :
    (∀ s, P.d2i b = some s → (P.isInf (P.pubOf s) = true ∨ P.isP521 s = false) →
      ecKeyImport P b true = none) ∧
    (∀ p, evpPublic P b = some p → P.isInf p = true → ecKeyImport P b false = none) := by
  constructor
  · intro s hs h
    unfold ecKeyImport
    simp only [if_true, hs]
    rcases h with h | h <;> simp [h]
  · intro p hp h
    unfold ecKeyImport
    simp [hp, h]

example : toyPrim.Lawful := toyPrim_lawful
example : ecKeyImport toyPrim [0, 0] false = none ∧ ecKeyImport toyPrim [0, 5] false = some ⟨.p521, [0, 5], none⟩ := by
  decide

end Wickr
