import Verif.Spec.Fits
import Verif.Model.Toy
/-
The results of the default engine fit into buffers.
-/
namespace Wickr

theorem toyPrim_sized : toyPrim.Sized where
  open_len k iv a ct t pt h := by
    simp only [toyPrim] at h
    split at h
    · simp at h; subst h; simp
    · simp at h
  ecdh_len s p z h := by
    simp [toyPrim] at h
    subst h
    simp

theorem dup_some {b c : Bytes} (h : dup b = some c) : ValidBuf c := by
  unfold dup at h
  split at h
  · simp at h; subst h; assumption
  · simp at h

theorem dup_eq {b c : Bytes} (h : dup b = some c) : b = c := by
  unfold dup at h
  split at h <;> simp at h
  assumption

theorem defaultEngine_fits {P : Prim} (hP : P.Lawful) (hS : P.Sized) : (defaultEngine P).Fits where
  digest b s d h e := by
    simp [defaultEngine, sha2] at e
    subst e
    have := hP.sha_len d (b ++ optBytes s)
    unfold ValidBuf
    rw [this]
    cases d <;> decide
  hmac b k d h e := by
    simp [defaultEngine, hmacCreate] at e
    obtain ⟨e1, rfl⟩ := e
    unfold ValidBuf
    rw [e1]
    cases d <;> decide
  ecImport b p k e := by
    simp only [defaultEngine, ecKeyImport] at e
    split at e
    · split at e
      · simp at e
      · split at e
        · simp at e
        · split at e
          · simp at e
          · obtain ⟨q, e1, e⟩ := Option.bind_eq_some_iff.1 e
            · simp at e
              obtain ⟨d, e2, rfl⟩ := e
              refine ⟨dup_some e1, fun d' h => ?_⟩
              simp at h
              subst h
              exact dup_some e2
    · split at e
      · simp at e
      · split at e
        · simp at e
        · simp at e
          obtain ⟨d, e2, rfl⟩ := e
          exact ⟨dup_some e2, fun d' h => by simp at h⟩
  sign k b d n s e := by
    simp only [defaultEngine, ecSign] at e
    split at e
    · simp at e
    · split at e
      · simp at e
      · obtain ⟨sig, h1, h2, h3, -⟩ := hP.sign_verify ‹_› d b n
        rw [h1] at e
        simp at e
        subst e
        exact ⟨h2, by simp only [maxBuffer]; omega⟩
  encrypt b a k iv r hb e := by
    simp only [defaultEngine, aesEncrypt] at e
    split at e
    · simp [Res.toOption] at e
    · split at e
      · simp [Res.toOption] at e
      · split at e
        · simp [Res.toOption] at e
        · rename_i ivf hiv
          split at e
          · simp [Res.toOption] at e
          · split at e
            · simp [Res.toOption] at e
            · have hv := dup_some hiv
              split at e
              · have := hP.gcm_len k.key (ivf.take k.cipher.ivLen) a b
                have h1 := dup_eq hiv
                subst h1
                simp only [cipherResultCreate] at e
                split at e
                · simp [Res.ofOption, Res.toOption] at e
                · split at e
                  · simp [Res.ofOption, Res.toOption] at e
                  · split at e
                    · simp [Res.ofOption, Res.toOption] at e
                    · simp [Res.ofOption, Res.toOption] at e
                      subst e
                      unfold CipherResult.Ok
                      simp_all [ValidBuf, Cipher.tagLen, maxBuffer]
              · have := hP.ctr_len k.key (ivf.take k.cipher.ivLen) b
                have h1 := dup_eq hiv
                subst h1
                simp only [cipherResultCreate] at e
                split at e
                · simp [Res.ofOption, Res.toOption] at e
                · split at e
                  · simp [Res.ofOption, Res.toOption] at e
                  · simp [Res.ofOption, Res.toOption] at e
                    subst e
                    unfold CipherResult.Ok
                    simp_all [ValidBuf, Cipher.isAuth, maxBuffer]
  decrypt r a k o b e := by
    simp only [defaultEngine, aesDecrypt] at e
    split at e
    · simp [Res.toOption] at e
    · rename_i ct _
      split at e
      · simp [Res.toOption] at e
      · split at e
        · simp [Res.toOption] at e
        · split at e
          · simp [Res.toOption] at e
          · split at e
            · simp [Res.toOption] at e
            · split at e
              · simp [Res.toOption] at e
              · split at e
                · simp [Res.toOption] at e
                · split at e
                  · rename_i t _ _
                    cases e1 : P.gcmOpen (List.take r.cipher.keyLen k.key) (List.take r.cipher.ivLen r.iv) a ct t with
                    | none => simp [Res.ofOption, Res.toOption, e1] at e
                    | some pt =>
                      simp [Res.ofOption, Res.toOption, e1] at e
                      subst e
                      have := hS.open_len _ _ _ _ _ _ e1
                      unfold ValidBuf at *
                      rw [this]
                      simp_all
                  · simp [Res.toOption] at e
                  · simp [Res.toOption] at e
                    subst e
                    unfold ValidBuf at *
                    rw [hP.ctr_len]
                    simp_all
  secret k l z e := by
    simp only [defaultEngine, genSharedSecret] at e
    split at e
    · simp at e
    · split at e
      · simp at e
      · split at e
        · simp at e
        · have := hS.ecdh_len _ _ _ e
          exact ⟨this.1, by simp only [maxBuffer]; omega⟩
  kdf m p h e := by
    simp only [defaultEngine, performKdfMeta] at e
    have hn : m.algo.outputSize.toNat ≤ 255 := by have := m.algo.outputSize.toNat_lt; omega
    obtain ⟨h', e1, e⟩ := Option.bind_eq_some_iff.1 e
    simp at e
    obtain ⟨-, rfl⟩ := e
    have hk : ∀ n d (s i : Option Bytes), n ≤ 255 → hkdfChecks p s i n (P.hkdf d p s i n) = some h' → ValidBuf h' := fun n d s i hn e => by
      unfold hkdfChecks at e
      split at e
      · simp at e
      · split at e
        · simp at e
        · split at e
          · simp at e
          · split at e
            · simp at e
            · rename_i h0
              obtain ⟨x, h1, h2⟩ := hP.hkdf_len d p s i n (by omega) hn
              rw [h1] at e
              simp at e
              subst e
              unfold ValidBuf
              omega
    have hk' : ∀ n (i : Option Bytes), n ≤ 255 → hkdfChecks p none i n (P.hkdfExpand .sha512 p i n) = some h' → ValidBuf h' := fun n i hn e => by
      unfold hkdfChecks at e
      split at e
      · simp at e
      · split at e
        · simp at e
        · split at e
          · simp at e
          · split at e
            · simp at e
            · rename_i h0
              obtain ⟨x, h1, h2⟩ := hP.hkdf_expand_len .sha512 p i n (by omega) hn
              rw [h1] at e
              simp at e
              subst e
              unfold ValidBuf
              omega
    split at e1
    · unfold scryptHash at e1
      split at e1
      · simp at e1
      · dsimp only at e1
        split at e1
        · simp at e1
        · obtain ⟨x, h1, h2⟩ := hP.scrypt_len p ‹_› (2 ^ (m.algo.cost.toNat / 65536)) (m.algo.cost.toNat / 256 % 256)
            (m.algo.cost.toNat % 256) m.algo.outputSize.toNat (by omega)
          rw [h1] at e1
          simp at e1
          subst e1
          unfold ValidBuf
          simp only [maxBuffer]
          omega
    · unfold bcryptHash at e1
      split at e1
      · simp at e1
      · split at e1
        · simp at e1
        · split at e1
          · simp at e1
          · split at e1
            · simp at e1
            · obtain ⟨x, -, h1⟩ := Option.bind_eq_some_iff.1 e1
              exact dup_some h1
    · unfold hkdfHash at e1
      dsimp only at e1
      split at e1
      · exact hk _ _ _ _ hn e1
      · split at e1
        · exact hk _ _ _ _ hn e1
        · split at e1
          · exact hk _ _ _ _ hn e1
          · split at e1
            · exact hk' _ _ hn e1
            · simp at e1
  bcrypt m p h e hk s hs := by
    simp only [defaultEngine, performKdfMeta, hk] at e
    obtain ⟨h', e1, e⟩ := Option.bind_eq_some_iff.1 e
    unfold bcryptHash at e1
    rw [hs] at e1
    dsimp only at e1
    split at e1
    · simp at e1
    · split at e1
      · simp at e1
      · split at e1
        · simp at e1
        · omega

end Wickr
