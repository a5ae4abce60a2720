import Verif.Props.KdfCipher
/-
C63: bcrypt and passphrases that are texts.
-/
namespace Wickr
open Spec

/-- C63, bcrypt on texts: a passphrase without NUL bytes is passed to bcrypt as it is, with the whole salt; an empty one is refused. -/
theorem C63_bcrypt_text (P : Prim) (salt pass : Bytes) (hs : salt.length = 22) (hz : 0 ∉ pass) (hl : pass.length + 1 ≤ maxBuffer) :
    (defaultEngine P).kdf ⟨bcrypt15, some salt, none⟩ pass = if pass = [] then none else (P.bcrypt pass salt).bind dup := by
  have hmb := maxBuffer_val
  have hd := dup_of (b := salt) ⟨by omega, by omega⟩
  have ht : pass.takeWhile (· ≠ 0) = pass := by
    clear hl
    induction pass with
    | nil => rfl
    | cons a p ih =>
      simp only [List.mem_cons, not_or] at hz
      have ha : a ≠ 0 := fun h => hz.1 h.symm
      rw [List.takeWhile_cons, if_pos (by simp [ha]), ih hz.2]
  by_cases he : pass = []
  · subst he
    simp [defaultEngine, performKdfMeta, bcrypt15, bcryptHash, hs]
  · have h0 : pass.length ≠ 0 := by simpa using he
    have h1 : ¬ (pass.length = 0 ∨ pass.length + 1 > maxBuffer) := by omega
    simp only [if_neg he]
    simp only [defaultEngine, performKdfMeta, bcrypt15, bcryptHash, hs, if_neg h1, ht]
    simp only [ne_eq, not_true_eq_false, if_false, show ¬ ((22 : Nat) = 0 ∨ 7 + 22 > 64) from by decide]
    cases (P.bcrypt pass salt).bind dup <;> simp [kdfMetaCopy, dupOpt, hd, kdfMetaCreate, hs]

/-- Evaluated: on the toy engine two such passphrases have different hashes. -/
example : toyEngine.kdf ⟨bcrypt15, some (List.replicate 22 1), none⟩ [5, 6] ≠ toyEngine.kdf ⟨bcrypt15, some (List.replicate 22 1), none⟩ [5, 7] ∧
    (toyEngine.kdf ⟨bcrypt15, some (List.replicate 22 1), none⟩ [5, 6]).isSome ∧
    toyEngine.kdf ⟨bcrypt15, some (List.replicate 22 1), none⟩ [] = none := by decide +kernel

end Wickr
