import Verif.Model.FileCrypt
import Verif.Model.Toy
import Verif.Spec.Prim
/-
What incremental encryption, decryption and hashing are, in terms of the one-shot primitives; the
format of an encrypted file.
-/
namespace Wickr

/-- Feed a list of pieces to an encryption context and collect the output. -/
def Evp.encRun (V : Evp) : V.Enc → List Bytes → Option (V.Enc × Bytes)
  | st, [] => some (st, [])
  | st, c :: cs =>
    match V.encUpdate st c with
    | none => none
    | some (st', out) => (Evp.encRun V st' cs).map fun p => (p.1, out ++ p.2)

/-- Feed a list of pieces to a decryption context and collect the output. -/
def Evp.decRun (V : Evp) : V.Dec → List Bytes → Option (V.Dec × Bytes)
  | st, [] => some (st, [])
  | st, c :: cs =>
    match V.decUpdate st c with
    | none => none
    | some (st', out) => (Evp.decRun V st' cs).map fun p => (p.1, out ++ p.2)

/-- The number of bytes one GCM message can have (2^36 - 32); counter mode has no limit. -/
def Spec.WithinLimit (c : Cipher) (n : Nat) : Prop := c = .gcm → n ≤ 68719476704

/-- Feeding pieces one by one does the same as one call with everything: assumption about OpenSSL. -/
structure Evp.Lawful (V : Evp) (P : Prim) : Prop where
  enc_gcm : ∀ (key iv : Bytes) (cs : List Bytes) (st : V.Enc) (out : Bytes),
    V.encRun (V.encInit .gcm key iv) cs = some (st, out) →
    (out, V.encTag st) = P.gcm key iv none cs.flatten
  enc_ctr : ∀ (key iv : Bytes) (cs : List Bytes) (st : V.Enc) (out : Bytes),
    V.encRun (V.encInit .ctr key iv) cs = some (st, out) → out = P.ctr key iv cs.flatten
  enc_some : ∀ (c : Cipher) (key iv : Bytes) (cs : List Bytes), Spec.WithinLimit c cs.flatten.length →
    (V.encRun (V.encInit c key iv) cs).isSome
  dec_gcm : ∀ (key iv tag : Bytes) (cs : List Bytes) (st : V.Dec) (out : Bytes),
    V.decRun (V.decInit .gcm key iv (some tag)) cs = some (st, out) →
    (V.decFinal st = true → P.gcmOpen key iv none cs.flatten tag = some out) ∧
    (∀ pt, P.gcmOpen key iv none cs.flatten tag = some pt → V.decFinal st = true ∧ out = pt)
  dec_ctr : ∀ (key iv : Bytes) (cs : List Bytes) (st : V.Dec) (out : Bytes),
    V.decRun (V.decInit .ctr key iv none) cs = some (st, out) →
    V.decFinal st = true ∧ out = P.ctr key iv cs.flatten
  dec_some : ∀ (c : Cipher) (key iv : Bytes) (tag : Option Bytes) (cs : List Bytes),
    Spec.WithinLimit c cs.flatten.length → (V.decRun (V.decInit c key iv tag) cs).isSome
  md : ∀ (d : Digest) (cs : List Bytes), V.mdFinal (cs.foldl V.mdUpdate (V.mdInit d)) = P.sha d cs.flatten

namespace Spec

/-- An encrypted file: cipher id, IV, tag (GCM only), then the encryption of the whole content. -/
def fileImage (P : Prim) (key : CipherKey) (iv content : Bytes) : Bytes :=
  match key.cipher with
  | .gcm => 0 :: iv ++ (P.gcm key.key iv none content).2 ++ (P.gcm key.key iv none content).1
  | .ctr => 1 :: iv ++ P.ctr key.key iv content

/-- What opening the bytes of an encrypted file gives. -/
def fileOpen (P : Prim) (key image : Bytes) (onlyAuth : Bool) : Option Bytes :=
  if key.length ≠ 32 then none
  else match image with
    | [] => none
    | m :: rest =>
      if m = 0 then
        if rest.length < 28 then none
        else P.gcmOpen key (rest.take 12) none (rest.drop 28) ((rest.drop 12).take 16)
      else if m = 1 ∧ onlyAuth = false then
        if rest.length < 16 then none else some (P.ctr key (rest.take 16) (rest.drop 16))
      else none

end Spec

/-- Toy incremental primitives: contexts remember everything. -/
def toyEvp : Evp where
  Enc := Bytes × Bytes × Bytes
  encInit _ key iv := (key, iv, [])
  encUpdate st c := some ((st.1, st.2.1, st.2.2 ++ c), c.map (· ^^^ toySum (st.1 ++ st.2.1)))
  encTag st := List.replicate 16 (toySum (st.1 ++ st.2.1 ++ [170] ++ st.2.2))
  Dec := Option Bytes × Bytes × Bytes × Bytes
  decInit _ key iv tag := (tag, key, iv, [])
  decUpdate st c :=
    let out := c.map (· ^^^ toySum (st.2.1 ++ st.2.2.1))
    some ((st.1, st.2.1, st.2.2.1, st.2.2.2 ++ out), out)
  decFinal st :=
    match st.1 with
    | none => true
    | some tag => tag == List.replicate 16 (toySum (st.2.1 ++ st.2.2.1 ++ [170] ++ st.2.2.2))
  Md := Digest × Bytes
  mdInit d := (d, [])
  mdUpdate st c := (st.1, st.2 ++ c)
  mdFinal st := List.replicate st.1.size (toySum st.2)

theorem toyEvp_enc (cs : List Bytes) : ∀ st : toyEvp.Enc, ∃ st' : toyEvp.Enc, ∃ out,
    toyEvp.encRun st cs = some (st', out) ∧ st'.1 = st.1 ∧ st'.2.1 = st.2.1 ∧
    st'.2.2 = st.2.2 ++ cs.flatten ∧ out = cs.flatten.map (· ^^^ toySum (st.1 ++ st.2.1)) := by
  induction cs with
  | nil => intro st; exact ⟨st, [], rfl, rfl, rfl, by simp, rfl⟩
  | cons c cs ih =>
    intro st
    obtain ⟨st', out, h1, h2, h3, h4, h5⟩ := ih (st.1, st.2.1, st.2.2 ++ c)
    refine ⟨st', c.map (· ^^^ toySum (st.1 ++ st.2.1)) ++ out, ?_, h2, h3, ?_, ?_⟩
    · simp only [Evp.encRun, toyEvp] at h1 ⊢
      rw [h1]; rfl
    · rw [h4]; simp
    · rw [h5]; simp

theorem toyEvp_dec (cs : List Bytes) : ∀ st : toyEvp.Dec, ∃ st' : toyEvp.Dec, ∃ out,
    toyEvp.decRun st cs = some (st', out) ∧ st'.1 = st.1 ∧ st'.2.1 = st.2.1 ∧ st'.2.2.1 = st.2.2.1 ∧
    st'.2.2.2 = st.2.2.2 ++ out ∧ out = cs.flatten.map (· ^^^ toySum (st.2.1 ++ st.2.2.1)) := by
  induction cs with
  | nil => intro st; exact ⟨st, [], rfl, rfl, rfl, rfl, by simp, rfl⟩
  | cons c cs ih =>
    intro st
    obtain ⟨st', out, h1, h2, h3, h4, h5, h6⟩ :=
      ih (st.1, st.2.1, st.2.2.1, st.2.2.2 ++ c.map (· ^^^ toySum (st.2.1 ++ st.2.2.1)))
    refine ⟨st', c.map (· ^^^ toySum (st.2.1 ++ st.2.2.1)) ++ out, ?_, h2, h3, h4, ?_, ?_⟩
    · simp only [Evp.decRun, toyEvp] at h1 ⊢
      rw [h1]; rfl
    · rw [h5]; simp
    · rw [h6]; simp

theorem toyEvp_md (cs : List Bytes) : ∀ st : toyEvp.Md,
    cs.foldl toyEvp.mdUpdate st = (st.1, st.2 ++ cs.flatten) := by
  induction cs with
  | nil => intro st; simp; rfl
  | cons c cs ih => intro st; rw [List.foldl_cons, ih]; simp [toyEvp]

/-- The assumption can be met. -/
theorem toyEvp_lawful : toyEvp.Lawful toyPrim where
  enc_gcm key iv cs st out h := by
    obtain ⟨st', out', h1, h2, h3, h4, h5⟩ := toyEvp_enc cs (toyEvp.encInit .gcm key iv)
    rw [h1] at h
    obtain ⟨rfl, rfl⟩ : st' = st ∧ out' = out := by simpa using h
    simp only [toyEvp] at h2 h3 h4 h5 ⊢
    simp [toyPrim, h2, h3, h4, h5, optBytes]
  enc_ctr key iv cs st out h := by
    obtain ⟨st', out', h1, h2, h3, h4, h5⟩ := toyEvp_enc cs (toyEvp.encInit .ctr key iv)
    rw [h1] at h
    obtain ⟨rfl, rfl⟩ : st' = st ∧ out' = out := by simpa using h
    simpa [toyPrim, toyEvp] using h5
  enc_some c key iv cs _ := by
    obtain ⟨st', out', h1, -⟩ := toyEvp_enc cs (toyEvp.encInit c key iv)
    simp [h1]
  dec_gcm key iv tag cs st out h := by
    obtain ⟨st', out', h1, h2, h3, h4, h5, h6⟩ := toyEvp_dec cs (toyEvp.decInit .gcm key iv (some tag))
    rw [h1] at h
    obtain ⟨rfl, rfl⟩ : st' = st ∧ out' = out := by simpa using h
    simp only [toyEvp] at h2 h3 h4 h5 h6 ⊢
    simp only [h2, h3, h4, h5, List.nil_append, toyPrim, optBytes, List.append_nil, ← h6]
    constructor
    · intro h; simp at h; simp [h]
    · intro pt h
      split at h
      · next hq => simp at h; exact ⟨by simp at hq ⊢; exact hq, h⟩
      · simp at h
  dec_ctr key iv cs st out h := by
    obtain ⟨st', out', h1, h2, h3, h4, h5, h6⟩ := toyEvp_dec cs (toyEvp.decInit .ctr key iv none)
    rw [h1] at h
    obtain ⟨rfl, rfl⟩ : st' = st ∧ out' = out := by simpa using h
    simp only [toyEvp] at h2 h6 ⊢
    exact ⟨by simp [h2], by simpa [toyPrim] using h6⟩
  dec_some c key iv tag cs _ := by
    obtain ⟨st', out', h1, -⟩ := toyEvp_dec cs (toyEvp.decInit c key iv tag)
    simp [h1]
  md d cs := by rw [toyEvp_md]; simp [toyEvp, toyPrim]

end Wickr
