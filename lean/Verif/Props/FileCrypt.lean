import Verif.Lemmas.File
import Verif.Props.Engine
/-
C50, C51, C68-C71: file encryption, file digests, and what happens to the file system.
-/
set_option linter.unusedSimpArgs false
namespace Wickr
open Spec

/-! ### The `FILE *` functions -/

theorem image_split {P : Prim} (hP : P.Lawful) {key : CipherKey} {iv content : Bytes} :
    ∃ tag ct, (if key.cipher.isAuth then ∃ t, tag = some t ∧ t.length = key.cipher.tagLen else tag = none) ∧
      fileImage P key iv content = (key.cipher.id :: iv ++ optBytes tag) ++ ct ∧
      (key.cipher = .gcm → (ct, optBytes tag) = P.gcm key.key iv none content) ∧
      (key.cipher = .ctr → ct = P.ctr key.key iv content) := by
  cases hc : key.cipher with
  | gcm =>
    refine ⟨some (P.gcm key.key iv none content).2, (P.gcm key.key iv none content).1, ?_, ?_, ?_, ?_⟩
    · simp [Cipher.isAuth, Cipher.tagLen, (hP.gcm_len key.key iv none content).2]
    · simp [fileImage, hc, Cipher.id, optBytes]
    · simp [optBytes]
    · simp
  | ctr =>
    refine ⟨none, P.ctr key.key iv content, ?_, ?_, ?_, ?_⟩ <;>
      simp [fileImage, hc, Cipher.id, optBytes, Cipher.isAuth]

theorem header_swap {a b out old : Bytes} (h : a.length = b.length) :
    b ++ (a ++ out ++ old.drop (a ++ out).length).drop b.length = b ++ out ++ old.drop (b ++ out).length := by
  rw [← h, List.append_assoc, List.drop_left, List.length_append, List.length_append, h, List.append_assoc]

theorem encryptFile_sound {V : Evp} {P : Prim} (hP : P.Lawful) (hV : V.Lawful P) {acc : Nat → Option Nat}
    {key : CipherKey} {iv fresh : Bytes} {i : InFile} {o o' : OutFile} (hiv : iv.length = key.cipher.ivLen)
    (hf : fresh.length = key.cipher.tagLen) (h : encryptFile V acc key iv fresh i o = (true, o')) :
    o'.data = fileImage P key iv i.bytes ++ o.data.drop (fileImage P key iv i.bytes).length ∧
      key.key.length = 32 := by
  obtain ⟨c, k⟩ := key
  simp only at hiv hf ⊢
  have ht : if c.isAuth then ∃ t, (if 0 < c.tagLen then some fresh else none) = some t ∧ t.length = c.tagLen
      else (if 0 < c.tagLen then some fresh else none) = (none : Option Bytes) := by
    cases c <;> simp [Cipher.isAuth, Cipher.tagLen] at hf ⊢
    exact hf
  simp only [encryptFile] at h
  generalize (if 0 < c.tagLen then some fresh else none) = tg at ht h
  have hh := header_ok c iv tg hiv ht
  simp only [hh.1, Option.bind_some, hh.2.1, Option.map_some] at h
  split at h
  · simp at h
  · next hw =>
    simp only [Bool.not_eq_true', Bool.not_eq_false] at hw
    split at h
    · simp at h
    · next hk =>
      simp only [ne_eq, Decidable.not_not] at hk
      have ho1 := fwrite_full (outAt_rewind o) hw
      rw [List.nil_append] at ho1
      split at h
      · simp at h
      · next st o2 hl =>
        obtain ⟨cs, out, h1, h2, h3⟩ := encLoop_sound _ _ _ _ _ _ _ ho1 hl
        cases c with
        | gcm =>
          have hg := hV.enc_gcm k iv cs st out h2
          have htl : (V.encTag st).length = 16 := by
            have := (hP.gcm_len k iv none cs.flatten).2; rw [← hg] at this; exact this
          have hh2 := header_ok .gcm iv (some (V.encTag st)) hiv
            (by simp [Cipher.isAuth, Cipher.tagLen, htl])
          simp only [hh2.2.1] at h
          injection h with hw2 ho'
          have ho2 := fwrite_full (outAt_rewind o2) hw2
          rw [ho', List.nil_append] at ho2
          refine ⟨?_, hk⟩
          rw [ho2.1, h3.1]
          rw [h1] at hg
          obtain ⟨t, rfl, htl2⟩ := ht
          have e1 : (Cipher.gcm.id :: iv ++ optBytes (some t)).length =
              (Cipher.gcm.id :: iv ++ optBytes (some (V.encTag st))).length := by
            simp [optBytes, htl, htl2, Cipher.tagLen]
          have e2 : fileImage P ⟨.gcm, k⟩ iv i.bytes = Cipher.gcm.id :: iv ++ optBytes (some (V.encTag st)) ++ out := by
            simp [fileImage, ← hg, optBytes, Cipher.id]
          rw [e2]
          exact header_swap e1
        | ctr =>
          have hg := hV.enc_ctr k iv cs st out h2
          rw [hh.2.1] at h
          simp only at h
          injection h with hw2 ho'
          have ho2 := fwrite_full (outAt_rewind o2) hw2
          rw [ho', List.nil_append] at ho2
          refine ⟨?_, hk⟩
          rw [ho2.1, h3.1]
          rw [h1] at hg
          have : tg = none := by simpa [Cipher.isAuth] using ht
          subst this
          simp [fileImage, hg, optBytes, Cipher.id, Cipher.tagLen, List.drop_append]

theorem encryptFile_complete {V : Evp} {P : Prim} (hV : V.Lawful P)
    {key : CipherKey} {iv fresh : Bytes} {i : InFile} {o : OutFile} (hiv : iv.length = key.cipher.ivLen)
    (hf : fresh.length = key.cipher.tagLen) (hk : key.key.length = 32)
    (hs : WithinLimit key.cipher i.bytes.length) :
    ∃ o', encryptFile V (fun _ => none) key iv fresh i o = (true, o') := by
  obtain ⟨c, k⟩ := key
  simp only at hiv hf hk hs ⊢
  have ht : if c.isAuth then ∃ t, (if 0 < c.tagLen then some fresh else none) = some t ∧ t.length = c.tagLen
      else (if 0 < c.tagLen then some fresh else none) = (none : Option Bytes) := by
    cases c <;> simp [Cipher.isAuth, Cipher.tagLen] at hf ⊢
    exact hf
  have hh := header_ok c iv _ hiv ht
  have hk' : k.length = c.keyLen := by cases c <;> exact hk
  simp only [encryptFile, hh.1, Option.bind_some, hh.2.1, Option.map_some, fwrite_all, Bool.not_true,
    Bool.false_eq_true, if_false, hk', ne_eq, not_true_eq_false]
  obtain ⟨st, o2, hl⟩ := encLoop_complete (i.bytes.length / chunkSize + 1) (V.encInit c k iv) i.bytes
    (fwrite (fun _ => none) o.rewind
      (c.id :: iv ++ optBytes (if 0 < c.tagLen then some fresh else none))).1 (fuel_enough _)
    (fun cs hcs => hV.enc_some c k iv cs (by rw [hcs]; exact hs))
  rw [hl]
  simp only
  split
  · exact ⟨_, rfl⟩
  · exact ⟨_, rfl⟩

/-- C50: whatever the size of the content and the outcome of the writes, a file encryption that
reports success has produced cipher id, IV, tag and the encryption of the whole content in one piece.
(Longer old content of the output file is not cut off.) -/
theorem C50_file_image {V : Evp} {P : Prim} (hP : P.Lawful) (hV : V.Lawful P) (acc : Nat → Option Nat)
    (key : CipherKey) (iv fresh : Bytes) (i : InFile) (o o' : OutFile) (hiv : iv.length = key.cipher.ivLen)
    (hf : fresh.length = key.cipher.tagLen) (h : encryptFile V acc key iv fresh i o = (true, o')) :
    o'.data = fileImage P key iv i.bytes ++ o.data.drop (fileImage P key iv i.bytes).length :=
  (encryptFile_sound hP hV hiv hf h).1

/-- C50: without write errors, file encryption succeeds for every content (GCM: up to its limit of
2^36 - 32 bytes). -/
theorem C50_encrypts {V : Evp} {P : Prim} (hP : P.Lawful) (hV : V.Lawful P)
    (key : CipherKey) (iv fresh content : Bytes) (hiv : iv.length = key.cipher.ivLen)
    (hf : fresh.length = key.cipher.tagLen) (hk : key.key.length = 32)
    (hs : WithinLimit key.cipher content.length) :
    ∃ o', encryptFile V (fun _ => none) key iv fresh ⟨content, false⟩ ⟨[], 0, 0⟩ = (true, o') ∧
      o'.data = fileImage P key iv content := by
  obtain ⟨o', h⟩ := encryptFile_complete (o := ⟨[], 0, 0⟩) (i := ⟨content, false⟩) hV hiv hf hk hs
  exact ⟨o', h, by simpa using (encryptFile_sound hP hV hiv hf h).1⟩

/-- The states a decryption can go through, in terms of `fileOpen`. -/
theorem decryptFile_cases {V : Evp} (acc : Nat → Option Nat) (key : CipherKey) (i : InFile) (o : OutFile)
    (onlyAuth : Bool) :
    (decryptFile V acc key i o onlyAuth = .ok (false, o) ∧ ∀ P : Prim, fileOpen P key.key i.bytes onlyAuth = none) ∨
    ∃ (c : Cipher) (iv : Bytes) (tag : Option Bytes) (body : Bytes),
      iv.length = c.ivLen ∧
      (if c.isAuth then ∃ t, tag = some t ∧ t.length = c.tagLen else tag = none) ∧
      i.bytes = (c.id :: iv ++ optBytes tag) ++ body ∧ (onlyAuth = true → c = .gcm) ∧ key.key.length = 32 ∧
      decryptFile V acc key i o onlyAuth =
        .ok (decLoop V acc (body.length / chunkSize + 1) (V.decInit c key.key iv tag) body o) := by
  obtain ⟨bytes, err⟩ := i
  cases bytes with
  | nil => left; simp [decryptFile, fileOpen]
  | cons m rest =>
    by_cases h0 : m = 0
    · subst h0
      by_cases hl : rest.length < 28
      · left
        refine ⟨?_, ?_⟩
        · simp only [decryptFile, show Cipher.find 0 = some .gcm from rfl]
          rw [if_neg (by simp [Cipher.isAuth]), if_pos (by simp [Cipher.ivLen, Cipher.tagLen]; omega)]
        · intro P; simp [fileOpen, hl]
      · have ht : if Cipher.gcm.isAuth then ∃ t, some ((rest.drop 12).take 16) = some t ∧ t.length = Cipher.gcm.tagLen
            else some ((rest.drop 12).take 16) = (none : Option Bytes) := by
          simp [Cipher.isAuth, Cipher.tagLen]; omega
        have hh := header_ok .gcm (rest.take 12) (some ((rest.drop 12).take 16))
          (by simp [Cipher.ivLen]; omega) ht
        have e28 : rest.take 28 = rest.take 12 ++ (rest.drop 12).take 16 := by
          rw [← List.take_add]
        by_cases hk : key.key.length = 32
        · right
          refine ⟨.gcm, rest.take 12, some ((rest.drop 12).take 16), rest.drop 28,
            by simp [Cipher.ivLen]; omega, ht, ?_, fun _ => rfl, hk, ?_⟩
          · simp only [Cipher.id, optBytes, List.cons_append]
            rw [← e28, List.take_append_drop]
          · simp only [decryptFile, show Cipher.find 0 = some .gcm from rfl]
            rw [if_neg (by simp [Cipher.isAuth]), if_neg (by simp [Cipher.ivLen, Cipher.tagLen]; omega)]
            rw [show Cipher.gcm.ivLen + Cipher.gcm.tagLen = 28 from rfl, e28]
            have := hh.2.2
            simp only [Cipher.id, optBytes, List.cons_append] at this
            rw [this]
            simp only
            rw [if_neg (by simp [hk, Cipher.keyLen])]
        · left
          refine ⟨?_, fun P => by simp [fileOpen, hk]⟩
          simp only [decryptFile, show Cipher.find 0 = some .gcm from rfl]
          rw [if_neg (by simp [Cipher.isAuth]), if_neg (by simp [Cipher.ivLen, Cipher.tagLen]; omega)]
          rw [show Cipher.gcm.ivLen + Cipher.gcm.tagLen = 28 from rfl, e28]
          have := hh.2.2
          simp only [Cipher.id, optBytes, List.cons_append] at this
          rw [this]
          simp only
          rw [if_pos (by simpa [Cipher.keyLen] using hk)]
    · by_cases h1 : m = 1
      · subst h1
        cases onlyAuth with
        | true =>
          left
          refine ⟨?_, fun P => by simp [fileOpen]⟩
          simp only [decryptFile, show Cipher.find 1 = some .ctr from rfl]
          rw [if_pos (by simp [Cipher.isAuth])]
        | false =>
          by_cases hl : rest.length < 16
          · left
            refine ⟨?_, ?_⟩
            · simp only [decryptFile, show Cipher.find 1 = some .ctr from rfl]
              rw [if_neg (by simp [Cipher.isAuth]), if_pos (by simp [Cipher.ivLen, Cipher.tagLen]; omega)]
            · intro P; simp [fileOpen, hl]
          · have ht : if Cipher.ctr.isAuth then ∃ t, (none : Option Bytes) = some t ∧ t.length = Cipher.ctr.tagLen
                else (none : Option Bytes) = none := by simp [Cipher.isAuth]
            have hh := header_ok .ctr (rest.take 16) none (by simp [Cipher.ivLen]; omega) ht
            have := hh.2.2
            simp only [Cipher.id, optBytes, List.cons_append, List.append_nil] at this
            by_cases hk : key.key.length = 32
            · right
              refine ⟨.ctr, rest.take 16, none, rest.drop 16,
                by simp [Cipher.ivLen]; omega, ht, ?_, by simp, hk, ?_⟩
              · simp [Cipher.id, optBytes]
              · simp only [decryptFile, show Cipher.find 1 = some .ctr from rfl]
                rw [if_neg (by simp [Cipher.isAuth]), if_neg (by simp [Cipher.ivLen, Cipher.tagLen]; omega)]
                rw [show Cipher.ctr.ivLen + Cipher.ctr.tagLen = 16 from rfl, this]
                simp only
                rw [if_neg (by simp [hk, Cipher.keyLen])]
            · left
              refine ⟨?_, fun P => by simp [fileOpen, hk]⟩
              simp only [decryptFile, show Cipher.find 1 = some .ctr from rfl]
              rw [if_neg (by simp [Cipher.isAuth]), if_neg (by simp [Cipher.ivLen, Cipher.tagLen]; omega)]
              rw [show Cipher.ctr.ivLen + Cipher.ctr.tagLen = 16 from rfl, this]
              simp only
              rw [if_pos (by simpa [Cipher.keyLen] using hk)]
      · left
        refine ⟨?_, fun P => by simp [fileOpen, h0, h1]⟩
        have : Cipher.find m = none := by simp [Cipher.find, h0, h1]
        simp [decryptFile, this]

def openBody (P : Prim) (c : Cipher) (k iv : Bytes) (tag : Option Bytes) (body : Bytes) : Option Bytes :=
  match c with
  | .gcm => P.gcmOpen k iv none body (optBytes tag)
  | .ctr => some (P.ctr k iv body)

theorem fileOpen_split {P : Prim} {k iv body : Bytes} {c : Cipher} {tag : Option Bytes} {onlyAuth : Bool}
    (hk : k.length = 32) (hiv : iv.length = c.ivLen)
    (ht : if c.isAuth then ∃ t, tag = some t ∧ t.length = c.tagLen else tag = none)
    (ha : onlyAuth = true → c = .gcm) :
    fileOpen P k ((c.id :: iv ++ optBytes tag) ++ body) onlyAuth = openBody P c k iv tag body := by
  cases c with
  | gcm =>
    obtain ⟨t, rfl, htl⟩ := ht
    simp only [Cipher.ivLen, Cipher.tagLen] at hiv htl
    have e1 : (iv ++ (t ++ body)).take 12 = iv := by rw [← hiv, List.take_left]
    have e2 : (iv ++ (t ++ body)).drop 12 = t ++ body := by rw [← hiv, List.drop_left]
    have e3 : (iv ++ (t ++ body)).drop 28 = body := by
      rw [← List.append_assoc, show 28 = (iv ++ t).length by simp [hiv, htl], List.drop_left]
    have e4 : (t ++ body).take 16 = t := by rw [← htl, List.take_left]
    simp only [fileOpen, hk, Cipher.id, optBytes, List.cons_append, List.append_assoc, ne_eq, not_true_eq_false,
      if_false, if_true, e1, e2, e3, e4, openBody]
    rw [if_neg (by simp [hiv, htl]; omega)]
  | ctr =>
    have : tag = none := by simpa [Cipher.isAuth] using ht
    subst this
    have hoa : onlyAuth = false := by
      cases onlyAuth with
      | true => have := ha rfl; cases this
      | false => rfl
    subst hoa
    simp only [Cipher.ivLen] at hiv
    have e1 : (iv ++ body).take 16 = iv := by rw [← hiv, List.take_left]
    have e2 : (iv ++ body).drop 16 = body := by rw [← hiv, List.drop_left]
    simp only [fileOpen, hk, Cipher.id, optBytes, List.cons_append, List.append_assoc, ne_eq, not_true_eq_false,
      if_false, if_true, e1, e2, List.append_nil, openBody]
    rw [if_neg (by decide), if_pos (by simp), if_neg (by simp [hiv])]

/-- C50: a file decryption never runs into undefined behaviour; if it reports success then, whatever
the outcome of the writes was, it has written what opening the whole input in one piece gives. -/
theorem C50_decrypt_sound {V : Evp} {P : Prim} (hV : V.Lawful P) (acc : Nat → Option Nat)
    (key : CipherKey) (i : InFile) (onlyAuth : Bool) :
    ∃ ok o', decryptFile V acc key i ⟨[], 0, 0⟩ onlyAuth = .ok (ok, o') ∧
      (ok = true → fileOpen P key.key i.bytes onlyAuth = some o'.data) := by
  rcases decryptFile_cases (V := V) acc key i ⟨[], 0, 0⟩ onlyAuth with ⟨h, -⟩ | ⟨c, iv, tag, body, h1, h2, h3, h4, h5, h6⟩
  · exact ⟨_, _, h, by simp⟩
  · obtain ⟨ok, o', hr⟩ : ∃ ok o', decLoop V acc (body.length / chunkSize + 1) (V.decInit c key.key iv tag) body
        ⟨[], 0, 0⟩ = (ok, o') := ⟨_, _, rfl⟩
    rw [hr] at h6
    refine ⟨ok, o', h6, fun hok => ?_⟩
    rw [hok] at hr
    obtain ⟨cs, out, st', g1, g2, g3, g4⟩ := decLoop_sound _ _ _ _ _ _ (outAt_empty 0) hr
    rw [h3, fileOpen_split h5 h1 h2 h4, g4.1]
    cases c with
    | gcm =>
      obtain ⟨t, rfl, -⟩ := h2
      have := (hV.dec_gcm _ _ _ _ _ _ g2).1 g3
      rw [g1] at this
      simpa [optBytes, openBody] using this
    | ctr =>
      have : tag = none := by simpa [Cipher.isAuth] using h2
      subst this
      have := (hV.dec_ctr _ _ _ _ _ g2).2
      rw [g1] at this
      simp [this, openBody]

/-- C50: without write errors, a file decryption succeeds exactly when the input can be opened, for
every size of the input (GCM: up to its limit). -/
theorem C50_decrypt_complete {V : Evp} {P : Prim} (hV : V.Lawful P)
    (key : CipherKey) (i : InFile) (onlyAuth : Bool) (hs : i.bytes.length ≤ 68719476704 ∨ i.bytes.head? = some 1)
    (pt : Bytes) (ho : fileOpen P key.key i.bytes onlyAuth = some pt) :
    ∃ o', decryptFile V (fun _ => none) key i ⟨[], 0, 0⟩ onlyAuth = .ok (true, o') ∧ o'.data = pt := by
  rcases decryptFile_cases (V := V) (fun _ => none) key i ⟨[], 0, 0⟩ onlyAuth with
    ⟨-, h⟩ | ⟨c, iv, tag, body, h1, h2, h3, h4, h5, h6⟩
  · rw [h P] at ho; cases ho
  · rw [h6]
    rw [h3, fileOpen_split h5 h1 h2 h4] at ho
    obtain ⟨cs, out, st', o', g1, g2, g3, g4⟩ := decLoop_complete (body.length / chunkSize + 1)
      (V.decInit c key.key iv tag) body ⟨[], 0, 0⟩ [] (outAt_empty 0) (fuel_enough _)
      (fun cs hcs => hV.dec_some c key.key iv tag cs (by
        rw [hcs]
        intro hc
        rcases hs with hs | hs
        · rw [h3] at hs; simp at hs; omega
        · rw [h3, hc] at hs; simp [Cipher.id] at hs))
    rw [g3]
    cases c with
    | gcm =>
      obtain ⟨t, rfl, -⟩ := h2
      have := (hV.dec_gcm _ _ _ _ _ _ g2).2 pt (by rw [g1]; simpa [optBytes, openBody] using ho)
      exact ⟨o', by rw [this.1], by rw [g4.1]; simp [this.2]⟩
    | ctr =>
      have : tag = none := by simpa [Cipher.isAuth] using h2
      subst this
      have := hV.dec_ctr _ _ _ _ _ g2
      rw [g1] at this
      exact ⟨o', by rw [this.1], by rw [g4.1]; simp [openBody] at ho ⊢; rw [this.2, ho]⟩

theorem fileOpen_image {P : Prim} (hP : P.Lawful) {key : CipherKey} {iv content : Bytes} {onlyAuth : Bool}
    (hk : key.key.length = 32) (hiv : iv.length = key.cipher.ivLen) (ha : onlyAuth = true → key.cipher = .gcm) :
    fileOpen P key.key (fileImage P key iv content) onlyAuth = some content := by
  obtain ⟨tag, ct, h1, h2, h3, h4⟩ := image_split hP (key := key) (iv := iv) (content := content)
  rw [h2, fileOpen_split hk hiv h1 ha]
  unfold openBody
  cases hc : key.cipher with
  | gcm =>
    have := hP.gcm_open key.key iv none content
    rw [← h3 hc] at this
    exact this
  | ctr => rw [h4 hc]; simp [hP.ctr_inv]

/-- C50: encrypting a file and decrypting the result gives the content back, for every content the
cipher can take. -/
theorem C50_round_trip {V : Evp} {P : Prim} (hP : P.Lawful) (hV : V.Lawful P)
    (key : CipherKey) (iv fresh content : Bytes) (onlyAuth : Bool) (hiv : iv.length = key.cipher.ivLen)
    (hf : fresh.length = key.cipher.tagLen) (hk : key.key.length = 32)
    (hs : key.cipher = .gcm → content.length ≤ 68719476675) (ha : onlyAuth = true → key.cipher = .gcm) :
    ∃ o' o'', encryptFile V (fun _ => none) key iv fresh ⟨content, false⟩ ⟨[], 0, 0⟩ = (true, o') ∧
      decryptFile V (fun _ => none) key ⟨o'.data, false⟩ ⟨[], 0, 0⟩ onlyAuth = .ok (true, o'') ∧ o''.data = content := by
  obtain ⟨o', h1, h2⟩ := C50_encrypts hP hV key iv fresh content hiv hf hk (fun hc => by have := hs hc; omega)
  obtain ⟨o'', h3, h4⟩ := C50_decrypt_complete hV key ⟨o'.data, false⟩ onlyAuth (by
    simp only [h2]
    cases hc : key.cipher with
    | gcm =>
      left
      have g := hP.gcm_len key.key iv none content
      have := hs hc
      rw [hc] at hiv
      simp [Cipher.ivLen] at hiv
      simp [fileImage, hc, g.1, g.2, hiv]; omega
    | ctr => right; simp [fileImage, hc]) content (by
    rw [h2]; exact fileOpen_image hP hk hiv ha)
  exact ⟨o', o'', h1, h3, h4⟩

/-- C50: for contents that fit a buffer, the file is the serialisation of the one-shot encryption. -/
theorem C50_same_as_one_shot {P : Prim} (hP : P.Lawful) (key : CipherKey) (iv content : Bytes)
    (hiv : iv.length = key.cipher.ivLen) (hk : key.key.length = 32) (h0 : content ≠ [])
    (hs : content.length + 29 ≤ maxBuffer) :
    ∃ r, aesEncrypt P content none key iv = .ok r ∧ cipherResultSerialize r = some (fileImage P key iv content) := by
  have hmb := maxBuffer_val
  obtain ⟨c, k⟩ := key
  simp only at hiv hk
  have hd : dup iv = some iv := dup_of (by constructor <;> cases c <;> simp [Cipher.ivLen] at hiv <;> omega)
  have hpos : 0 < content.length := List.length_pos_iff.2 h0
  have hkl : k.length = c.keyLen := by cases c <;> exact hk
  have hwf : ∀ r : CipherResult, WfCipherResult r → (cipherResultLayout r).length ≤ maxBuffer →
      cipherResultSerialize r = some (cipherResultLayout r) := fun r h1 h2 => (C10_cipher_result_round_trip r h1 h2).1
  simp only [aesEncrypt, Option.isSome_none, Bool.false_and, Bool.false_eq_true, if_false, hd]
  rw [if_neg (by simp [hkl, intMax]; omega), if_neg (by omega), if_neg (by omega)]
  rw [show iv.take c.ivLen = iv from List.take_of_length_le (by omega)]
  cases c with
  | gcm =>
    have g := hP.gcm_len k iv none content
    refine ⟨⟨.gcm, iv, some (P.gcm k iv none content).1, some (P.gcm k iv none content).2⟩, ?_, ?_⟩
    · simp [cipherResultCreate, hiv, g.2, Cipher.tagLen, Res.ofOption]
    · rw [hwf]
      · simp [cipherResultLayout, fileImage, opt, Cipher.id]
      · refine ⟨hiv, by simp [Cipher.isAuth, g.2, Cipher.tagLen], fun x hx => ?_⟩
        simp at hx; subst hx
        apply List.length_pos_iff.1; omega
      · simp [Cipher.ivLen] at hiv
        simp [cipherResultLayout, opt, g.1, g.2, hiv]; omega
  | ctr =>
    have g := hP.ctr_len k iv content
    refine ⟨⟨.ctr, iv, some (P.ctr k iv content), none⟩, ?_, ?_⟩
    · simp [cipherResultCreate, hiv, Cipher.isAuth, Res.ofOption]
    · rw [hwf]
      · simp [cipherResultLayout, fileImage, opt, Cipher.id]
      · refine ⟨hiv, by simp [Cipher.isAuth], fun x hx => ?_⟩
        simp at hx; subst hx
        apply List.length_pos_iff.1; omega
      · simp [Cipher.ivLen] at hiv
        simp [cipherResultLayout, opt, g, hiv]; omega

/-! ### Digests -/

/-- C71: the digest of a file is the digest of its whole content, whatever its size; a read error
gives no digest at all. -/
theorem C71_file_digest {V : Evp} {P : Prim} (hV : V.Lawful P) (i : InFile) (d : Digest) :
    sha2File V i d = if i.err then none else some (P.sha d i.bytes) := by
  have := mdLoop_eq i.err (i.bytes.length / chunkSize + 1) (V.mdInit d) i.bytes (fuel_enough _)
  cases he : i.err with
  | true =>
    rw [he] at this
    simp only [if_true] at this ⊢
    simp [sha2File, he, this]
  | false =>
    rw [he] at this
    simp only [Bool.false_eq_true, if_false] at this ⊢
    obtain ⟨cs, h1, h2⟩ := this
    simp [sha2File, he, h2, hV.md, h1]

end Wickr
