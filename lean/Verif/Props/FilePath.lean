import Verif.Props.FileCrypt
/-
C51, C68-C70: the functions that work on paths.
-/
set_option linter.unusedSimpArgs false
namespace Wickr
open Spec

theorem tempPath_ne (dst : Bytes) : tempPath dst ≠ dst := by
  intro h
  have := congrArg List.length h
  simp [tempPath] at this

theorem Fs.set_same (fs : Fs) (p : Bytes) (v : Option Bytes) : fs.set p v p = v := by simp [Fs.set]

theorem Fs.set_other (fs : Fs) {p q : Bytes} (v : Option Bytes) (h : q ≠ p) : fs.set p v q = fs q := by
  simp [Fs.set, h]

/-- Every state of the file system during an operation. -/
theorem fileOp_states {v : Env} {work : InFile → OutFile → Res (Bool × OutFile)} {src dst : Bytes} {fs : Fs}
    {b : Bool} {fin : Fs} {states : List Fs} (h : fileOp v work src dst fs = .ok (b, fin, states)) :
    (b = false ∧ fin = fs ∧ states = []) ∨
    ∃ ok o, (fs src).isSome ∧ v.openOk = true ∧ v.createOk = true ∧
      work (v.reads (((fs.set (tempPath dst) (some [])) src).getD [])) ⟨[], 0, 0⟩ = .ok (ok, o) ∧
      b = (ok && v.renameOk) ∧
      (∀ s ∈ fin :: states, ∀ p, p ≠ dst → p ≠ tempPath dst → s p = fs p) ∧
      (∀ s ∈ fin :: states, s dst = fs dst ∨ (b = true ∧ s dst = some (v.flush o.data))) ∧
      (b = true → fin dst = some (v.flush o.data)) ∧
      (b = true ∨ v.removeOk = true → fin (tempPath dst) = none) := by
  have ht := tempPath_ne dst
  simp only [fileOp] at h
  cases hs : fs src with
  | none =>
    rw [hs] at h
    left
    simp at h
    exact ⟨h.1, h.2.1.symm, h.2.2⟩
  | some x =>
    rw [hs] at h
    simp only at h
    cases ho : v.openOk with
    | false => left; simp [ho] at h; exact ⟨h.1, h.2.1.symm, h.2.2⟩
    | true =>
      cases hc : v.createOk with
      | false => left; simp [ho, hc] at h; exact ⟨h.1, h.2.1.symm, h.2.2⟩
      | true =>
        right
        simp only [ho, hc, Bool.not_true, Bool.false_eq_true, if_false] at h
        cases hw : work (v.reads (((fs.set (tempPath dst) (some [])) src).getD [])) ⟨[], 0, 0⟩ with
        | null => rw [hw] at h; simp [Res.bind] at h
        | ub => rw [hw] at h; simp [Res.bind] at h
        | ok r =>
          obtain ⟨ok, o⟩ := r
          rw [hw] at h
          simp only [Res.bind] at h
          refine ⟨ok, o, rfl, rfl, rfl, rfl, ?_⟩
          cases ok with
          | false =>
            simp only [Bool.false_eq_true, if_false] at h
            injection h with h
            injection h with h1 h
            injection h with h2 h3
            subst h1 h2 h3
            refine ⟨rfl, ?_, ?_, by simp, ?_⟩
            · intro s hs p h1 h2
              simp only [List.mem_cons, List.mem_append, List.mem_map, List.cons_append] at hs
              rcases hs with rfl | rfl | ⟨c, -, rfl⟩ | rfl | rfl | hs
              · cases hr : v.removeOk <;> simp [freeOp, hr, Fs.set, h2]
              · simp [Fs.set, h2]
              · simp [Fs.set, h2]
              · simp [Fs.set, h2]
              · rfl
              · simp at hs
            · intro s hs
              left
              have h2 := Ne.symm ht
              simp only [List.mem_cons, List.mem_append, List.mem_map, List.cons_append] at hs
              rcases hs with rfl | rfl | ⟨c, -, rfl⟩ | rfl | rfl | hs
              · cases hr : v.removeOk <;> simp [freeOp, hr, Fs.set, h2]
              · simp [Fs.set, h2]
              · simp [Fs.set, h2]
              · simp [Fs.set, h2]
              · rfl
              · simp at hs
            · intro hr
              have hr : v.removeOk = true := by simpa using hr
              simp [freeOp, hr, Fs.set]
          | true =>
            simp only [if_true] at h
            have h2' := Ne.symm ht
            cases hrn : v.renameOk with
            | false =>
              simp only [moveTemp, hrn, Bool.false_eq_true, if_false, List.headD_cons] at h
              injection h with h
              injection h with h1 h
              injection h with h2 h3
              subst h1 h2 h3
              refine ⟨rfl, ?_, ?_, by simp, ?_⟩
              · intro s hs p h1 h2
                simp only [List.mem_cons, List.mem_append, List.mem_map, List.cons_append, List.nil_append] at hs
                rcases hs with rfl | rfl | rfl | ⟨c, -, rfl⟩ | rfl | rfl | hs
                · cases hr : v.removeOk <;> simp [freeOp, hr, Fs.set, h2]
                · simp [Fs.set, h2]
                · simp [Fs.set, h2]
                · simp [Fs.set, h2]
                · simp [Fs.set, h2]
                · rfl
                · simp at hs
              · intro s hs
                left
                simp only [List.mem_cons, List.mem_append, List.mem_map, List.cons_append, List.nil_append] at hs
                rcases hs with rfl | rfl | rfl | ⟨c, -, rfl⟩ | rfl | rfl | hs
                · cases hr : v.removeOk <;> simp [freeOp, hr, Fs.set, h2']
                · simp [Fs.set, h2']
                · simp [Fs.set, h2']
                · simp [Fs.set, h2']
                · simp [Fs.set, h2']
                · rfl
                · simp at hs
              · intro hr
                have hr : v.removeOk = true := by simpa using hr
                simp [freeOp, hr, Fs.set]
            | true =>
              simp only [moveTemp, hrn, if_true, List.headD_cons] at h
              injection h with h
              injection h with h1 h
              injection h with h2 h3
              subst h1 h2 h3
              refine ⟨rfl, ?_, ?_, ?_, ?_⟩
              · intro s hs p h1 h2
                simp only [List.mem_cons, List.mem_append, List.mem_map, List.cons_append, List.nil_append] at hs
                rcases hs with rfl | rfl | rfl | rfl | ⟨c, -, rfl⟩ | rfl | rfl | hs
                · cases hr : v.removeOk <;> simp [freeOp, hr, Fs.set, h1, h2]
                · simp [Fs.set, h1, h2]
                · simp [Fs.set, h2]
                · simp [Fs.set, h2]
                · simp [Fs.set, h2]
                · simp [Fs.set, h2]
                · rfl
                · simp at hs
              · intro s hs
                simp only [List.mem_cons, List.mem_append, List.mem_map, List.cons_append, List.nil_append] at hs
                rcases hs with rfl | rfl | rfl | rfl | ⟨c, -, rfl⟩ | rfl | rfl | hs
                · right; cases hr : v.removeOk <;> simp [freeOp, hr, Fs.set, h2']
                · right; simp [Fs.set, h2']
                · left; simp [Fs.set, h2']
                · left; simp [Fs.set, h2']
                · left; simp [Fs.set, h2']
                · left; simp [Fs.set, h2']
                · left; rfl
                · simp at hs
              · intro _
                cases hr : v.removeOk <;> simp [freeOp, hr, Fs.set, h2']
              · intro _
                cases hr : v.removeOk <;> simp [freeOp, hr, Fs.set]

/-- What the operation reads: the content of the source, which is empty by then if the source is the
temporary file. -/
theorem reads_source {v : Env} {src dst content : Bytes} {fs : Fs} (hsrc : fs src = some content)
    (hne : src ≠ tempPath dst) (hr : v.readErr = none) :
    v.reads (((fs.set (tempPath dst) (some [])) src).getD []) = ⟨content, false⟩ := by
  simp [Fs.set, hne, hsrc, Env.reads, hr]

/-- C51 (encryption), for the case that closing the temporary file loses nothing and the source is read
without error: in every state of the file system during and after the operation, the destination has
its old content or all of the new one; it is the old one if the operation reports failure and the new
one if it reports success.  Missing: the other cases, in which the claim is false
(`C51_lost_flush`, `C68_read_error_unnoticed`, `C69_source_destroyed`). -/
theorem C51_encrypt_atomic_partial {V : Evp} {P : Prim} (hP : P.Lawful) (hV : V.Lawful P) (v : Env)
    (key : CipherKey) (iv fresh src dst content : Bytes) (fs : Fs) (hiv : iv.length = key.cipher.ivLen)
    (hf : fresh.length = key.cipher.tagLen) (hflush : ∀ d, v.flush d = d) (hre : v.readErr = none)
    (hne : src ≠ tempPath dst) (hsrc : fs src = some content) :
    ∃ b fin states, fileEncrypt V v key iv fresh src dst fs = .ok (b, fin, states) ∧
      (∀ s ∈ fin :: states, s dst = fs dst ∨ (b = true ∧ s dst = some (fileImage P key iv content))) ∧
      (b = true → fin dst = some (fileImage P key iv content)) := by
  obtain ⟨b, fin, states, h⟩ : ∃ b fin states, fileEncrypt V v key iv fresh src dst fs = .ok (b, fin, states) := by
    simp only [fileEncrypt, fileOp, hsrc, Res.bind]
    repeat' split
    all_goals exact ⟨_, _, _, rfl⟩
  refine ⟨b, fin, states, h, ?_⟩
  rcases fileOp_states h with ⟨rfl, rfl, rfl⟩ | ⟨ok, o, -, -, -, h4, h5, -, h7, h8, -⟩
  · simp
  · rw [reads_source hsrc hne hre] at h4
    injection h4 with h4
    cases ok with
    | false =>
      have hb : b = false := h5
      subst hb
      exact ⟨fun s hs => (h7 s hs).imp id fun x => by simp at x, by simp⟩
    | true =>
      have := (encryptFile_sound hP hV hiv hf h4).1
      simp only [List.drop_nil, List.append_nil] at this
      rw [hflush, this] at h7 h8
      exact ⟨h7, h8⟩

/-- C51 (decryption), for the case that closing the temporary file loses nothing: in every state of
the file system during and after the operation the destination has its old content, or the operation
reports success and the destination has all of what opening the source in one piece gives.  (Read
errors only shorten the source.) -/
theorem C51_decrypt_atomic_partial {V : Evp} {P : Prim} (hV : V.Lawful P) (v : Env)
    (key : CipherKey) (src dst content : Bytes) (onlyAuth : Bool) (fs : Fs) (hflush : ∀ d, v.flush d = d)
    (hre : v.readErr = none) (hne : src ≠ tempPath dst) (hsrc : fs src = some content) :
    ∃ b fin states, fileDecrypt V v key src dst onlyAuth fs = .ok (b, fin, states) ∧
      (∀ s ∈ fin :: states, s dst = fs dst ∨
        (b = true ∧ (s dst).isSome ∧ s dst = fileOpen P key.key content onlyAuth)) ∧
      (b = true → (fin dst).isSome ∧ fin dst = fileOpen P key.key content onlyAuth) := by
  obtain ⟨ok, o, hd, hok⟩ := C50_decrypt_sound (P := P) hV v.accept key ⟨content, false⟩ onlyAuth
  obtain ⟨b, fin, states, h⟩ : ∃ b fin states, fileDecrypt V v key src dst onlyAuth fs = .ok (b, fin, states) := by
    simp only [fileDecrypt, fileOp, hsrc, reads_source hsrc hne hre, hd, Res.bind]
    repeat' split
    all_goals exact ⟨_, _, _, rfl⟩
  refine ⟨b, fin, states, h, ?_⟩
  rcases fileOp_states h with ⟨rfl, rfl, rfl⟩ | ⟨ok', o', -, -, -, h4, h5, -, h7, h8, -⟩
  · simp
  · rw [reads_source hsrc hne hre, hd] at h4
    injection h4 with h4
    obtain ⟨rfl, rfl⟩ : ok = ok' ∧ o = o' := by simpa using h4
    cases ok with
    | false =>
      have hb : b = false := h5
      subst hb
      exact ⟨fun s hs => (h7 s hs).imp id fun x => by simp at x, by simp⟩
    | true =>
      rw [hflush] at h7 h8
      rw [hok rfl]
      exact ⟨fun s hs => (h7 s hs).imp id fun x => ⟨x.1, by simp [x.2], x.2⟩,
        fun hb => ⟨by simp [h8 hb], h8 hb⟩⟩

/-- C51: whatever the environment does, a source that cannot be opened (for example because its tag
does not verify) leaves the destination as it was, in every state during the operation, and the
operation reports failure. -/
theorem C51_unauthentic_never_installed {V : Evp} {P : Prim} (hV : V.Lawful P) (v : Env)
    (key : CipherKey) (src dst : Bytes) (onlyAuth : Bool) (fs : Fs)
    (hno : fileOpen P key.key (v.reads (((fs.set (tempPath dst) (some [])) src).getD [])).bytes onlyAuth = none) :
    ∃ fin states, fileDecrypt V v key src dst onlyAuth fs = .ok (false, fin, states) ∧
      ∀ s ∈ fin :: states, s dst = fs dst := by
  obtain ⟨ok, o, hd, hok⟩ := C50_decrypt_sound (P := P) hV v.accept key
    (v.reads (((fs.set (tempPath dst) (some [])) src).getD [])) onlyAuth
  have hokf : ok = false := by
    cases ok with
    | false => rfl
    | true => rw [hok rfl] at hno; cases hno
  subst hokf
  obtain ⟨b, fin, states, h⟩ : ∃ b fin states, fileDecrypt V v key src dst onlyAuth fs = .ok (b, fin, states) := by
    simp only [fileDecrypt, fileOp, hd, Res.bind]
    repeat' split
    all_goals exact ⟨_, _, _, rfl⟩
  rcases fileOp_states h with ⟨rfl, rfl, rfl⟩ | ⟨ok', o', -, -, -, h4, h5, -, h7, -, -⟩
  · exact ⟨fin, [], h, by simp⟩
  · rw [hd] at h4
    injection h4 with h4
    obtain ⟨rfl, rfl⟩ : false = ok' ∧ o = o' := by simpa using h4
    have hb : b = false := h5
    subst hb
    exact ⟨fin, states, h, fun s hs => (h7 s hs).elim id fun x => by simp at x⟩

/-- An environment in which everything works. -/
def goodEnv : Env := ⟨true, none, true, fun _ => none, [], id, true, true⟩

theorem fileEncrypt_runs {V : Evp} {P : Prim} (hP : P.Lawful) (hV : V.Lawful P) {v : Env}
    {key : CipherKey} {iv fresh src dst : Bytes} {fs : Fs} (hiv : iv.length = key.cipher.ivLen)
    (hf : fresh.length = key.cipher.tagLen) (hk : key.key.length = 32) (hsrc : (fs src).isSome)
    (ho : v.openOk = true) (hc : v.createOk = true) (ha : v.accept = fun _ => none) (hrn : v.renameOk = true)
    (hs : WithinLimit key.cipher (v.reads (((fs.set (tempPath dst) (some [])) src).getD [])).bytes.length) :
    ∃ fin states, fileEncrypt V v key iv fresh src dst fs = .ok (true, fin, states) ∧
      fin dst = some (v.flush (fileImage P key iv (v.reads (((fs.set (tempPath dst) (some [])) src).getD [])).bytes)) ∧
      fin (tempPath dst) = none ∧ ∀ p, p ≠ dst → p ≠ tempPath dst → fin p = fs p := by
  obtain ⟨x, hx⟩ := Option.isSome_iff_exists.1 hsrc
  obtain ⟨o', he⟩ := encryptFile_complete (o := ⟨[], 0, 0⟩) (i := v.reads (((fs.set (tempPath dst) (some [])) src).getD []))
    (fresh := fresh) hV hiv hf hk hs
  have him := (encryptFile_sound hP hV hiv hf he).1
  simp only [List.drop_nil, List.append_nil] at him
  obtain ⟨fin, states, h⟩ : ∃ fin states, fileEncrypt V v key iv fresh src dst fs = .ok (true, fin, states) := by
    simp only [fileEncrypt, fileOp, hx, ho, hc, ha, he, Res.bind, Bool.not_true, Bool.false_eq_true, if_false,
      if_true, moveTemp, hrn]
    exact ⟨_, _, rfl⟩
  refine ⟨fin, states, h, ?_⟩
  rcases fileOp_states h with ⟨h1, -, -⟩ | ⟨ok, o, -, -, -, h4, h5, h6, h7, h8, h9⟩
  · simp at h1
  · rw [ha, he] at h4
    injection h4 with h4
    obtain ⟨-, rfl⟩ : true = ok ∧ o' = o := by simpa using h4
    exact ⟨by rw [h8 rfl, him], h9 (Or.inl rfl), fun p h1 h2 => h6 fin (by simp) p h1 h2⟩

/-- C51: when nothing goes wrong the destination holds the encrypted source, the temporary file is
gone, and every other file is as before; source and destination may be the same file. -/
theorem C51_encrypt_succeeds {V : Evp} {P : Prim} (hP : P.Lawful) (hV : V.Lawful P)
    (key : CipherKey) (iv fresh src dst content : Bytes) (fs : Fs) (hiv : iv.length = key.cipher.ivLen)
    (hf : fresh.length = key.cipher.tagLen) (hk : key.key.length = 32) (hs : WithinLimit key.cipher content.length)
    (hne : src ≠ tempPath dst) (hsrc : fs src = some content) :
    ∃ fin states, fileEncrypt V goodEnv key iv fresh src dst fs = .ok (true, fin, states) ∧
      fin dst = some (fileImage P key iv content) ∧ fin (tempPath dst) = none ∧
      ∀ p, p ≠ dst → p ≠ tempPath dst → fin p = fs p := by
  have hr := reads_source (v := goodEnv) hsrc hne rfl
  have := fileEncrypt_runs (v := goodEnv) (fs := fs) (src := src) (dst := dst) hP hV hiv hf hk (by simp [hsrc]) rfl rfl rfl rfl
    (by rw [hr]; exact hs)
  rw [hr] at this
  exact this

/-- C51 is false when closing the temporary file cannot write what is still buffered: the result of
`fclose` is ignored, the incomplete file replaces the destination and success is reported. -/
theorem C51_lost_flush {V : Evp} {P : Prim} (hP : P.Lawful) (hV : V.Lawful P)
    (key : CipherKey) (iv fresh src dst content : Bytes) (fs : Fs) (hiv : iv.length = key.cipher.ivLen)
    (hf : fresh.length = key.cipher.tagLen) (hk : key.key.length = 32) (hs : WithinLimit key.cipher content.length)
    (hne : src ≠ tempPath dst) (hsrc : fs src = some content) (n : Nat) :
    ∃ fin states, fileEncrypt V { goodEnv with flush := fun d => d.take n } key iv fresh src dst fs =
        .ok (true, fin, states) ∧
      fin dst = some ((fileImage P key iv content).take n) := by
  have hr := reads_source (v := { goodEnv with flush := fun d => d.take n }) hsrc hne rfl
  obtain ⟨fin, states, h1, h2, -⟩ := fileEncrypt_runs (v := { goodEnv with flush := fun d => d.take n }) (fs := fs) (src := src) (dst := dst)
    hP hV hiv hf hk (by simp [hsrc]) rfl rfl rfl rfl (by rw [hr]; exact hs)
  rw [hr] at h2
  exact ⟨fin, states, h1, h2⟩

/-- C68 is false for encryption: when reading the source fails after `n` bytes, the encryption of these
`n` bytes becomes the destination and success is reported. -/
theorem C68_read_error_unnoticed {V : Evp} {P : Prim} (hP : P.Lawful) (hV : V.Lawful P)
    (key : CipherKey) (iv fresh src dst content : Bytes) (fs : Fs) (hiv : iv.length = key.cipher.ivLen)
    (hf : fresh.length = key.cipher.tagLen) (hk : key.key.length = 32) (hs : WithinLimit key.cipher content.length)
    (hne : src ≠ tempPath dst) (hsrc : fs src = some content) (n : Nat) :
    ∃ fin states, fileEncrypt V { goodEnv with readErr := some n } key iv fresh src dst fs =
        .ok (true, fin, states) ∧
      fin dst = some (fileImage P key iv (content.take n)) := by
  have hr : ({ goodEnv with readErr := some n } : Env).reads (((fs.set (tempPath dst) (some [])) src).getD []) =
      ⟨content.take n, true⟩ := by
    simp [Fs.set, hne, hsrc, Env.reads]
  obtain ⟨fin, states, h1, h2, -⟩ := fileEncrypt_runs (v := { goodEnv with readErr := some n }) (fs := fs) (src := src) (dst := dst)
    hP hV hiv hf hk (by simp [hsrc]) rfl rfl rfl rfl
    (by rw [hr]; intro hc; have := hs hc; simp only [List.length_take]; omega)
  rw [hr] at h2
  exact ⟨fin, states, h1, h2⟩

/-- C68, the part that holds: with a read error a decryption succeeds only if what was read can be
opened itself (for GCM: is authentic).  File digests refuse read errors: `C71_file_digest`.
Missing: encryption and counter mode, see `C68_read_error_unnoticed`. -/
theorem C68_decrypt_read_error_partial {V : Evp} {P : Prim} (hV : V.Lawful P) (v : Env) (n : Nat)
    (key : CipherKey) (src dst content : Bytes) (onlyAuth : Bool) (fs : Fs)
    (hre : v.readErr = some n) (hne : src ≠ tempPath dst) (hsrc : fs src = some content)
    (hno : fileOpen P key.key (content.take n) onlyAuth = none) :
    ∃ fin states, fileDecrypt V v key src dst onlyAuth fs = .ok (false, fin, states) ∧
      ∀ s ∈ fin :: states, s dst = fs dst := by
  apply C51_unauthentic_never_installed (P := P) hV
  simpa [Fs.set, hne, hsrc, Env.reads, hre] using hno

/-- C69, the part that holds: in every state during and after an operation, all files except the
destination and `destination.temp` are as before; and `destination.temp` does not stay behind (unless
removing it fails). -/
theorem C69_other_files_untouched_partial (v : Env) (work : InFile → OutFile → Res (Bool × OutFile))
    (src dst : Bytes) (fs : Fs) (b : Bool) (fin : Fs) (states : List Fs)
    (h : fileOp v work src dst fs = .ok (b, fin, states)) :
    (∀ s ∈ fin :: states, ∀ p, p ≠ dst → p ≠ tempPath dst → s p = fs p) ∧
    (v.removeOk = true → fin = fs ∨ fin (tempPath dst) = none) := by
  rcases fileOp_states h with ⟨-, rfl, rfl⟩ | ⟨ok, o, -, -, -, -, -, h6, -, -, h9⟩
  · simp
  · exact ⟨h6, fun hr => Or.inr (h9 (Or.inr hr))⟩

/-- C69 is false: a file that happens to be named like the destination followed by `.temp` is lost,
also when the operation fails. -/
theorem C69_temp_destroyed (v : Env) (V : Evp) (key : CipherKey) (src dst : Bytes) (onlyAuth : Bool) (fs : Fs)
    (hsrc : (fs src).isSome) (ho : v.openOk = true) (hc : v.createOk = true) (hr : v.removeOk = true)
    (b : Bool) (fin : Fs) (states : List Fs) (h : fileDecrypt V v key src dst onlyAuth fs = .ok (b, fin, states)) :
    fin (tempPath dst) = none := by
  rcases fileOp_states h with ⟨rfl, rfl, rfl⟩ | ⟨ok, o, -, -, -, -, -, -, -, -, h9⟩
  · obtain ⟨x, hx⟩ := Option.isSome_iff_exists.1 hsrc
    exfalso
    simp only [fileDecrypt, fileOp, hx, ho, hc, Bool.not_true, Bool.false_eq_true, if_false] at h
    cases hw : decryptFile V v.accept key (v.reads (((fin.set (tempPath dst) (some [])) src).getD [])) ⟨[], 0, 0⟩ onlyAuth with
    | null => rw [hw] at h; simp [Res.bind] at h
    | ub => rw [hw] at h; simp [Res.bind] at h
    | ok r =>
      rw [hw] at h
      simp only [Res.bind] at h
      split at h
      · injection h with h; injection h with _ h; injection h with _ h; simp at h
      · injection h with h; injection h with _ h; injection h with _ h; simp at h
  · exact h9 (Or.inr hr)

/-- C69 is false: if the source is named like the destination followed by `.temp`, its content is
destroyed and the operation reports success, having encrypted nothing. -/
theorem C69_source_destroyed {V : Evp} {P : Prim} (hP : P.Lawful) (hV : V.Lawful P)
    (key : CipherKey) (iv fresh dst content : Bytes) (fs : Fs) (hiv : iv.length = key.cipher.ivLen)
    (hf : fresh.length = key.cipher.tagLen) (hk : key.key.length = 32)
    (hsrc : fs (tempPath dst) = some content) :
    ∃ fin states, fileEncrypt V goodEnv key iv fresh (tempPath dst) dst fs = .ok (true, fin, states) ∧
      fin (tempPath dst) = none ∧ fin dst = some (fileImage P key iv []) := by
  have hr : goodEnv.reads (((fs.set (tempPath dst) (some [])) (tempPath dst)).getD []) = ⟨[], false⟩ := by
    simp [Fs.set, Env.reads, goodEnv]
  obtain ⟨fin, states, h1, h2, h3, -⟩ := fileEncrypt_runs (v := goodEnv) (fs := fs) (src := tempPath dst) (dst := dst)
    hP hV hiv hf hk (by simp [hsrc]) rfl rfl rfl rfl (by rw [hr]; intro _; simp)
  rw [hr] at h2
  exact ⟨fin, states, h1, h3, h2⟩

/-! ### Unauthenticated plaintext -/

/-- A key and an encrypted file for the examples. -/
def toyFileKey : CipherKey := ⟨.gcm, List.replicate 32 7⟩
def toyFile : Bytes := fileImage toyPrim toyFileKey (List.replicate 12 3) [104, 105]

/-- C70 is false: a decryption with `FILE *` arguments that refuses a forged file has already
written the forged plaintext to its output. -/
theorem C70_forged_plaintext_written :
    ∃ (forged : Bytes) (o' : OutFile),
      fileOpen toyPrim toyFileKey.key forged true = none ∧
      decryptFile toyEvp (fun _ => none) toyFileKey ⟨forged, false⟩ ⟨[], 0, 0⟩ true = .ok (false, o') ∧
      o'.data = [104, 106] := by
  refine ⟨toyFile.set 30 (toyFile.getD 30 0 ^^^ 3), ⟨[104, 106], 2, 1⟩, ?_⟩
  decide +kernel

/-- C70, the part that holds: functions on paths never let such plaintext reach the destination. -/
theorem C70_destination_authentic_partial {V : Evp} {P : Prim} (hV : V.Lawful P) (v : Env)
    (key : CipherKey) (src dst content : Bytes) (fs : Fs) (hflush : ∀ d, v.flush d = d)
    (hre : v.readErr = none) (hne : src ≠ tempPath dst) (hsrc : fs src = some content)
    (b : Bool) (fin : Fs) (states : List Fs) (h : fileDecrypt V v key src dst true fs = .ok (b, fin, states))
    (s : Fs) (hs : s ∈ fin :: states) (hch : s dst ≠ fs dst) :
    ∃ iv tag ct pt, content = 0 :: iv ++ tag ++ ct ∧ iv.length = 12 ∧ tag.length = 16 ∧
      P.gcmOpen key.key iv none ct tag = some pt ∧ s dst = some pt := by
  obtain ⟨b', fin', states', h1, h2, -⟩ :=
    C51_decrypt_atomic_partial (P := P) hV v key src dst content true fs hflush hre hne hsrc
  rw [h] at h1
  injection h1 with h1
  injection h1 with e1 h1
  injection h1 with e2 e3
  subst e1 e2 e3
  rcases h2 s hs with h2 | ⟨-, h3, h4⟩
  · exact absurd h2 hch
  · obtain ⟨pt, hpt⟩ := Option.isSome_iff_exists.1 h3
    rw [hpt] at h4
    unfold fileOpen at h4
    split at h4
    · cases h4
    · cases content with
      | nil => cases h4
      | cons m rest =>
        simp only at h4
        split at h4
        · next h0 =>
          split at h4
          · cases h4
          · next hl =>
            refine ⟨rest.take 12, (rest.drop 12).take 16, rest.drop 28, pt, ?_, ?_, ?_, h4.symm, hpt⟩
            · rw [h0, List.cons_append, List.cons_append, ← List.take_add, List.take_append_drop]
            · simp; omega
            · simp; omega
        · simp at h4

/-! ### The hypotheses can be met -/

example : ∃ o' o'', encryptFile toyEvp (fun _ => none) toyFileKey (List.replicate 12 3) (List.replicate 16 9)
      ⟨[104, 105], false⟩ ⟨[], 0, 0⟩ = (true, o') ∧ o'.data = toyFile ∧
    decryptFile toyEvp (fun _ => none) toyFileKey ⟨o'.data, false⟩ ⟨[], 0, 0⟩ true = .ok (true, o'') ∧
    o''.data = [104, 105] := by
  refine ⟨⟨toyFile, 29, 3⟩, ⟨[104, 105], 2, 1⟩, ?_⟩
  decide +kernel

example : ∃ fin states, fileEncrypt toyEvp goodEnv toyFileKey (List.replicate 12 3) (List.replicate 16 9) [97] [98]
      (fun p => if p = [97] then some [104, 105] else none) = .ok (true, fin, states) ∧ fin [98] = some toyFile := by
  obtain ⟨fin, states, h1, h2, -⟩ := C51_encrypt_succeeds toyPrim_lawful toyEvp_lawful toyFileKey
    (List.replicate 12 3) (List.replicate 16 9) [97] [98] [104, 105]
    (fun p => if p = [97] then some [104, 105] else none) rfl rfl rfl (by intro _; decide) (by decide) rfl
  exact ⟨fin, states, h1, h2⟩

end Wickr
