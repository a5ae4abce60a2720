import Verif.Lemmas.SepPath
import Verif.Lemmas.Refute
import Verif.Lemmas.WitnessMsg
/-
C50, C51 and C86-C88 for the functions that encrypt, decrypt and hash files, under any allocator.
-/
namespace Wickr
open Asrt Spec

variable {V : Evp} {P : Prim}

/-! ### Hashing -/

theorem sha2_file_vs (hV : V.Fits) (i : InFile) (d : Digest) :
    ViewSpec .strict (fun _ => True) (gives isBuf (sha2File V i d)) (hSha2File V i d) :=
  fun f h _ => hSha2File_view hV _ f h i d

/-- `openssl_sha2_file`. -/
theorem C86_sha2_file (hV : V.Fits) (i : InFile) (d : Digest) :
    Computes (fun _ => True) isBuf (sha2File V i d) (hSha2File V i d) := Computes.of (sha2_file_vs hV i d)

theorem C87_sha2_file (hV : V.Fits) (i : InFile) (d : Digest) :
    Tidy (fun _ => True) isBuf (hSha2File V i d) ∧ Sturdy (fun _ => True) (hSha2File V i d) :=
  ⟨Tidy.of (sha2_file_vs hV i d), Sturdy.of (sha2_file_vs hV i d) id⟩

theorem C88_sha2_file (hV : V.Fits) (i : InFile) (d : Digest) : Discreet (fun _ => True) [] (hSha2File V i d) :=
  Discreet.of (sha2_file_vs hV i d) fun _ h => h.elim

/-! ### Decryption -/

/-- `openssl_decrypt_file`, whatever the allocator does: the answer and the file are those of the value model, or an allocation failed,
the answer is false and nothing was written; NULL is dereferenced only after an allocation failed. -/
theorem C86_decrypt_file (hV : V.Fits) (acc : Nat → Option Nat) (a : Addr) (k : CipherKey) (junk : Bytes) (i : InFile) (o : OutFile)
    (onlyAuth : Bool) (hj : chunkSize ≤ junk.length) :
    Answers (fun h => Has isCKey h a k) (fun x oom => decryptFile V acc k i o onlyAuth = .ok x ∨ (oom = true ∧ x = (false, o)))
      (hDecryptFile V acc (some a) junk i o onlyAuth) :=
  Answers.of (decrypt_file_vs hV acc a k junk i o onlyAuth hj _ fun _ h => h).weaken

/-- It leaves nothing in memory, even if allocations failed. -/
theorem C87_decrypt_file (hV : V.Fits) (acc : Nat → Option Nat) (a : Addr) (k : CipherKey) (junk : Bytes) (i : InFile) (o : OutFile)
    (onlyAuth : Bool) (hj : chunkSize ≤ junk.length) :
    LeavesNothing (fun h => Has isCKey h a k) (hDecryptFile V acc (some a) junk i o onlyAuth) :=
  LeavesNothing.of (decrypt_file_vs hV acc a k junk i o onlyAuth hj _ fun _ h => h)

/-- Besides zeros it releases only pieces of the encrypted file and its output buffer, which it does not wipe:
`C88_decrypt_file_not_wiped`. -/
theorem C88_decrypt_file (hV : V.Fits) (acc : Nat → Option Nat) (a : Addr) (k : CipherKey) (junk : Bytes) (i : InFile) (o : OutFile)
    (onlyAuth : Bool) (hj : chunkSize ≤ junk.length) :
    ReleasesWiped (fun h => Has isCKey h a k) (DecReleases V k i.bytes junk) (hDecryptFile V acc (some a) junk i o onlyAuth) :=
  ReleasesWiped.of (decrypt_file_vs hV acc a k junk i o onlyAuth hj _ fun _ h => h) (fun _ h => h) id

/-- Whatever the allocator does: true is answered only if the file can be opened with the key, and then all of what was in it has been
written. -/
theorem C50_decrypt_any_allocator (hV : V.Fits) (hL : V.Lawful P) (acc : Nat → Option Nat) (a : Addr) (k : CipherKey) (junk : Bytes)
    (i : InFile) (onlyAuth : Bool) (hj : chunkSize ≤ junk.length) :
    Answers (fun h => Has isCKey h a k) (fun x _ => x.1 = true → fileOpen P k.key i.bytes onlyAuth = some x.2.data)
      (hDecryptFile V acc (some a) junk i ⟨[], 0, 0⟩ onlyAuth) := by
  refine Answers.of ((decrypt_file_vs hV acc a k junk i ⟨[], 0, 0⟩ onlyAuth hj _ fun _ h => h).weaken.mono fun x f h hx => ?_)
  rcases h with h | ⟨-, rfl⟩
  · obtain ⟨ok, o', h1, h2⟩ := C50_decrypt_sound hL acc k i onlyAuth
    rw [h] at h1
    injection h1 with h1
    subst h1
    exact h2 hx
  · cases hx

/-! ### Encryption -/

/-- `openssl_encrypt_file`, whatever the allocator does: the answer and the file are those of the value model; or an allocation failed
and the answer is false, or it is true and the header has never got its tag (GCM: `C50_encrypt_without_tag`). -/
theorem C86_encrypt_file (hV : V.Fits) (hL : V.Lawful P) (acc : Nat → Option Nat) (a : Addr) (k : CipherKey) (iv fresh junk : Bytes)
    (i : InFile) (o : OutFile) (hj : chunkSize ≤ junk.length) (hiv : iv.length = k.cipher.ivLen) (hf : fresh.length = k.cipher.tagLen) :
    Answers (fun h => Has isCKey h a k) (fun x oom => x = encryptFile V acc k iv fresh i o ∨
        (oom = true ∧ (x.1 = true → x.2.data = staleImage P k iv fresh i.bytes ++ o.data.drop (staleImage P k iv fresh i.bytes).length)))
      (hEncryptFile V acc (some a) iv fresh junk i o) :=
  Answers.of ((encrypt_file_vs hV acc a k iv fresh junk i o hj hiv hf _ fun _ h => h).mono fun _ _ h =>
    h.imp_right (And.imp_right (encFails_image hL)))

/-- Besides zeros it releases only pieces of headers and its output buffer with encrypted pieces: nothing of the content, and not the
key. -/
theorem C88_encrypt_file (hV : V.Fits) (acc : Nat → Option Nat) (a : Addr) (k : CipherKey) (iv fresh junk : Bytes)
    (i : InFile) (o : OutFile) (hj : chunkSize ≤ junk.length) (hiv : iv.length = k.cipher.ivLen) (hf : fresh.length = k.cipher.tagLen) :
    ReleasesWiped (fun h => Has isCKey h a k) (EncReleases V k iv fresh i.bytes junk) (hEncryptFile V acc (some a) iv fresh junk i o) :=
  ReleasesWiped.of (encrypt_file_vs hV acc a k iv fresh junk i o hj hiv hf _ fun _ h => h) (fun _ h => h) id

/-- Whatever the allocator does, with CTR true is answered only if the file is the whole encryption of the content; with GCM it is that
but for the tag, and with the tag if no allocation failed. -/
theorem C50_encrypt_any_allocator (hP : P.Lawful) (hV : V.Fits) (hL : V.Lawful P) (acc : Nat → Option Nat) (a : Addr) (k : CipherKey)
    (iv fresh junk : Bytes) (i : InFile) (hj : chunkSize ≤ junk.length) (hiv : iv.length = k.cipher.ivLen)
    (hf : fresh.length = k.cipher.tagLen) :
    Answers (fun h => Has isCKey h a k) (fun x oom => x.1 = true → x.2.data = fileImage P k iv i.bytes ∨
        (oom = true ∧ k.cipher = .gcm ∧ x.2.data = staleImage P k iv fresh i.bytes))
      (hEncryptFile V acc (some a) iv fresh junk i ⟨[], 0, 0⟩) := by
  refine Answers.of ((encrypt_file_vs hV acc a k iv fresh junk i ⟨[], 0, 0⟩ hj hiv hf _ fun _ h => h).mono fun x f h hx => ?_)
  rcases h with h | ⟨h1, h2⟩
  · obtain ⟨x1, x2⟩ := x
    dsimp only at hx ⊢
    subst hx
    have := C50_file_image hP hL acc k iv fresh i ⟨[], 0, 0⟩ x2 hiv hf h.symm
    left
    simpa using this
  · have := encFails_image hL h2 hx
    simp only [List.drop_nil, List.append_nil] at this
    cases hc : k.cipher with
    | gcm => exact Or.inr ⟨h1, rfl, this⟩
    | ctr => left; rw [this]; unfold staleImage; rw [hc]

/-! ### Paths -/

/-- `openssl_aes256_file_decrypt`, whatever the allocator and the file system do: the destination changes only if true is answered,
and then at once into what opening the source with the key gives (as it is closed); with memory the answer and all states of the
file system are those of the value model. -/
theorem C51_decrypt_any_allocator (hV : V.Fits) (hL : V.Lawful P) (v : Env) (a : Addr) (k : CipherKey) (junk src dst : Bytes)
    (onlyAuth : Bool) (fs : Fs) (hj : chunkSize ≤ junk.length) :
    Answers (fun h => Has isCKey h a k) (fun x oom => (oom = false → fileDecrypt V v k src dst onlyAuth fs = .ok x) ∧
        Installs dst fs (fun b => ∃ pt, fileOpen P k.key (v.reads (((fs.set (tempPath dst) (some [])) src).getD [])).bytes onlyAuth = some pt ∧
          b = v.flush pt) x)
      (hFileDecrypt V v (some a) junk src dst onlyAuth fs) := by
  refine Answers.of ((file_decrypt_vs hV v a k junk src dst onlyAuth fs hj (fun _ => True) (fun _ _ => trivial) trivial).weaken.mono
    fun x f h => ⟨fun hf => ?_, ?_⟩)
  · subst hf
    exact pathQ_value h fun y hy => hy.resolve_right (by simp)
  · refine pathQ_installs h fun y hy ht => ?_
    rcases hy with hy | ⟨-, rfl⟩
    · obtain ⟨ok, o', h1, h2⟩ := C50_decrypt_sound hL v.accept k (v.reads (((fs.set (tempPath dst) (some [])) src).getD [])) onlyAuth
      rw [hy] at h1
      injection h1 with h1
      subst h1
      exact ⟨_, h2 ht, rfl⟩
    · cases ht

/-- `openssl_aes256_file_encrypt` likewise; if an allocation failed, the destination may be a file without its tag. -/
theorem C51_encrypt_any_allocator (hP : P.Lawful) (hV : V.Fits) (hL : V.Lawful P) (v : Env) (a : Addr) (k : CipherKey)
    (iv fresh junk src dst : Bytes) (fs : Fs) (hj : chunkSize ≤ junk.length) (hiv : iv.length = k.cipher.ivLen)
    (hf : fresh.length = k.cipher.tagLen) :
    Answers (fun h => Has isCKey h a k) (fun x oom => (oom = false → fileEncrypt V v k iv fresh src dst fs = .ok x) ∧
        Installs dst fs (fun b => b = v.flush (fileImage P k iv (v.reads (((fs.set (tempPath dst) (some [])) src).getD [])).bytes) ∨
          (oom = true ∧ k.cipher = .gcm ∧
            b = v.flush (staleImage P k iv fresh (v.reads (((fs.set (tempPath dst) (some [])) src).getD [])).bytes))) x)
      (hFileEncrypt V v (some a) iv fresh junk src dst fs) := by
  refine Answers.of ((file_encrypt_vs hV v a k iv fresh junk src dst fs hj hiv hf (fun _ => True) (fun _ _ => trivial) trivial).mono
    fun x f h => ⟨fun hf => ?_, ?_⟩)
  · subst hf
    exact pathQ_value h fun y hy => by rw [hy.resolve_right (by simp)]
  · refine pathQ_installs h fun y hy ht => ?_
    rcases hy with hy | ⟨h1, h2⟩
    · obtain ⟨x1, x2⟩ := y
      dsimp only at ht
      subst ht
      have := C50_file_image hP hL v.accept k iv fresh _ ⟨[], 0, 0⟩ x2 hiv hf hy.symm
      left
      rw [show x2.data = _ from this]
      simp
    · have := encFails_image hL h2 ht
      simp only [List.drop_nil, List.append_nil] at this
      cases hc : k.cipher with
      | gcm => exact Or.inr ⟨h1, rfl, by rw [this]⟩
      | ctr => left; rw [this]; unfold staleImage; rw [hc]

/-- The operations on paths leave nothing in memory (decryption: even if allocations failed; encryption: `C87_encrypt_file_leaks`),
and release nothing else than the functions on files do, but for the path of the temporary file. -/
theorem C87_decrypt_path (hV : V.Fits) (v : Env) (a : Addr) (k : CipherKey) (junk src dst : Bytes)
    (onlyAuth : Bool) (fs : Fs) (hj : chunkSize ≤ junk.length) :
    LeavesNothing (fun h => Has isCKey h a k) (hFileDecrypt V v (some a) junk src dst onlyAuth fs) :=
  LeavesNothing.of (file_decrypt_vs hV v a k junk src dst onlyAuth fs hj (fun _ => True) (fun _ _ => trivial) trivial)

theorem C88_decrypt_path (hV : V.Fits) (v : Env) (a : Addr) (k : CipherKey) (junk src dst : Bytes)
    (onlyAuth : Bool) (fs : Fs) (hj : chunkSize ≤ junk.length) :
    ReleasesWiped (fun h => Has isCKey h a k)
      (fun b => DecReleases V k (v.reads (((fs.set (tempPath dst) (some [])) src).getD [])).bytes junk b ∨ b = tempPath dst ++ [0])
      (hFileDecrypt V v (some a) junk src dst onlyAuth fs) :=
  ReleasesWiped.of (file_decrypt_vs hV v a k junk src dst onlyAuth fs hj
    (fun b => DecReleases V k (v.reads (((fs.set (tempPath dst) (some [])) src).getD [])).bytes junk b ∨ b = tempPath dst ++ [0])
    (fun _ => Or.inl) (Or.inr rfl)) (fun _ h => h) id

theorem C88_encrypt_path (hV : V.Fits) (v : Env) (a : Addr) (k : CipherKey) (iv fresh junk src dst : Bytes) (fs : Fs)
    (hj : chunkSize ≤ junk.length) (hiv : iv.length = k.cipher.ivLen) (hf : fresh.length = k.cipher.tagLen) :
    ReleasesWiped (fun h => Has isCKey h a k)
      (fun b => EncReleases V k iv fresh (v.reads (((fs.set (tempPath dst) (some [])) src).getD [])).bytes junk b ∨ b = tempPath dst ++ [0])
      (hFileEncrypt V v (some a) iv fresh junk src dst fs) :=
  ReleasesWiped.of (file_encrypt_vs hV v a k iv fresh junk src dst fs hj hiv hf
    (fun b => EncReleases V k iv fresh (v.reads (((fs.set (tempPath dst) (some [])) src).getD [])).bytes junk b ∨ b = tempPath dst ++ [0])
    (fun _ => Or.inl) (Or.inr rfl)) (fun _ h => h) id

/-! ### What the code does not do -/

/-- A key, an IV and the file that encrypting `[1, 2, 3]` gives, with the toy primitives. -/
def wKey : CipherKey := ⟨.gcm, List.replicate 32 7⟩
def wIv : Bytes := List.replicate 12 5
def wFile : InFile := ⟨fileImage toyPrim wKey wIv [1, 2, 3], false⟩
def wJunk : Bytes := List.replicate chunkSize 0

theorem wKey_spec : Triple free4all false emp (litCKey wKey) (fun r _ => made isCKey wKey r) :=
  litCKey_spec _ _ trivial _ (by decide) (by decide)

set_option maxRecDepth 20000 in
/-- The hypotheses of the theorems above are met, and the file can be opened. -/
example : wIv.length = wKey.cipher.ivLen ∧ chunkSize ≤ wJunk.length ∧ fileOpen toyPrim wKey.key wFile.bytes true = some [1, 2, 3] ∧
    toyEvp.Fits ∧ toyEvp.Lawful toyPrim := by
  refine ⟨by decide, by simp [wJunk], by decide +kernel, toyEvp_fits, toyEvp_lawful⟩

set_option maxRecDepth 20000 in
/-- Decrypting a file releases the output buffer with the plaintext in it (openssl_suite.c:1500). -/
theorem C88_decrypt_file_not_wiped : ∃ (A : Alloc) (s s' : St) (a : Addr) (o : OutFile), s.oom = false ∧ Has isCKey s.heap a wKey ∧
    hDecryptFile toyEvp (fun _ => none) (some a) wJunk wFile ⟨[], 0, 0⟩ true A s = .ret (true, o) s' ∧ o.data = [1, 2, 3] ∧
    s'.oom = false ∧ ∃ b ∈ s'.log, b ∉ s.log ∧ [1, 2, 3] <+: b := by
  obtain ⟨s, a, h1, h2, h3⟩ := run_of (m := fun p => hDecryptFile toyEvp (fun _ => none) p wJunk wFile ⟨[], 0, 0⟩ true)
    (fun s o => match o with
      | .ret r s' => r.1 && decide (r.2.data = [1, 2, 3]) && !s'.oom && s'.log.any fun b => !decide (b ∈ s.log) && decide (b.take 3 = [1, 2, 3])
      | _ => false) [] wKey_spec (args := fun a h => Has isCKey h a wKey) (fun _ _ h => h) (by decide +kernel)
  revert h3
  cases e : hDecryptFile toyEvp (fun _ => none) (some a) wJunk wFile ⟨[], 0, 0⟩ true (bump []) s with
  | ub => exact fun h => nomatch h
  | crash s' => exact fun h => nomatch h
  | ret r s' =>
    intro h
    obtain ⟨ok, o⟩ := r
    dsimp only at h
    simp only [Bool.and_eq_true, Bool.not_eq_true', decide_eq_true_eq, List.any_eq_true, decide_eq_false_iff_not] at h
    obtain ⟨⟨⟨rfl, h4⟩, h5⟩, b, h6, h7, h8⟩ := h
    exact ⟨_, s, s', a, o, h1, h2, e, h4, h5, b, h6, h7, h8 ▸ List.take_prefix 3 b⟩

set_option maxRecDepth 20000 in
/-- The parsed header is dereferenced without a test (openssl_suite.c:1408), and so is the output buffer. -/
theorem C87_decrypt_file_not_sturdy : ¬ ∀ a, Sturdy (fun h => Has isCKey h a wKey)
    (hDecryptFile toyEvp (fun _ => none) (some a) wJunk wFile ⟨[], 0, 0⟩ true) :=
  not_sturdy (m := fun p => hDecryptFile toyEvp (fun _ => none) p wJunk wFile ⟨[], 0, 0⟩ true) (args := fun a h => Has isCKey h a wKey)
    [5] wKey_spec (fun _ _ h => h) (by decide +kernel)

set_option maxRecDepth 20000 in
theorem C87_encrypt_file_not_sturdy : ¬ ∀ a, Sturdy (fun h => Has isCKey h a wKey)
    (hEncryptFile toyEvp (fun _ => none) (some a) wIv (List.replicate 16 9) wJunk ⟨[1, 2, 3], false⟩ ⟨[], 0, 0⟩) :=
  not_sturdy (m := fun p => hEncryptFile toyEvp (fun _ => none) p wIv (List.replicate 16 9) wJunk ⟨[1, 2, 3], false⟩ ⟨[], 0, 0⟩)
    (args := fun a h => Has isCKey h a wKey) [4] wKey_spec (fun _ _ h => h) (by decide +kernel)

set_option maxRecDepth 20000 in
/-- If there is no memory for the tag, the IV stays in memory (openssl_suite.c:1237-1240). -/
theorem C87_encrypt_file_leaks : ¬ ∀ a, LeavesNothing (fun h => Has isCKey h a wKey)
    (hEncryptFile toyEvp (fun _ => none) (some a) wIv (List.replicate 16 9) wJunk ⟨[1, 2, 3], false⟩ ⟨[], 0, 0⟩) := by
  intro hall
  obtain ⟨s, a, h1, h2, h3⟩ := run_of
    (m := fun p => hEncryptFile toyEvp (fun _ => none) p wIv (List.replicate 16 9) wJunk ⟨[1, 2, 3], false⟩ ⟨[], 0, 0⟩)
    (fun s o => match o with
      | .ret _ s' => (List.range 20).any fun x => decide (s'.heap x ≠ s.heap x)
      | _ => false) [6] wKey_spec (args := fun a h => Has isCKey h a wKey) (fun _ _ h => h) (by decide +kernel)
  revert h3
  cases e : hEncryptFile toyEvp (fun _ => none) (some a) wIv (List.replicate 16 9) wJunk ⟨[1, 2, 3], false⟩ ⟨[], 0, 0⟩ (bump [6]) s with
  | ub => exact fun h => nomatch h
  | crash s' => exact fun h => nomatch h
  | ret r s' =>
    intro h
    have := hall a _ s h1 h2 r s' e
    simp [this] at h

set_option maxRecDepth 20000 in
/-- If there is no memory to serialize the header again, true is answered although the file cannot be opened
(openssl_suite.c:1333-1336). -/
theorem C50_encrypt_without_tag : ∃ (A : Alloc) (s s' : St) (a : Addr) (o : OutFile), s.oom = false ∧ Has isCKey s.heap a wKey ∧
    hEncryptFile toyEvp (fun _ => none) (some a) wIv (List.replicate 16 9) wJunk ⟨[1, 2, 3], false⟩ ⟨[], 0, 0⟩ A s = .ret (true, o) s' ∧
    fileOpen toyPrim wKey.key o.data true = none := by
  obtain ⟨s, a, h1, h2, h3⟩ := run_of
    (m := fun p => hEncryptFile toyEvp (fun _ => none) p wIv (List.replicate 16 9) wJunk ⟨[1, 2, 3], false⟩ ⟨[], 0, 0⟩)
    (fun s o => match o with
      | .ret r _ => r.1 && decide (fileOpen toyPrim wKey.key r.2.data true = none)
      | _ => false) [14] wKey_spec (args := fun a h => Has isCKey h a wKey) (fun _ _ h => h) (by decide +kernel)
  revert h3
  cases e : hEncryptFile toyEvp (fun _ => none) (some a) wIv (List.replicate 16 9) wJunk ⟨[1, 2, 3], false⟩ ⟨[], 0, 0⟩ (bump [14]) s with
  | ub => exact fun h => nomatch h
  | crash s' => exact fun h => nomatch h
  | ret r s' =>
    intro h
    obtain ⟨ok, o⟩ := r
    dsimp only at h
    simp only [Bool.and_eq_true, decide_eq_true_eq] at h
    obtain ⟨rfl, h4⟩ := h
    exact ⟨_, s, s', a, o, h1, h2, e, h4⟩

set_option maxRecDepth 20000 in
/-- If there is no memory for the structure of the operation, the temporary file stays (openssl_file_suite.c:119-126), although it
could be removed. -/
theorem C51_temporary_left : ∃ (A : Alloc) (s s' : St) (a : Addr) (fin : Fs) (states : List Fs), s.oom = false ∧ Has isCKey s.heap a wKey ∧
    goodEnv.removeOk = true ∧
    hFileDecrypt toyEvp goodEnv (some a) wJunk [97] [98] true (fun p => if p = [97] then some wFile.bytes else none) A s =
      .ret (false, fin, states) s' ∧ fin (tempPath [98]) = some [] := by
  obtain ⟨s, a, h1, h2, h3⟩ := run_of
    (m := fun p => hFileDecrypt toyEvp goodEnv p wJunk [97] [98] true (fun p => if p = [97] then some wFile.bytes else none))
    (fun s o => match o with
      | .ret r _ => !r.1 && decide (r.2.1 (tempPath [98]) = some [])
      | _ => false) [4] wKey_spec (args := fun a h => Has isCKey h a wKey) (fun _ _ h => h) (by decide +kernel)
  revert h3
  cases e : hFileDecrypt toyEvp goodEnv (some a) wJunk [97] [98] true (fun p => if p = [97] then some wFile.bytes else none) (bump [4]) s with
  | ub => exact fun h => nomatch h
  | crash s' => exact fun h => nomatch h
  | ret r s' =>
    intro h
    obtain ⟨ok, fin, states⟩ := r
    dsimp only at h
    simp only [Bool.and_eq_true, Bool.not_eq_true', decide_eq_true_eq] at h
    obtain ⟨rfl, h4⟩ := h
    exact ⟨_, s, s', a, fin, states, h1, h2, rfl, e, h4⟩

end Wickr
