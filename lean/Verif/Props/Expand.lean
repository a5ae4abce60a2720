import Verif.Props.KdfCipher
import Verif.Model.Toy
/-
C12: parameters for HKDF in expand mode.
-/
namespace Wickr
open Spec

theorem kdfMetaCreateExpand_eq (info : Bytes) (n : Nat) : kdfMetaCreateExpand .sha512 (some info) n =
    some ⟨{ hkdfSha512Expand with outputSize := UInt8.ofNat n }, none, some info⟩ := by
  simp [kdfMetaCreateExpand, kdfMetaCreate, hkdfSha512Expand]

/-- C12: parameters made for an expansion to `n` bytes, 1 to 255, give `n` bytes. -/
theorem C12_expand_size (E : Engine) (hE : E.Lawful) (info pass : Bytes) (n : Nat) (hn : 1 ≤ n ∧ n ≤ 255) (hi : 0 < info.length ∧ info.length ≤ 1024)
    (hp : 0 < pass.length ∧ pass.length ≤ 1024) :
    ∃ m h, kdfMetaCreateExpand .sha512 (some info) n = some m ∧ m.info = some info ∧ E.kdf m pass = some h ∧ h.length = n := by
  have hu : (UInt8.ofNat n).toNat = n := by simp; omega
  obtain ⟨h, h1, h2⟩ := hE.hkdf_expand_len (UInt8.ofNat n) info pass (by omega) hp.1 hp.2 hi.1 hi.2
  exact ⟨_, h, kdfMetaCreateExpand_eq info n, rfl, h1, by rw [h2, hu]⟩

/-- C12, what happens to larger requests: the size is kept in one byte.  A request for more than 255 bytes is accepted and gives `n` modulo 256 bytes. -/
theorem C12_expand_truncated (E : Engine) (hE : E.Lawful) (info pass : Bytes) (n : Nat) (hn : n % 256 ≠ 0) (hi : 0 < info.length ∧ info.length ≤ 1024)
    (hp : 0 < pass.length ∧ pass.length ≤ 1024) :
    ∃ m h, kdfMetaCreateExpand .sha512 (some info) n = some m ∧ E.kdf m pass = some h ∧ h.length = n % 256 := by
  have hu : (UInt8.ofNat n).toNat = n % 256 := by simp
  obtain ⟨h, h1, h2⟩ := hE.hkdf_expand_len (UInt8.ofNat n) info pass (by omega) hp.1 hp.2 hi.1 hi.2
  exact ⟨_, h, kdfMetaCreateExpand_eq info n, h1, by rw [h2, hu]⟩

/-- … and a multiple of 256 is accepted when the parameters are made and refused by the engine when they are used. -/
theorem C12_expand_multiple_fails (P : Prim) (info pass : Bytes) (n : Nat) (hn : n % 256 = 0) :
    ∃ m, kdfMetaCreateExpand .sha512 (some info) n = some m ∧ (defaultEngine P).kdf m pass = none := by
  have hu : UInt8.ofNat n = 0 := by
    apply UInt8.toNat_inj.1
    simpa using hn
  refine ⟨_, kdfMetaCreateExpand_eq info n, ?_⟩
  simp [hu, defaultEngine, performKdfMeta, hkdfSha512Expand, hkdfHash, hkdfChecks]

/-- C12: without info, or with another digest than SHA-512, there are no such parameters. -/
theorem C12_expand_refused (d : Digest) (info : Option Bytes) (n : Nat) : (kdfMetaCreateExpand d info n).isSome ↔ d = .sha512 ∧ info.isSome := by
  cases info with
  | none => simp [kdfMetaCreateExpand]
  | some i =>
    by_cases h : d = .sha512
    · subst h; simp [kdfMetaCreateExpand_eq]
    · simp [kdfMetaCreateExpand, h]

/-- C12: parameters for an expansion are never written, and copied exactly, with their size, whenever the info is a valid buffer. -/
theorem C12_expand_kept (info : Bytes) (n : Nat) (m : KdfMeta) (h : kdfMetaCreateExpand .sha512 (some info) n = some m) :
    kdfMetaSerialize m = none ∧ ∀ m', kdfMetaCopy m = some m' ↔ m' = m ∧ ValidBuf info := by
  rw [kdfMetaCreateExpand_eq] at h
  cases h
  refine ⟨by simp [kdfMetaSerialize, hkdfSha512Expand], fun m' => ?_⟩
  simp only [kdfMetaCopy, dupOpt, Option.bind_some, Option.bind_eq_some_iff, Option.map_eq_some_iff, dup_eq_some]
  constructor
  · rintro ⟨_, ⟨_, ⟨h1, rfl⟩, rfl⟩, h2⟩
    simp [kdfMetaCreate, hkdfSha512Expand] at h2
    exact ⟨h2.symm, h1⟩
  · rintro ⟨rfl, h1⟩
    exact ⟨_, ⟨_, ⟨h1, rfl⟩, rfl⟩, by simp [kdfMetaCreate, hkdfSha512Expand]⟩

/-- Evaluated: 300 bytes are asked for and 44 obtained, 64 and 64, 256 and none. -/
example : ((kdfMetaCreateExpand .sha512 (some [1]) 300).bind (toyEngine.kdf · [2])).map List.length = some 44 ∧
    ((kdfMetaCreateExpand .sha512 (some [1]) 64).bind (toyEngine.kdf · [2])).map List.length = some 64 ∧
    (kdfMetaCreateExpand .sha512 (some [1]) 256).bind (toyEngine.kdf · [2]) = none := by decide +kernel

end Wickr
