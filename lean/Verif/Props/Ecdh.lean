import Verif.Model.Ecdh
import Verif.Lemmas.Identity
import Verif.Model.Toy
import Verif.Props.Engine
set_option linter.unusedSimpArgs false
/-
C46: the two ends of an ECDH cipher context.
-/
namespace Wickr
open Spec

/-- KDF parameters an ECDH context can use: HKDF with one of the three digests, a salt or an info
(or both), of legal sizes. -/
structure Spec.EcdhMeta (m : KdfMeta) (d : Digest) : Prop where
  algo : m.algo = hkdfAlgoForDigest d
  salt : ∀ s, m.salt = some s → 0 < s.length ∧ s.length ≤ maxBuffer
  info : ∀ i, m.info = some i → 0 < i.length ∧ i.length ≤ 1024
  some : m.salt.isSome ∨ m.info.isSome

/-- Both ends derive the same key, of the right length. -/
theorem ecdh_key_agree {E : Engine} (hE : E.Lawful) {a b a' b' : EcKey} (ha : E.KeyPair a) (hb : E.KeyPair b)
    (ha' : a'.pub = a.pub) (hb' : b'.pub = b.pub) (c : Cipher) {m : KdfMeta} {d : Digest} (hm : EcdhMeta m d) :
    ∃ k : CipherKey, ecdhCipherKey E ⟨c, a⟩ b' m = some k ∧ ecdhCipherKey E ⟨c, b⟩ a' m = some k ∧
      k.cipher = c ∧ k.key.length = c.keyLen := by
  have hmb := maxBuffer_val
  obtain ⟨z, z0, z1, hz1, hz2⟩ := hE.dh_comm a b a' b' ha hb ha' hb'
  have h32 : (32 : UInt8).toNat = 32 := by decide
  obtain ⟨h, hh, hl⟩ := hE.hkdf_len d 32 m.salt m.info z (by decide) z0 z1 hm.info hm.salt hm.some
  have hkl : c.keyLen = 32 := by cases c <;> rfl
  rw [h32] at hl
  have hmeta : (if m.algo.outputSize.toNat ≠ c.keyLen then
        { m with algo := { m.algo with outputSize := UInt8.ofNat c.keyLen } } else m) =
      ⟨{ hkdfAlgoForDigest d with outputSize := 32 }, m.salt, m.info⟩ := by
    obtain ⟨al, s, i⟩ := m
    have := hm.algo
    simp only at this
    subst this
    rw [hkl]
    cases d <;> simp [hkdfAlgoForDigest, hkdfSha256, hkdfSha384, hkdfSha512]
  have hkind : ¬ m.algo.kind ≠ .hkdf := by rw [hm.algo]; cases d <;> simp [hkdfAlgoForDigest, hkdfSha256, hkdfSha384, hkdfSha512]
  have hd : dup h = some h := dup_of ⟨by omega, by omega⟩
  refine ⟨⟨c, h⟩, ?_, ?_, rfl, by simp only []; omega⟩
  · simp only [ecdhCipherKey, if_neg hkind, hmeta, hz1, Option.bind_some, hh, hd]
    simp [cipherKeyCreate, hl, hkl]
  · simp only [ecdhCipherKey, if_neg hkind, hmeta, hz2, Option.bind_some, hh, hd]
    simp [cipherKeyCreate, hl, hkl]

/-- C46.  For every lawful engine, two key pairs, ciphers, digests, salts and infos: what one end
encrypts to the other's public key, the other end decrypts with the first one's public key, to the
same plaintext.  (Each end only needs the other's public half.) -/
theorem C46_ends_agree (E : Engine) (hE : E.Lawful) (a b a' b' : EcKey) (ha : E.KeyPair a)
    (hb : E.KeyPair b) (ha' : a'.pub = a.pub) (hb' : b'.pub = b.pub) (c : Cipher) (m : KdfMeta) (d : Digest)
    (hm : EcdhMeta m d) (pt iv : Bytes) (h0 : 0 < pt.length) (h1 : pt.length + 1 ≤ maxBuffer)
    (hiv : iv.length = c.ivLen) :
    ∃ r, ecdhCipher E ⟨c, a⟩ pt b' m iv = some r ∧ r.cipher = c ∧ WfCipherResult r ∧
      (∃ ct, r.ct = some ct ∧ ct.length = pt.length) ∧ ecdhDecipher E ⟨c, b⟩ r a' m = some pt := by
  obtain ⟨k, k1, k2, k3, k4⟩ := ecdh_key_agree hE ha hb ha' hb' c hm
  obtain ⟨r, ct, r1, r2, r3, r4, r5, r6, r7⟩ :=
    hE.enc_dec pt none k iv h0 h1 (by rw [k3]; exact k4) (by rw [k3]; exact hiv) (by simp)
  refine ⟨r, by simp [ecdhCipher, k1, r1], by rw [r2, k3], r4, ⟨ct, r5, r6⟩, ?_⟩
  simp [ecdhDecipher, r2, k3, k2, r7 false (by simp)]

/-- C46: a result made with another cipher is refused, whatever the engine. -/
theorem C46_other_cipher_refused (E : Engine) (c : EcdhCtx) (r : CipherResult) (peer : EcKey) (m : KdfMeta)
    (h : r.cipher ≠ c.cipher) : ecdhDecipher E c r peer m = none := by
  have : r.cipher.id ≠ c.cipher.id := by
    obtain ⟨c, k⟩ := c
    obtain ⟨rc, _, _, _⟩ := r
    simp only at h
    cases c <;> cases rc <;> simp_all [Cipher.id]
  simp [ecdhDecipher, this]

/-- C46: only HKDF can be used to derive the key, in both directions and whatever the engine. -/
theorem C46_only_hkdf (E : Engine) (c : EcdhCtx) (pt iv : Bytes) (r : CipherResult) (peer : EcKey) (m : KdfMeta)
    (h : m.algo.kind ≠ .hkdf) : ecdhCipher E c pt peer m iv = none ∧ ecdhDecipher E c r peer m = none := by
  have hk : ecdhCipherKey E c peer m = none := by simp [ecdhCipherKey, h]
  constructor
  · simp [ecdhCipher, hk]
  · unfold ecdhDecipher; split <;> simp [hk]

/-- The key derived is always one of the context's cipher and of its length: the size the KDF
parameters ask for does not matter. -/
theorem C46_key_size (E : Engine) (c : EcdhCtx) (peer : EcKey) (m : KdfMeta) (n : UInt8) :
    (∀ k, ecdhCipherKey E c peer m = some k → k.cipher = c.cipher ∧ k.key.length = c.cipher.keyLen) ∧
    ecdhCipherKey E c peer { m with algo := { m.algo with outputSize := n } } = ecdhCipherKey E c peer m := by
  have hkl : c.cipher.keyLen = 32 := by cases c.cipher <;> rfl
  have hn : ∀ x : UInt8, ¬ x.toNat ≠ 32 → x = 32 := fun x hx =>
    UInt8.toNat_inj.1 (by have : (32 : UInt8).toNat = 32 := by decide
                          omega)
  constructor
  · intro k hk
    unfold ecdhCipherKey at hk
    split at hk
    · simp at hk
    · simp only [Option.bind_eq_some_iff] at hk
      obtain ⟨z, _, h, _, g, _, hk⟩ := hk
      unfold cipherKeyCreate at hk
      split at hk
      · simp at hk
      · next hl => cases hk; exact ⟨rfl, Decidable.byContradiction hl⟩
  · obtain ⟨⟨kd, ki, ss, os, co⟩, sa, inf⟩ := m
    unfold ecdhCipherKey
    simp only [hkl]
    by_cases h1 : os.toNat ≠ 32 <;> by_cases h2 : n.toNat ≠ 32
    · simp [h1, h2]
    · rw [hn n h2]; simp [h1]
    · rw [hn os h1]; simp [h2]
    · rw [hn os h1, hn n h2]

/-- Two toy key pairs, AES-GCM, SHA-384 parameters with a salt: the other end reads the message;
the sender's context under the other cipher does not. -/
example : let m : KdfMeta := ⟨hkdfSha384, some [1, 2], none⟩
    let r := ecdhCipher toyEngine ⟨.gcm, toyKey 5⟩ [7, 8] { toyKey 9 with pri := none } m (List.replicate 12 3)
    (r.bind fun r => ecdhDecipher toyEngine ⟨.gcm, toyKey 9⟩ r { toyKey 5 with pri := none } m) = some [7, 8] ∧
    (r.bind fun r => ecdhDecipher toyEngine ⟨.ctr, toyKey 9⟩ r { toyKey 5 with pri := none } m) = none := by
  decide +kernel

end Wickr
