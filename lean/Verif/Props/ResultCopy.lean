import Verif.Props.MessageAuth
import Verif.Props.Storage
import Verif.Props.Payload
import Verif.Lemmas.SepParse
import Verif.Props.ComputeMessage
import Verif.Props.VerifyMem
import Verif.Props.Fingerprint
import Verif.Props.Ecdh
/-
C37, C45, C46: copies of the results of parsing and decoding, of fingerprints and of ECDH contexts.
-/
namespace Wickr
open Spec

theorem layout_of_parsed {b : Bytes} {c : CipherResult} (hb : b.length ≤ maxBuffer) (hc : cipherResultFromBuffer b = some c) :
    WfCipherResult c ∧ (cipherResultLayout c).length ≤ maxBuffer := by
  obtain ⟨c', h0, hl⟩ := cipherResult_accepts hc
  obtain ⟨r', _, hw', hl'⟩ := cipherResult_split _ c' h0 hl
  have hrt := (C10_cipher_result_round_trip r' hw' (by rw [hl']; exact hb)).2
  rw [hl'] at hrt
  rw [hrt] at hc
  cases hc
  exact ⟨hw', by rw [hl']; exact hb⟩

/-- A set read from bytes: its slots are filled with well-formed exchanges, they fit into an array, and the key is one the engine imported. -/
theorem exchangeSetFromBuffer_parts {E : Engine} {b : Bytes} {s : KeyExchangeSet} (h : exchangeSetFromBuffer E b = some s) :
    8 * s.exchanges.length ≤ maxBuffer ∧ ∃ d, E.ecImport d false = some s.senderPub := by
  unfold exchangeSetFromBuffer exchangeSetFromProto at h
  simp only [Option.bind_eq_some_iff] at h
  obtain ⟨p, _, h⟩ := h
  split at h
  · simp at h
  · split at h
    · simp at h
    · next ha =>
      simp only [Option.bind_eq_some_iff, Option.map_eq_some_iff] at h
      obtain ⟨xs, hm, k, hk, rfl⟩ := h
      obtain ⟨h1, _⟩ := mapM_mem hm
      refine ⟨?_, _, hk⟩
      simp only [arrayFits, decide_eq_true_eq, Decidable.not_not] at ha
      simp only [List.length_map]
      omega

/-- C37: a copy of what parsing a packet gives equals it, with or without an exchange, for every packet and every sender. -/
theorem C37_parse_result_copy (E : Engine) (hE : E.Fits) (m : Msg) (hm : m.content.length ≤ maxBuffer) (nodeId : Option Bytes)
    (kg : Cipher → Chain → Option CipherKey) (sender : Option Chain) (r : ParseResult)
    (h : parseFromPacket E m nodeId kg sender = .ok r) : parseCopy r = r := by
  cases sender with
  | none => cases h; rfl
  | some s =>
    rw [parseFromPacket_some] at h
    split at h
    · rcases parseContent_cases E m.content nodeId kg s with g | ⟨i, _, g, _⟩ | ⟨p, hd, set, x, y, h1, h2, h3, h4, g, hx⟩
      · rw [g] at h; cases h; rfl
      · rw [g] at h; cases h; rfl
      · rw [g] at h; cases h
        have hlen := packet_len h1
        obtain ⟨w1, w2⟩ := layout_of_parsed (by omega) h4
        unfold exchangeSetFromCipher at h3
        simp only [Option.bind_eq_some_iff] at h3
        obtain ⟨kk, _, bb, _, h3⟩ := h3
        obtain ⟨xs, _, hxs, hw⟩ := (C40_accepted_sets E _ _ h3).1
        obtain ⟨hf, d, hi⟩ := exchangeSetFromBuffer_parts h3
        obtain ⟨k, es⟩ := set
        simp only at hxs hf hi
        subst hxs
        have hk := hE.ecImport _ _ _ hi
        have hc : exchangeSetCopy ⟨k, xs.map some⟩ = some ⟨k, xs.map some⟩ :=
          C40_set_copy k _ (fun x hx => hw x (by simpa using hx)) hf hk.1 hk.2
        rcases hx with ⟨rfl, rfl⟩ | ⟨i, z, rfl, rfl, hz⟩
        · simp [parseCopy, hc, cipherResultCopy_wf w1 w2]
        · obtain ⟨pre, post, e, _⟩ := (C40_find_ok_iff k xs hw i z).1 hz
          have hzw := hw z (by rw [e]; simp)
          simp [parseCopy, hc, cipherResultCopy_wf w1 w2, exchangeCopy_wf hzw]
    · cases h; rfl

/-- C37: a copy of what decoding a packet gives equals it. -/
theorem C37_decode_result_copy (E : Engine) (v : UInt8) (r : ParseResult) (dev : Bytes) (key : Option EcKey) (rc s : Chain)
    (d : DecodeResult) (h : decodeFromParse E v r dev key rc s = .ok d) : decodeCopy d = d := by
  unfold decodeFromParse at h
  cases key with
  | none => simp at h
  | some key =>
    simp only [] at h
    split at h
    · simp at h
    · cases hset : r.set with
      | none => simp [hset] at h
      | some set =>
        simp only [hset] at h
        split at h
        · cases h; rfl
        · next k hk =>
          split at h
          · cases h; rfl
          · next p hp =>
            cases h
            unfold payloadFromCipher at hp
            simp only [kxDeriveKey, Option.bind_eq_some_iff] at hp hk
            obtain ⟨_, _, _, _, hp⟩ := hp
            obtain ⟨_, _, _, _, hk⟩ := hk
            have h1 := (C41_copy p p).2 ⟨rfl, C41_accepted_is_complete _ _ hp⟩
            simp [decodeCopy, h1, (cipherKeyFromBuffer_wf hk).copy]

/-- C37: copies are not made for free: a result whose payload lost its body loses the payload when it is copied. -/
theorem C37_decode_copy_drops : ∃ d : DecodeResult, d.payload.isSome ∧ (decodeCopy d).payload = none ∧ (decodeCopy d).err = d.err :=
  ⟨⟨.success, some ⟨⟨0, 0, [1], 0⟩, []⟩, none⟩, by decide +kernel⟩

/-- The theorems apply to a packet that is parsed with success. -/
example : parseCopy toyParse = toyParse ∧ toyParse.err = .success ∧ toyParse.exchange.isSome :=
  ⟨C37_parse_result_copy toyEngine toyEngine_fits toyMsg (by decide +kernel) (some [4, 4]) (genHeaderKey toyEngine) (some toySender) toyParse (by decide +kernel),
    by decide +kernel, by decide +kernel⟩

/-- C45: a copy of a fingerprint, of one identity or of two, equals it. -/
theorem C45_copy (E : Engine) (hE : E.Fits) (i j : Identity) (f : Bytes) (h : identityFp E i = some f ∨ bilateralFp E i j = some f) :
    fpCopy f = some f := by
  have hv : ValidBuf f := by
    rcases h with h | h
    · simp only [identityFp, fpGen, fpDigest, Option.bind_eq_some_iff] at h
      obtain ⟨_, _, _, _, h⟩ := h
      exact hE.digest _ _ _ _ h
    · simp only [bilateralFp, fpCombine, fpDigest, Option.bind_eq_some_iff] at h
      obtain ⟨_, _, _, _, h⟩ := h
      split at h
      · cases h
      · simp only [Option.bind_eq_some_iff] at h
        obtain ⟨_, _, _, h0, h⟩ := h
        exact hE.digest _ _ _ _ h
  exact dup_of hv

/-- C46: a copy of a context decrypts what the original decrypts and encrypts to the same cipher text; there is one whenever the key's data are valid buffers. -/
theorem C46_copy (E : Engine) (c : EcdhCtx) :
    (∀ c', ecdhCopy c = some c' → ∀ peer m, (∀ r, ecdhDecipher E c' r peer m = ecdhDecipher E c r peer m) ∧
      ∀ pt iv, ecdhCipher E c' pt peer m iv = ecdhCipher E c pt peer m iv) ∧
    ((ecdhCopy c).isSome ↔ ValidBuf c.key.pub ∧ ∀ p, c.key.pri = some p → ValidBuf p) := by
  obtain ⟨ci, cv, pu, pr⟩ := c
  constructor
  · intro c' h peer m
    simp only [ecdhCopy, Option.map_eq_some_iff] at h
    obtain ⟨k, hk, rfl⟩ := h
    rw [ecKeyCopy_some hk]
    exact ⟨fun _ => rfl, fun _ _ => rfl⟩
  · constructor
    · intro h
      obtain ⟨c', h⟩ := Option.isSome_iff_exists.1 h
      simp only [ecdhCopy, ecKeyCopy, Option.map_eq_some_iff, Option.bind_eq_some_iff, dup_eq_some] at h
      obtain ⟨_, ⟨_, ⟨h1, rfl⟩, _, h2, rfl⟩, rfl⟩ := h
      refine ⟨h1, fun p hp => ?_⟩
      simp only at hp
      subst hp
      simp only [dupOpt, Option.map_eq_some_iff, dup_eq_some] at h2
      obtain ⟨_, ⟨h2, _⟩, _⟩ := h2
      exact h2
    · rintro ⟨h1, h2⟩
      simp [ecdhCopy, ecKeyCopy, dup_of h1, dupOpt_of h2]

example : fpCopy ((identityFp toyEngine toyChain.node).getD []) = identityFp toyEngine toyChain.node ∧ (identityFp toyEngine toyChain.node).isSome ∧
    ecdhCopy ⟨.gcm, toyKey 31⟩ = some ⟨.gcm, toyKey 31⟩ := by decide +kernel

end Wickr
