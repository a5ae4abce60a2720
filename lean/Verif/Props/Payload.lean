import Verif.Model.Payload
import Verif.Model.Toy
import Verif.Lemmas.ProtoSize
import Verif.Lemmas.Engine
set_option linter.unusedSimpArgs false
/-
C41: payloads and their metadata.
-/
namespace Wickr
open Spec

theorem PEphemerality.size (m : PEphemerality) : (fieldsEnc m.pack).length ≤ 40 := by
  have h1 := size_putU64 1 (some m.ttl)
  have h2 := size_putU64 2 m.bor
  simp only [PEphemerality.pack, fieldsEnc_append, List.length_append]; omega

theorem PMeta.size (m : PMeta) : (fieldsEnc m.pack).length ≤ 100 + (optBytes m.channelTag).length := by
  have h1 := size_putMsg PEphemerality.pack 1 (some m.eph)
  have h2 := size_putBytes 2 m.channelTag
  have h3 := size_putU32 3 m.contentType
  have h4 := PEphemerality.size m.eph
  simp only [PMeta.pack, fieldsEnc_append, List.length_append] at *; omega

theorem PPayload.size (m : PPayload) :
    (fieldsEnc m.pack).length ≤ 140 + (optBytes m.hdr.channelTag).length + m.body.length := by
  have h1 := size_putMsg PMeta.pack 3 (some m.hdr)
  have h2 := size_putBytes 4 (some m.body)
  have h3 := PMeta.size m.hdr
  simp only [PPayload.pack, fieldsEnc_append, List.length_append, optBytes] at *; omega

theorem payloadFromProto_toProto (p : Payload) (ht : ValidBuf p.hdr.channelTag) (hb : ValidBuf p.body) :
    payloadFromProto (payloadToProto p) = some p := by
  obtain ⟨⟨ttl, bor, tag, ty⟩, body⟩ := p
  simp only at ht hb
  have hty : ty.toUInt32.toUInt16 = ty := by simp
  by_cases h0 : bor = 0 <;>
    simp [payloadFromProto, payloadToProto, optBytes, dup_of ht, dup_of hb, h0, hty]

theorem payload_serialize {p : Payload} (hs : p.hdr.channelTag.length + p.body.length + 140 ≤ maxBuffer) :
    payloadSerialize p = some (fieldsEnc (payloadToProto p).pack) ∧
    (fieldsEnc (payloadToProto p).pack).length ≤ 140 + p.hdr.channelTag.length + p.body.length := by
  have h := PPayload.size (payloadToProto p)
  simp only [payloadToProto, optBytes] at h
  exact ⟨protoPack_ok (by simp [PPayload.pack, putMsg]) (by simp only [payloadToProto]; omega), h⟩

/-- C41.  A payload with a channel tag and a body (of any size the buffer limit leaves room for)
survives serialization with every field: life time, burn-on-read time (zero included), channel tag,
content type, body. -/
theorem C41_payload_round_trip (p : Payload) (ht : p.hdr.channelTag ≠ []) (hb : p.body ≠ [])
    (hs : p.hdr.channelTag.length + p.body.length + 140 ≤ maxBuffer) :
    ∃ b, payloadSerialize p = some b ∧ payloadFromBuffer b = some p := by
  obtain ⟨h1, h2⟩ := payload_serialize hs
  refine ⟨_, h1, ?_⟩
  unfold payloadFromBuffer
  rw [PPayload.lawful.round_trip _ _ h1]
  exact payloadFromProto_toProto p ⟨List.length_pos_iff.2 ht, by omega⟩ ⟨List.length_pos_iff.2 hb, by omega⟩

/-- C41, the same without a size hypothesis: whatever was serialized is read back, provided tag and
body are not empty. -/
theorem C41_serialized_is_read_back (p : Payload) (b : Bytes) (h : payloadSerialize p = some b)
    (ht : p.hdr.channelTag ≠ []) (hb : p.body ≠ []) : payloadFromBuffer b = some p := by
  unfold payloadFromBuffer
  rw [PPayload.lawful.round_trip _ _ h]
  unfold payloadSerialize protoPack at h
  rw [dup_eq_some] at h
  have hl := h.1.2
  refine payloadFromProto_toProto p ⟨List.length_pos_iff.2 ht, ?_⟩ ⟨List.length_pos_iff.2 hb, ?_⟩
  · refine Nat.le_trans ?_ hl
    have h1 : (fieldsEnc (PMeta.pack (payloadToProto p).hdr)).length ≤
        (fieldsEnc (payloadToProto p).pack).length :=
      len_le_of_mem (n := 3) (by simp [PPayload.pack, putMsg])
    refine Nat.le_trans ?_ h1
    exact len_le_of_mem (n := 2) (by simp [PMeta.pack, putMsg, putBytes, payloadToProto])
  · refine Nat.le_trans ?_ hl
    exact len_le_of_mem (n := 4) (by simp [PPayload.pack, putMsg, putBytes, payloadToProto])

/-- C41, the limit: a payload with an empty channel tag or body can be serialized but the result is
never accepted. -/
theorem C41_empty_parts_are_lost (p : Payload) (b : Bytes) (h : payloadSerialize p = some b)
    (he : p.hdr.channelTag = [] ∨ p.body = []) : payloadFromBuffer b = none := by
  unfold payloadFromBuffer
  rw [PPayload.lawful.round_trip _ _ h]
  have hd : dup ([] : Bytes) = none := by decide
  rcases he with he | he
  · simp [payloadFromProto, payloadToProto, optBytes, he, hd]
  · cases hx : dup p.hdr.channelTag <;> simp [payloadFromProto, payloadToProto, optBytes, he, hd, hx]

/-- C41: nothing without a tag or a body is accepted, whatever the bytes. -/
theorem C41_accepted_is_complete (b : Bytes) (p : Payload) (h : payloadFromBuffer b = some p) :
    ValidBuf p.hdr.channelTag ∧ ValidBuf p.body := by
  unfold payloadFromBuffer payloadFromProto at h
  simp only [Option.bind_eq_some_iff, Option.map_eq_some_iff, dup_eq_some] at h
  obtain ⟨m, _, tag, ⟨h1, rfl⟩, body, ⟨h2, rfl⟩, rfl⟩ := h
  exact ⟨h1, h2⟩

/-- C41: a copy equals its original, and can be made exactly when tag and body are valid buffers. -/
theorem C41_copy (p q : Payload) :
    payloadCopy p = some q ↔ q = p ∧ ValidBuf p.hdr.channelTag ∧ ValidBuf p.body := by
  obtain ⟨⟨ttl, bor, tag, ty⟩, body⟩ := p
  simp only [payloadCopy, pktInfoCopy, Option.bind_eq_some_iff, Option.map_eq_some_iff, dup_eq_some]
  constructor
  · rintro ⟨h, ⟨t, ⟨ht, rfl⟩, rfl⟩, b, ⟨hb, rfl⟩, rfl⟩; exact ⟨rfl, ht, hb⟩
  · rintro ⟨rfl, ht, hb⟩; exact ⟨_, ⟨_, ⟨ht, rfl⟩, rfl⟩, _, ⟨hb, rfl⟩, rfl⟩

/-- C41, encrypted: a payload encrypted with an authenticated cipher is read back with the key. -/
theorem C41_encrypted_round_trip (E : Engine) (hE : E.Lawful) (p : Payload) (k : CipherKey) (iv : Bytes)
    (ht : p.hdr.channelTag ≠ []) (hb : p.body ≠ [])
    (hs : p.hdr.channelTag.length + p.body.length + 200 ≤ maxBuffer)
    (hk : k.key.length = k.cipher.keyLen) (ha : k.cipher.isAuth = true) (hiv : iv.length = k.cipher.ivLen) :
    ∃ r ct, payloadEncrypt E p k iv = some r ∧ r.cipher = k.cipher ∧ WfCipherResult r ∧ r.ct = some ct ∧
      ct.length ≤ 140 + p.hdr.channelTag.length + p.body.length ∧ payloadFromCipher E (some r) k = some p := by
  obtain ⟨h1, h2⟩ := payload_serialize (p := p) (by omega)
  obtain ⟨r, ct, r1, r2, r3, r4, r5, r6, r7⟩ := hE.enc_dec _ none k iv
    (fieldsEnc_pos (fs := (payloadToProto p).pack) (by simp [PPayload.pack, putMsg])) (by omega) hk hiv (by simp)
  refine ⟨r, ct, by simp [payloadEncrypt, h1, r1], r2, r4, r5, by omega, ?_⟩
  simp [payloadFromCipher, r7 true (fun _ => ha), C41_serialized_is_read_back p _ h1 ht hb]

/-- C41: what was encrypted with an unauthenticated cipher is never read. -/
theorem C41_unauthenticated_refused (E : Engine) (hE : E.Lawful) (r : CipherResult) (k : CipherKey)
    (h : r.cipher.isAuth = false) : payloadFromCipher E (some r) k = none := by
  simp only [payloadFromCipher, Option.bind_some]
  cases hd : E.decrypt r none k true with
  | none => rfl
  | some pt => have := hE.dec_auth r none k pt hd; simp [h] at this

/-- A payload with a burn-on-read time and one without, and the exact bytes. -/
example : let p : Payload := ⟨⟨86400, 60, [1, 2], 1000⟩, [7]⟩
    let q : Payload := { p with hdr := { p.hdr with bor := 0 } }
    payloadSerialize p =
      some [26, 15, 10, 6, 8, 128, 163, 5, 16, 60, 18, 2, 1, 2, 24, 232, 7, 34, 1, 7] ∧
    (payloadSerialize p).bind payloadFromBuffer = some p ∧
    payloadSerialize q = some [26, 13, 10, 4, 8, 128, 163, 5, 18, 2, 1, 2, 24, 232, 7, 34, 1, 7] ∧
    (payloadSerialize q).bind payloadFromBuffer = some q ∧
    ((payloadEncrypt toyEngine p ⟨.gcm, List.replicate 32 4⟩ (List.replicate 12 1)).bind fun r =>
      payloadFromCipher toyEngine (some r) ⟨.gcm, List.replicate 32 4⟩) = some p ∧
    ((payloadEncrypt toyEngine p ⟨.gcm, List.replicate 32 4⟩ (List.replicate 12 1)).bind fun r =>
      payloadFromCipher toyEngine (some r) ⟨.gcm, List.replicate 31 4 ++ [5]⟩) = none := by decide +kernel

end Wickr
