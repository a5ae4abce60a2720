import Verif.Lemmas.Proto
/-
C17: every message the library exchanges or stores survives the protobuf codec.

For each message type: if the message packs into a buffer at all, unpacking that buffer gives the
message back.  (`protoPack` is NULL exactly for an empty or oversized packing, `C17_pack_iff`.)
-/
set_option linter.unusedSimpArgs false
namespace Wickr

/-- The wire layer: any list of fields protobuf-c can write is read back, whatever the field
numbers, kinds and order. -/
theorem C17_wire_round_trip (fs : List Field) (h : ∀ f ∈ fs, f.Ok) :
    fieldsDec (fieldsEnc fs) = some fs := fieldsDec_enc fs h

example : ∀ f ∈ [(⟨3, .varint 0xFFFFFFFFFFFFFFFF⟩ : Field), ⟨1, .len [7, 8]⟩,
    ⟨2 ^ 29 - 1, .fixed32 [1, 2, 3, 4]⟩, ⟨1, .len []⟩], f.Ok := by
  simp [Field.Ok]

/-- When packing into a buffer succeeds. -/
theorem C17_pack_iff (fs : List Field) (b : Bytes) :
    protoPack fs = some b ↔ b = fieldsEnc fs ∧ 0 < b.length ∧ b.length ≤ 2147483631 := by
  unfold protoPack
  rw [dup_eq_some]
  unfold ValidBuf
  rw [← maxBuffer_val]
  constructor
  · rintro ⟨h, rfl⟩; exact ⟨rfl, h⟩
  · rintro ⟨rfl, h⟩; exact ⟨h, rfl⟩

/-- Fields with an unknown number are skipped: appending any of them to a message does not change
what is read (shown for the identity message, the one that travels in every handshake). -/
theorem C17_unknown_fields_ignored (m : PIdentity) (extra : List Field)
    (h : ∀ f ∈ extra, 5 < f.num ∨ f.num = 0) : PIdentity.unpack (m.pack ++ extra) = some m := by
  have ho : ∀ n, 1 ≤ n → n ≤ 5 → occ n extra = [] := by
    intro n h1 h5
    simp only [occ, List.map_eq_nil_iff, List.filter_eq_nil_iff]
    intro f hf
    have := h f hf
    simp; omega
  simp [PIdentity.unpack,
    getLast_bytes (n := 1) (fs := m.pack ++ extra) m.identifier (by
      rw [occ_append, ho 1 (by omega) (by omega)]; occs PIdentity.pack),
    getLast_bytes (n := 2) (fs := m.pack ++ extra) m.sigKey (by
      rw [occ_append, ho 2 (by omega) (by omega)]; occs PIdentity.pack),
    getLast_bytes (n := 3) (fs := m.pack ++ extra) m.signature (by
      rw [occ_append, ho 3 (by omega) (by omega)]; occs PIdentity.pack),
    getLast_u32 (n := 4) (fs := m.pack ++ extra) m.type (by
      rw [occ_append, ho 4 (by omega) (by omega)]; occs PIdentity.pack),
    getLast_bool (n := 5) (fs := m.pack ++ extra) m.isPrivate (by
      rw [occ_append, ho 5 (by omega) (by omega)]; occs PIdentity.pack)]

/-- A repeated member: the last value counts (shown for the identity message).  Since any number of
concatenated messages is again a message, this fixes what a peer reads from trailing additions. -/
theorem C17_last_value_wins (m : PIdentity) (id key : Bytes) :
    PIdentity.unpack (m.pack ++ [⟨2, .len key⟩, ⟨1, .len id⟩]) =
      some { m with identifier := some id, sigKey := some key } := by
  obtain ⟨a, b, c, d, e⟩ := m
  cases a <;> cases b <;> cases c <;> cases d <;> cases e <;>
    simp [PIdentity.unpack, PIdentity.pack, getBytes, getU32, getBool, getLast, occ, putBytes, putU32,
      putBool, WireVal.asBytes, WireVal.asU32, WireVal.asBool]
  all_goals (rename_i x; cases x <;> rfl)

theorem C17_identity_round_trip (m : PIdentity) (b : Bytes) (h : protoPack m.pack = some b) :
    (fieldsDec b).bind PIdentity.unpack = some m := PIdentity.lawful.round_trip m b h

theorem C17_identity_chain_round_trip (m : PChain) (b : Bytes) (h : protoPack m.pack = some b) :
    (fieldsDec b).bind PChain.unpack = some m := PChain.lawful.round_trip m b h

theorem C17_ephemeral_keypair_round_trip (m : PEphKey) (b : Bytes) (h : protoPack m.pack = some b) :
    (fieldsDec b).bind PEphKey.unpack = some m := PEphKey.lawful.round_trip m b h

theorem C17_node_round_trip (m : PNode) (b : Bytes) (h : protoPack m.pack = some b) :
    (fieldsDec b).bind PNode.unpack = some m := PNode.lawful.round_trip m b h

theorem C17_key_exchange_round_trip (m : PExchange) (b : Bytes) (h : protoPack m.pack = some b) :
    (fieldsDec b).bind PExchange.unpack = some m := PExchange.lawful.round_trip m b h

theorem C17_key_exchange_set_round_trip (m : PExchangeSet) (b : Bytes) (h : protoPack m.pack = some b) :
    (fieldsDec b).bind PExchangeSet.unpack = some m := PExchangeSet.lawful.round_trip m b h

theorem C17_packet_body_round_trip (m : PPacket) (b : Bytes) (h : protoPack m.pack = some b) :
    (fieldsDec b).bind PPacket.unpack = some m := PPacket.lawful.round_trip m b h

theorem C17_payload_round_trip (m : PPayload) (b : Bytes) (h : protoPack m.pack = some b) :
    (fieldsDec b).bind PPayload.unpack = some m := PPayload.lawful.round_trip m b h

theorem C17_root_keys_round_trip (m : PRootKeys) (b : Bytes) (h : protoPack m.pack = some b) :
    (fieldsDec b).bind PRootKeys.unpack = some m := PRootKeys.lawful.round_trip m b h

theorem C17_storage_keys_round_trip (m : PStorageKeys) (b : Bytes) (h : protoPack m.pack = some b) :
    (fieldsDec b).bind PStorageKeys.unpack = some m := PStorageKeys.lawful.round_trip m b h

theorem C17_context_round_trip (m : PCtx) (b : Bytes) (h : protoPack m.pack = some b) :
    (fieldsDec b).bind PCtx.unpack = some m := PCtx.lawful.round_trip m b h

theorem C17_handshake_round_trip (m : PHandshake) (b : Bytes) (h : protoPack m.pack = some b) :
    (fieldsDec b).bind PHandshake.unpack = some m := PHandshake.lawful.round_trip m b h

theorem C17_handshake_response_data_round_trip (m : PResponseData) (b : Bytes) (h : protoPack m.pack = some b) :
    (fieldsDec b).bind PResponseData.unpack = some m := PResponseData.lawful.round_trip m b h

theorem C17_transport_root_key_round_trip (m : PTransportRootKey) (b : Bytes) (h : protoPack m.pack = some b) :
    (fieldsDec b).bind PTransportRootKey.unpack = some m := PTransportRootKey.lawful.round_trip m b h

theorem C17_stream_key_round_trip (m : PStreamKey) (b : Bytes) (h : protoPack m.pack = some b) :
    (fieldsDec b).bind PStreamKey.unpack = some m := PStreamKey.lawful.round_trip m b h

/-! Known encodings (protobuf's own examples of the wire format) and non-vacuity. -/

example : protoPack (PPacket.pack ⟨[0xAA], [0xBB, 0xCC]⟩)
    = some [0x0A, 0x01, 0xAA, 0x12, 0x02, 0xBB, 0xCC] := by decide
example : protoPack (PEphKey.pack ⟨some 300, some [1], none⟩)
    = some [0x08, 0xAC, 0x02, 0x12, 0x01, 0x01] := by decide
example : protoPack (PHandshake.pack (.seed ⟨some ⟨some ⟨some [9], some [8], none, some 0, some false⟩,
      none⟩, some [5], some true⟩))
    = some [0x12, 0x13, 0x12, 0x0C, 0x0A, 0x0A, 0x0A, 0x01, 9, 0x12, 0x01, 8, 0x20, 0, 0x28, 0,
        0x1A, 0x01, 5, 0x20, 0x01] := by decide
example : protoPack (PExchangeSet.pack ⟨[1], [⟨[2], 3, [4]⟩, ⟨[5], 6, [7]⟩]⟩)
    = some [0x0A, 1, 1, 0x12, 8, 0x0A, 1, 2, 0x10, 3, 0x1A, 1, 4, 0x12, 8, 0x0A, 1, 5, 0x10, 6,
        0x1A, 1, 7] := by decide

end Wickr
