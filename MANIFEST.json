{
 "claims": [
  {
   "property": "C01",
   "status": "proved",
   "theorems": [
    "Wickr.C01_copy_section",
    "Wickr.C01_copy_section_null"
   ],
   "note": ""
  },
  {
   "property": "C02",
   "status": "proved",
   "theorems": [
    "Wickr.C02_modify_section"
   ],
   "note": ""
  },
  {
   "property": "C03",
   "status": "proved",
   "theorems": [
    "Wickr.C03_concat",
    "Wickr.C03_concat_null",
    "Wickr.C03_concat_multi"
   ],
   "note": ""
  },
  {
   "property": "C04",
   "status": "proved",
   "theorems": [
    "Wickr.C04_is_equal"
   ],
   "note": ""
  },
  {
   "property": "C05",
   "status": "proved",
   "theorems": [
    "Wickr.Arr.C05_array_refines_list"
   ],
   "note": ""
  },
  {
   "property": "C06",
   "status": "proved",
   "theorems": [
    "Wickr.C06_base64_round_trip",
    "Wickr.C06_base64_encode_null"
   ],
   "note": ""
  },
  {
   "property": "C07",
   "status": "partial",
   "theorems": [
    "Wickr.C07_base64_decode_safe_partial",
    "Wickr.C07_base64_decode_unterminated_is_ub",
    "Wickr.C07_base64_decode_high_char_is_ub",
    "Wickr.C07_base64_decode_short_view_is_ub"
   ],
   "note": "The property is false of the code; three witnesses are proved (no terminator, characters above 127, two-byte view) and the remaining cases are proved safe."
  },
  {
   "property": "C08",
   "status": "proved",
   "theorems": [
    "Wickr.C08_hex_round_trip",
    "Wickr.C08_hex_decode_digits",
    "Wickr.C08_hex_decode_not_strict",
    "Wickr.C08_hex_decode_ignores_length"
   ],
   "note": "Round trip and decoding of well-formed text proved; that malformed text is accepted is proved as a negative witness."
  },
  {
   "property": "C09",
   "status": "proved",
   "theorems": [
    "Wickr.C09_base32_round_trip",
    "Wickr.C09_base32_decode_total",
    "Wickr.C09_alphabet",
    "Wickr.C09_base32_decode_not_injective"
   ],
   "note": ""
  },
  {
   "property": "C10",
   "status": "proved",
   "theorems": [
    "Wickr.C10_cipher_result_round_trip",
    "Wickr.C10_cipher_result_too_large",
    "Wickr.C10_cipher_result_accepts_iff",
    "Wickr.C10_cipher_result_reserialize"
   ],
   "note": ""
  },
  {
   "property": "C11",
   "status": "proved",
   "theorems": [
    "Wickr.C11_cipher_key_round_trip",
    "Wickr.C11_cipher_key_accepts",
    "Wickr.C11_cipher_key_rejects"
   ],
   "note": ""
  },
  {
   "property": "C12",
   "status": "proved",
   "theorems": [
    "Wickr.C12_kdf_meta_round_trip",
    "Wickr.C12_kdf_meta_accepts",
    "Wickr.C12_hkdf_not_parseable",
    "Wickr.C12_expand_size",
    "Wickr.C12_expand_truncated",
    "Wickr.C12_expand_multiple_fails",
    "Wickr.C12_expand_refused",
    "Wickr.C12_expand_kept"
   ],
   "note": ""
  },
  {
   "property": "C13",
   "status": "proved",
   "theorems": [
    "Wickr.C13_ecdsa_round_trip",
    "Wickr.C13_ecdsa_accepts_iff",
    "Wickr.C13_padding_malleable"
   ],
   "note": ""
  },
  {
   "property": "C14",
   "status": "proved",
   "theorems": [
    "Wickr.C14_packet_round_trip",
    "Wickr.C14_packet_accepts_iff",
    "Wickr.C14_packet_reserialize",
    "Wickr.C14_packet_copy"
   ],
   "note": ""
  },
  {
   "property": "C15",
   "status": "proved",
   "theorems": [
    "Wickr.C15_message_is_no_packet",
    "Wickr.C15_verify_iff",
    "Wickr.C15_verify_sound",
    "Wickr.C15_sign_verify",
    "Wickr.C15_resigned_packet_fails"
   ],
   "note": "Exact condition for every byte string, plus sign/serialize/parse/verify. Re-signing a signed packet breaks it (negative witness). Signatures of messages are not mistaken for signatures of packets; the converse is not claimed, since the signed bytes of a packet may parse as fields that are skipped."
  },
  {
   "property": "C16",
   "status": "proved",
   "theorems": [
    "Wickr.C16_accepts_iff",
    "Wickr.C16_round_trip",
    "Wickr.C16_accepted_is_wellformed",
    "Wickr.C16_reserialize",
    "Wickr.C16_copy"
   ],
   "note": "Exact acceptance condition for every byte string, round trip, and re-serialization up to the padding and the upper half of the second byte."
  },
  {
   "property": "C17",
   "status": "proved",
   "theorems": [
    "Wickr.C17_wire_round_trip",
    "Wickr.C17_pack_iff",
    "Wickr.C17_unknown_fields_ignored",
    "Wickr.C17_last_value_wins",
    "Wickr.C17_identity_round_trip",
    "Wickr.C17_identity_chain_round_trip",
    "Wickr.C17_ephemeral_keypair_round_trip",
    "Wickr.C17_node_round_trip",
    "Wickr.C17_key_exchange_round_trip",
    "Wickr.C17_key_exchange_set_round_trip",
    "Wickr.C17_packet_body_round_trip",
    "Wickr.C17_payload_round_trip",
    "Wickr.C17_root_keys_round_trip",
    "Wickr.C17_storage_keys_round_trip",
    "Wickr.C17_context_round_trip",
    "Wickr.C17_handshake_round_trip",
    "Wickr.C17_handshake_response_data_round_trip",
    "Wickr.C17_transport_root_key_round_trip",
    "Wickr.C17_stream_key_round_trip"
   ],
   "note": ""
  },
  {
   "property": "C18",
   "status": "proved",
   "theorems": [
    "Wickr.C18_sequence_strictly_increasing",
    "Wickr.C18_no_replay"
   ],
   "note": "For every engine, state and history, with no assumption."
  },
  {
   "property": "C19",
   "status": "proved",
   "theorems": [
    "Wickr.C19_key_depends_only_on_sequence",
    "Wickr.C19_lost_packets_do_not_matter"
   ],
   "note": ""
  },
  {
   "property": "C20",
   "status": "proved",
   "theorems": [
    "Wickr.C20_delivery_is_sublist"
   ],
   "note": "Unforgeability is assumed only for the packets of the schedule (plaintext integrity). The header is any injective function of the sequence number; the transport header is one (C14)."
  },
  {
   "property": "C21",
   "status": "proved",
   "theorems": [
    "Wickr.C21_iv_counters_increase",
    "Wickr.C21_ivs_distinct"
   ],
   "note": "Counters strictly increase and stay below the last sequence number, so they never wrap for histories of any length; distinctness of IVs needs collision-freeness on those counters."
  },
  {
   "property": "C22",
   "status": "partial",
   "theorems": [
    "Wickr.C22_copy_reuses_key_and_iv",
    "Wickr.C22_copy_leaks_plaintext_difference",
    "Wickr.C22_handover_partial"
   ],
   "note": "False of the code: copy and original reuse key and IV (general theorem and concrete leak). Proved: no reuse when only one of the two is used after copying."
  },
  {
   "property": "C23",
   "status": "partial",
   "theorems": [
    "Wickr.C23_forged_packet_blocks_genuine",
    "Wickr.C23_concrete",
    "Wickr.C23_later_packets_partial"
   ],
   "note": "False of the code: a forged packet with a large number makes the decoder refuse all genuine packets up to it (general theorem and concrete case). Proved: packets with larger numbers are unaffected, and old numbers change nothing."
  },
  {
   "property": "C24",
   "status": "proved",
   "theorems": [
    "Wickr.C24_sequence_numbers_increase",
    "Wickr.C24_exhausted_refuses",
    "Wickr.C24_copy_repeats_key_and_iv"
   ],
   "note": "Every history of calls on one context, with arbitrary callbacks; the number is read from the bytes on the wire. Also proved: across copies it fails badly, a context and its copy encrypt different data under the same sequence number, key and IV."
  },
  {
   "property": "C25",
   "status": "proved",
   "theorems": [
    "Wickr.C25_failed_is_final",
    "Wickr.C25_complete_is_final",
    "Wickr.C25_keys_at_most_once"
   ],
   "note": "For every engine, state and history, with no assumption; histories whose behaviour is undefined (C58) are excluded only in the at-most-once part."
  },
  {
   "property": "C26",
   "status": "proved",
   "theorems": [
    "Wickr.C26_keys_need_authentication",
    "Wickr.C26_ready_needs_authentication"
   ],
   "note": "For every history of calls with arbitrary packets that stays defined (see C58); authentic means signed by the node of a chain whose root vouches for it. A preconfigured chain must not carry a lying validation cache (C42 shows API-made chains do not)."
  },
  {
   "property": "C27",
   "status": "proved",
   "theorems": [
    "Wickr.C27_pinned_identity"
   ],
   "note": "Same hypotheses as C26."
  },
  {
   "property": "C28",
   "status": "proved",
   "theorems": [
    "Wickr.C28_info_determines_view",
    "Wickr.C28_agreement",
    "Wickr.C28_honest_handshake",
    "Wickr.C28_key_schedule",
    "Wickr.C28_large_evolution_count_fails",
    "Wickr.C28_key_names_session",
    "Wickr.C28_same_keys_same_transcript",
    "Wickr.C28_directions_differ",
    "Wickr.C28_first_packet_replayed"
   ],
   "note": "All four combinations of preconfigured and asked-for identities, for evolution counts up to the documented maximum 32768; above it the honest handshake yields nothing (proved). Agreement on identities and ephemeral keys is proved for any engine under assumptions about exactly the values that occur (digest, HKDF, opening with another key); ephemeral keys are agreed on if their lengths are the same on both sides. Nothing is agreed on before the response: a recorded first packet makes any responder hand out keys (proved)."
  },
  {
   "property": "C29",
   "status": "proved",
   "theorems": [
    "Wickr.C29_data_only_through_channel",
    "Wickr.C29_data_only_when_active"
   ],
   "note": "Every history with arbitrary packets that stays defined (see C58), for every lawful engine. Calls made from inside callbacks are modelled for identity decisions and for sends inside on_state(ACTIVE)."
  },
  {
   "property": "C30",
   "status": "proved",
   "theorems": [
    "Wickr.C30_state_callback_exact"
   ],
   "note": "Every history that stays defined (see C58), for every engine."
  },
  {
   "property": "C31",
   "status": "partial",
   "theorems": [
    "Wickr.C31_error_not_final",
    "Wickr.C31_error_final_partial",
    "Wickr.C31_error_final_after_active_partial",
    "Wickr.C31_error_final_pinned_partial"
   ],
   "note": "False of the code: an identity decision that arrives after the error makes the context ACTIVE (C31_error_not_final). Proved: ERROR is final and silent unless such a decision is outstanding and accepted; without hypotheses for contexts that had been ACTIVE and for contexts with a remote identity."
  },
  {
   "property": "C32",
   "status": "partial",
   "theorems": [
    "Wickr.C32_silent_failure",
    "Wickr.C32_failed_handshake_reported_partial",
    "Wickr.C32_dropped_handshake_partial"
   ],
   "note": "False of the code: a correctly signed response whose root key names the CTR cipher makes the handshake disappear silently (C32_silent_failure). Proved: a failed pending handshake is always reported, and a handshake that ends leads to ACTIVE or ERROR in all other cases; copies drop the pending handshake."
  },
  {
   "property": "C33",
   "status": "proved",
   "theorems": [
    "Wickr.C33_active_has_both_streams"
   ],
   "note": "Every history that stays defined (see C58), for every engine; no assumption."
  },
  {
   "property": "C34",
   "status": "proved",
   "theorems": [
    "Wickr.C34_delivered_or_dead",
    "Wickr.C34_garbage_is_fatal",
    "Wickr.C34_first_packet_replayed",
    "Wickr.C34_contexts_connect",
    "Wickr.C34_traffic_is_lossy_queue",
    "Wickr.C34_end_to_end",
    "Wickr.C34_reordering_is_fatal",
    "Wickr.C34_data_inside_active_callback"
   ],
   "note": "For messages of at least one byte (and 38 below the buffer limit), fewer than 2^64 per direction. Limits of the claim are theorems too: a reordered genuine packet is fatal, and data sent inside the ACTIVE callback by the responder breaks the initiator. Every buffer that reaches an ACTIVE context is delivered or ends the channel for ever, so one injected buffer that is not a packet suffices (proved). A responder becomes ACTIVE on a replayed first packet."
  },
  {
   "property": "C35",
   "status": "partial",
   "theorems": [
    "Wickr.C35_every_recipient_reads_partial",
    "Wickr.C35_distinct_recipients_all_read",
    "Wickr.C35_duplicate_identifier_cannot_read"
   ],
   "note": "Proved for every lawful engine, version 2..4, payload, and recipient list: every recipient whose node identifier's first occurrence in the list is its own entry reads the payload, so all read it when identifiers are distinct. False for recipients sharing a node identifier (witness)."
  },
  {
   "property": "C36",
   "status": "proved",
   "theorems": [
    "Wickr.C36_not_found_means_nothing",
    "Wickr.C36_others_are_told_so"
   ],
   "note": "For honestly created packets, any context whose node identifier is not among the recipients' gets node-not-found; and a node-not-found result carries nothing and cannot be decoded."
  },
  {
   "property": "C37",
   "status": "proved",
   "theorems": [
    "Wickr.C37_success_requires_signature",
    "Wickr.C37_bad_signature",
    "Wickr.C37_no_sender",
    "Wickr.C37_parse_total",
    "Wickr.C37_all_or_nothing",
    "Wickr.C37_error_tells_status",
    "Wickr.C37_decode_requires_signature",
    "Wickr.C37_decode_all_or_nothing",
    "Wickr.C37_decode_defined",
    "Wickr.C37_sender_chain_not_validated",
    "Wickr.C37_parse_result_copy",
    "Wickr.C37_decode_result_copy",
    "Wickr.C37_decode_copy_drops"
   ],
   "note": "For every engine, packet, node id, key function and sender, with no assumption."
  },
  {
   "property": "C38",
   "status": "proved",
   "theorems": [
    "Wickr.C38_only_verified_recipients",
    "Wickr.C38_recipients_genuine",
    "Wickr.C38_refused",
    "Wickr.C38_one_exchange_per_recipient",
    "Wickr.C38_recipients_are_listed"
   ],
   "note": "For every engine and recipient list. That verification implies genuine signatures is proved for nodes without cached status (C42/C43 treat caches)."
  },
  {
   "property": "C39",
   "status": "partial",
   "theorems": [
    "Wickr.C39_content_authenticated_partial",
    "Wickr.C39_padding_not_covered",
    "Wickr.C39_version_not_covered",
    "Wickr.C39_false"
   ],
   "note": "The property is false of the code: the version nibble, the rest of the second byte and padding bytes are not covered by the signature (proved, witness). The content is covered (proved, unforgeability assumed only for the received string)."
  },
  {
   "property": "C40",
   "status": "partial",
   "theorems": [
    "Wickr.C40_find_first",
    "Wickr.C40_find_ok_iff",
    "Wickr.C40_find_null_iff",
    "Wickr.C40_unset_slot_undefined_iff",
    "Wickr.C40_unset_slot_undefined_witness",
    "Wickr.C40_set_round_trip",
    "Wickr.C40_serialized_is_read_back",
    "Wickr.C40_degenerate_sets",
    "Wickr.C40_accepted_sets",
    "Wickr.C40_set_copy",
    "Wickr.C40_encrypted_round_trip"
   ],
   "note": "Lookup, round trips, copies and accepted sets proved for every set without unset slots; for a set built from an array with an unset slot the lookup is undefined (exact condition and witness proved)."
  },
  {
   "property": "C41",
   "status": "proved",
   "theorems": [
    "Wickr.C41_payload_round_trip",
    "Wickr.C41_serialized_is_read_back",
    "Wickr.C41_empty_parts_are_lost",
    "Wickr.C41_accepted_is_complete",
    "Wickr.C41_copy",
    "Wickr.C41_encrypted_round_trip",
    "Wickr.C41_unauthenticated_refused"
   ],
   "note": "Round trips plain and encrypted; a payload with an empty channel tag or body is written but never read back (proved)."
  },
  {
   "property": "C42",
   "status": "proved",
   "theorems": [
    "Wickr.C42_chain_cache_transparent",
    "Wickr.C42_cache_notices_replacement",
    "Wickr.C42_digest_mode_not_cached",
    "Wickr.C42_names_not_certified",
    "Wickr.C42_roles_not_certified",
    "Wickr.C42_message_key_as_device"
   ],
   "note": "Under collision-freeness of SHA-512 on the byte strings hashed in the history. Also proved with identity replacement; the digest mode of the signature is not covered by the cache (negative witness). Names, types and roles are not certified: a message key passes for a device of its device."
  },
  {
   "property": "C43",
   "status": "partial",
   "theorems": [
    "Wickr.C43_node_cache_transparent_partial",
    "Wickr.C43_chain_replacement_not_noticed",
    "Wickr.C43_invalid_chain_not_noticed"
   ],
   "note": "Proved for every history of API calls (verify, rotate, copy, chain validation). Replacing the id_chain field is not noticed: two negative witnesses are proved."
  },
  {
   "property": "C44",
   "status": "proved",
   "theorems": [
    "Wickr.C44_identity_public_only",
    "Wickr.C44_chain_public_only",
    "Wickr.C44_ephemeral_public_only",
    "Wickr.C44_node_public_only",
    "Wickr.C44_identity_round_trip",
    "Wickr.C44_chain_round_trip",
    "Wickr.C44_chain_private_round_trip",
    "Wickr.C44_ephemeral_round_trip",
    "Wickr.C44_node_round_trip",
    "Wickr.C44_generated_node_wf"
   ],
   "note": ""
  },
  {
   "property": "C45",
   "status": "proved",
   "theorems": [
    "Wickr.C45_bilateral_symmetric",
    "Wickr.C45_fingerprint_value",
    "Wickr.C45_bilateral_value",
    "Wickr.C45_no_bilateral_with_itself",
    "Wickr.C45_fingerprint_binds",
    "Wickr.C45_bilateral_binds",
    "Wickr.C45_hex_forms",
    "Wickr.C45_b32_forms",
    "Wickr.C45_sha512_text_lengths",
    "Wickr.C45_text_injective",
    "Wickr.C45_short_form_undefined",
    "Wickr.C45_copy"
   ],
   "note": "Symmetry holds for every engine without hypotheses; prefix law for both texts; value and binding under lawful engine and absence of a collision on the two inputs. Also recorded: the short form is undefined when the text cannot be made."
  },
  {
   "property": "C46",
   "status": "proved",
   "theorems": [
    "Wickr.C46_ends_agree",
    "Wickr.C46_other_cipher_refused",
    "Wickr.C46_only_hkdf",
    "Wickr.C46_key_size",
    "Wickr.C46_copy"
   ],
   "note": "For HKDF with each digest and both ciphers; other KDFs and other cipher ids are refused for every engine."
  },
  {
   "property": "C47",
   "status": "proved",
   "theorems": [
    "Wickr.C47_round_trip",
    "Wickr.C47_refuses_weak",
    "Wickr.C47_accepts_only",
    "Wickr.C47_short_refused",
    "Wickr.C47_bcrypt_refused"
   ],
   "note": "Round trip for every lawful engine and scrypt setting, exact layout, exact acceptance. That a string naming bcrypt is refused assumes bcrypt hashes do not have 32 bytes."
  },
  {
   "property": "C48",
   "status": "partial",
   "theorems": [
    "Wickr.C48_storage_keys_round_trip",
    "Wickr.C48_storage_keys_accepts",
    "Wickr.C48_root_keys_round_trip",
    "Wickr.C48_recovery_round_trip",
    "Wickr.C48_recovery_key_round_trip",
    "Wickr.C48_public_only_root_undefined",
    "Wickr.C48_context_round_trip_partial",
    "Wickr.C48_context_export_import",
    "Wickr.C48_version_not_kept"
   ],
   "note": "Proved for storage keys, root keys (clear and encrypted), recovery keys and contexts (clear and exported), except the packet version of a context, which is not stored (proved). Public-only root keys: serialization is undefined (proved)."
  },
  {
   "property": "C49",
   "status": "proved",
   "theorems": [
    "Wickr.C49_localize_value",
    "Wickr.C49_remote_same_everywhere",
    "Wickr.C49_local_depends_on_salt_only",
    "Wickr.C49_local_key_device_bound",
    "Wickr.C49_devinfo_value"
   ],
   "note": "Value of both keys for every lawful engine; that two devices get different local keys assumes only that the two salted digests differ."
  },
  {
   "property": "C50",
   "status": "proved",
   "theorems": [
    "Wickr.C50_decrypt_any_allocator",
    "Wickr.C50_encrypt_any_allocator",
    "Wickr.C50_encrypt_without_tag",
    "Wickr.C50_file_image",
    "Wickr.C50_encrypts",
    "Wickr.C50_decrypt_sound",
    "Wickr.C50_decrypt_complete",
    "Wickr.C50_round_trip",
    "Wickr.C50_same_as_one_shot"
   ],
   "note": "Chunked encryption, decryption and header rewriting, for every content, every outcome of the writes; incremental EVP calls are assumed to act like the one-shot primitives (Evp.Lawful), with GCM's limit of 2^36-32 bytes; equal to the serialised one-shot encryption for contents that fit a buffer. C50_decrypt_any_allocator and C50_encrypt_any_allocator are about the functions in memory, whatever the allocator does; C50_encrypt_without_tag shows that encryption may answer true and leave a GCM file that cannot be opened if the header cannot be serialized again."
  },
  {
   "property": "C51",
   "status": "partial",
   "theorems": [
    "Wickr.C51_decrypt_any_allocator",
    "Wickr.C51_encrypt_any_allocator",
    "Wickr.C51_temporary_left",
    "Wickr.C51_encrypt_atomic_partial",
    "Wickr.C51_decrypt_atomic_partial",
    "Wickr.C51_unauthentic_never_installed",
    "Wickr.C51_encrypt_succeeds",
    "Wickr.C51_lost_flush"
   ],
   "note": "Holds in every intermediate state if closing the temporary file loses nothing and the source is not destination.temp; unauthentic input never reaches the destination in any environment. False when the buffered data cannot be written by fclose, whose result is ignored (C51_lost_flush). Power loss with unsynced data is not modelled beyond that. C51_decrypt_any_allocator and C51_encrypt_any_allocator are about the functions in memory and any file system; C51_temporary_left shows that the temporary file stays behind if the structure of the operation cannot be allocated."
  },
  {
   "property": "C52",
   "status": "proved",
   "theorems": [
    "Wickr.C52_decrypt_requires",
    "Wickr.C52_decrypt_refuses",
    "Wickr.C52_encrypt_requires",
    "Wickr.C52_no_ub",
    "Wickr.C52_short_iv_is_undefined"
   ],
   "note": ""
  },
  {
   "property": "C53",
   "status": "proved",
   "theorems": [
    "Wickr.C53_in_memory",
    "Wickr.C53_released_exactly_once",
    "Wickr.C53_defined_until_release",
    "Wickr.C53_ref_up_counts"
   ],
   "note": ""
  },
  {
   "property": "C54",
   "status": "partial",
   "theorems": [
    "Wickr.C54_exact_work_partial",
    "Wickr.C54_work_unbounded"
   ],
   "note": "False of the code: with one packet per evolution no bound below 2^64-1 holds (proved). Proved: the exact number of HMAC computations before authentication."
  },
  {
   "property": "C55",
   "status": "proved",
   "theorems": [
    "Wickr.C55_hmac_verify_exact"
   ],
   "note": ""
  },
  {
   "property": "C56",
   "status": "proved",
   "theorems": [
    "Wickr.C56_default_engine_lawful",
    "Wickr.C56_generated_keys_import",
    "Wickr.C56_public_import_iff",
    "Wickr.C56_import_refuses"
   ],
   "note": ""
  },
  {
   "property": "C57",
   "status": "proved",
   "theorems": [
    "Wickr.C57_stream_key_round_trip",
    "Wickr.C57_read_keys_are_checked",
    "Wickr.C57_copy_exact"
   ],
   "note": ""
  },
  {
   "property": "C58",
   "status": "partial",
   "theorems": [
    "Wickr.C58_undefined_iff_partial",
    "Wickr.C58_wrong_kind_undefined",
    "Wickr.C58_reflection",
    "Wickr.C58_context_undefined_iff_partial",
    "Wickr.C58_context_reflection"
   ],
   "note": "False of the code: the union payload is read without looking at its tag. Proved: the exact states and messages for which processing is undefined (so all others are defined), concrete unsigned packets, and that reflecting the initiator's own packet is always such a case. The same for transport contexts with any history."
  },
  {
   "property": "C59",
   "status": "proved",
   "theorems": [
    "Wickr.C59_active_peer_authenticated",
    "Wickr.C59_traffic_peer_authenticated",
    "Wickr.C59_pinned_context_never_asks"
   ],
   "note": "Every history that stays defined (see C58). Assumes engine outputs of sane size (proved for the default engine) and that a configured identity does not come with a false cached validation status (see C43). A configured identity that cannot be copied counts as not configured, as in the code."
  },
  {
   "property": "C60",
   "status": "partial",
   "theorems": [
    "Wickr.C60_stale_decision",
    "Wickr.C60_single_question_partial"
   ],
   "note": "False of the code: start() on a context waiting for a decision replaces the handshake, and the delayed decision is applied to the new one (C60_stale_decision). Proved: if start() is not called after packets were fed in, there is at most one question in the life of a context."
  },
  {
   "property": "C61",
   "status": "partial",
   "theorems": [
    "Wickr.C61_encode_defined_partial",
    "Wickr.C61_large_payload_undefined"
   ],
   "note": "False for payloads whose serialization leaves less than 29 bytes of the largest buffer (NULL dereference, protocol.c:276; proved for every lawful engine). Proved defined for all others."
  },
  {
   "property": "C62",
   "status": "partial",
   "theorems": [
    "Wickr.C62_terminated_partial",
    "Wickr.C62_long_b32_not_terminated"
   ],
   "note": "False for the long base32 text, whose object has no room for a terminator (proved for every fingerprint). Proved for hex texts and the short base32 text."
  },
  {
   "property": "C63",
   "status": "partial",
   "theorems": [
    "Wickr.C63_bcrypt_stops_at_nul",
    "Wickr.C63_scrypt_whole_passphrase_partial",
    "Wickr.C63_bcrypt_text"
   ],
   "note": "False for bcrypt: everything after the first NUL is ignored (proved for every primitive). scrypt: whole passphrase, documented parameters. bcrypt on texts: passphrases without NUL are passed on whole."
  },
  {
   "property": "C64",
   "status": "proved",
   "theorems": [
    "Wickr.C64_generation",
    "Wickr.C64_generated_chain_genuine",
    "Wickr.C64_refused"
   ],
   "note": "For every lawful engine; soundness (chain genuine) for every engine."
  },
  {
   "property": "C65",
   "status": "partial",
   "theorems": [
    "Wickr.C65_recovery_undefined",
    "Wickr.C65_recovery_defined_partial"
   ],
   "note": "False: NULL dereference at wickr_ctx.c:168 for identifiers that are empty or have 128 bytes or more and for devices without system salt (proved). Proved defined for all other inputs with the default engine over lawful primitives."
  },
  {
   "property": "C66",
   "status": "proved",
   "theorems": [
    "Wickr.C66_copy_defined",
    "Wickr.C66_copy_equal"
   ],
   "note": ""
  },
  {
   "property": "C67",
   "status": "proved",
   "theorems": [
    "Wickr.C67_recovery_restores"
   ],
   "note": "Remote storage key with an authenticated cipher, which is what the library generates."
  },
  {
   "property": "C68",
   "status": "partial",
   "theorems": [
    "Wickr.C68_read_error_unnoticed",
    "Wickr.C68_decrypt_read_error_partial"
   ],
   "note": "False for encryption (C68_read_error_unnoticed): a read error counts as the end of the file. Holds for authenticated decryption and for digests (C71)."
  },
  {
   "property": "C69",
   "status": "partial",
   "theorems": [
    "Wickr.C69_other_files_untouched_partial",
    "Wickr.C69_temp_destroyed",
    "Wickr.C69_source_destroyed"
   ],
   "note": "All other files keep their content in every state; a file named destination.temp is destroyed (C69_temp_destroyed), also when it is the source (C69_source_destroyed)."
  },
  {
   "property": "C70",
   "status": "partial",
   "theorems": [
    "Wickr.C70_forged_plaintext_written",
    "Wickr.C70_destination_authentic_partial"
   ],
   "note": "False for the FILE* function (C70_forged_plaintext_written); the path function only installs authentic plaintext."
  },
  {
   "property": "C71",
   "status": "proved",
   "theorems": [
    "Wickr.C71_file_digest"
   ],
   "note": "For every file size; a read error gives no digest."
  },
  {
   "property": "C72",
   "status": "proved",
   "theorems": [
    "Wickr.C72_version2_passed_off",
    "Wickr.C72_author_bound",
    "Wickr.C72_exchange_agreement",
    "Wickr.C72_version_agreed",
    "Wickr.C72_exchange_value",
    "Wickr.C72_derived_value",
    "Wickr.C72_psk_round_trip",
    "Wickr.C72_context_binds",
    "Wickr.C72_version2_context"
   ],
   "note": "Values of C72_exchange_value / C72_derived_value hold for every engine; the round trip for every lawful engine. Agreement of maker and reader (of the same data: packet keys are exchanged in counter mode, so a reader with other beliefs may get other data) is proved for any engine under assumptions about exactly the values that occur, for root keys of equal lengths; agreement on the version needs that no device identifier is as long as two root keys and a device identifier. Passing off version 2 messages is proved possible for every lawful engine, message and thief."
  },
  {
   "property": "C73",
   "status": "proved",
   "theorems": [
    "Wickr.C73_packet_value"
   ],
   "note": "Holds for every engine; the recipients are those given, in order."
  },
  {
   "property": "C74",
   "status": "proved",
   "theorems": [
    "Wickr.C74_header_key_value",
    "Wickr.C74_header_key_public"
   ],
   "note": "The value is stated over the default engine, publicity for every engine."
  },
  {
   "property": "C75",
   "status": "proved",
   "theorems": [
    "Wickr.C75_local_round_trip",
    "Wickr.C75_remote_round_trip",
    "Wickr.C75_only_authenticated"
   ],
   "note": "GCM storage keys, as generated and derived by the library."
  },
  {
   "property": "C76",
   "status": "proved",
   "theorems": [
    "Wickr.C76_ephemeral",
    "Wickr.C76_published_node",
    "Wickr.C76_published_chain",
    "Wickr.C76_generated_accounts_communicate"
   ],
   "note": "Composition of generation (C64), publication (C44) and delivery (C35) for two generated accounts."
  },
  {
   "property": "C77",
   "status": "partial",
   "theorems": [
    "Wickr.C77_to_raw_value_partial",
    "Wickr.C77_from_raw_value",
    "Wickr.C77_from_raw_length",
    "Wickr.C77_der_round_trip",
    "Wickr.C77_raw_round_trip",
    "Wickr.C77_from_raw_serializable",
    "Wickr.C77_builds_agree",
    "Wickr.C77_to_raw_never_refuses",
    "Wickr.C77_aws_refuses",
    "Wickr.C77_old_undefined_iff",
    "Wickr.C77_oversized_false",
    "Wickr.C77_injective_false",
    "Wickr.C77_raw_determines"
   ],
   "note": "Value, both round trips, refused lengths and serializability proved for numbers of up to 66 bytes; the unrestricted claim is refuted: an oversized number becomes zero (current OpenSSL build) or is written before the buffer (builds before 1.1.0), and the raw form drops signs and trailing bytes."
  },
  {
   "property": "C78",
   "status": "partial",
   "theorems": [
    "Wickr.C78_fp",
    "Wickr.C78_buf",
    "Wickr.C78_key",
    "Wickr.C78_sig",
    "Wickr.C78_id",
    "Wickr.C78_chain",
    "Wickr.C78_cKey",
    "Wickr.C78_cRes",
    "Wickr.C78_eph",
    "Wickr.C78_node",
    "Wickr.C78_nodes",
    "Wickr.C78_info",
    "Wickr.C78_payload",
    "Wickr.C78_ex",
    "Wickr.C78_exs",
    "Wickr.C78_set",
    "Wickr.C78_packet",
    "Wickr.C78_enc",
    "Wickr.C78_dec",
    "Wickr.C78_parse",
    "Wickr.C78_storage",
    "Wickr.C78_root",
    "Wickr.C78_dev",
    "Wickr.C78_kdfMeta",
    "Wickr.C78_kdfRes",
    "Wickr.C78_sKey",
    "Wickr.C78_sIv",
    "Wickr.C78_sCtx",
    "Wickr.C78_tRoot",
    "Wickr.C78_ecdh",
    "Wickr.C78_dev_refused"
   ],
   "note": "Proved for all 30 object types over an explicit heap and an arbitrary allocator. Missing: device information without a system salt is a legal object that can never be copied (proved)."
  },
  {
   "property": "C79",
   "status": "partial",
   "theorems": [
    "Wickr.C79_ctx_destroy",
    "Wickr.C79_gen_destroy",
    "Wickr.C79_ctx_copy",
    "Wickr.C79_gen_copy",
    "Wickr.C79_fp_destroy",
    "Wickr.C79_fp_copy",
    "Wickr.C79_buf_destroy",
    "Wickr.C79_bufZero_destroy",
    "Wickr.C79_key_destroy",
    "Wickr.C79_sig_destroy",
    "Wickr.C79_id_destroy",
    "Wickr.C79_chain_destroy",
    "Wickr.C79_cKey_destroy",
    "Wickr.C79_cRes_destroy",
    "Wickr.C79_eph_destroy",
    "Wickr.C79_node_destroy",
    "Wickr.C79_info_destroy",
    "Wickr.C79_payload_destroy",
    "Wickr.C79_ex_destroy",
    "Wickr.C79_exs_destroy",
    "Wickr.C79_set_destroy",
    "Wickr.C79_packet_destroy",
    "Wickr.C79_enc_destroy",
    "Wickr.C79_dec_destroy",
    "Wickr.C79_parse_destroy",
    "Wickr.C79_storage_destroy",
    "Wickr.C79_root_destroy",
    "Wickr.C79_dev_destroy",
    "Wickr.C79_kdfMeta_destroy",
    "Wickr.C79_kdfRes_destroy",
    "Wickr.C79_sKey_destroy",
    "Wickr.C79_sIv_destroy",
    "Wickr.C79_sCtx_destroy",
    "Wickr.C79_tRoot_destroy",
    "Wickr.C79_ecdh_destroy",
    "Wickr.C79_buf_copy",
    "Wickr.C79_key_copy",
    "Wickr.C79_sig_copy",
    "Wickr.C79_id_copy",
    "Wickr.C79_chain_copy",
    "Wickr.C79_cKey_copy",
    "Wickr.C79_cRes_copy",
    "Wickr.C79_eph_copy",
    "Wickr.C79_node_copy",
    "Wickr.C79_info_copy",
    "Wickr.C79_payload_copy",
    "Wickr.C79_ex_copy",
    "Wickr.C79_exs_copy",
    "Wickr.C79_set_copy",
    "Wickr.C79_packet_copy",
    "Wickr.C79_enc_copy",
    "Wickr.C79_dec_copy",
    "Wickr.C79_storage_copy",
    "Wickr.C79_root_copy",
    "Wickr.C79_dev_copy",
    "Wickr.C79_kdfMeta_copy",
    "Wickr.C79_kdfRes_copy",
    "Wickr.C79_sKey_copy",
    "Wickr.C79_sIv_copy",
    "Wickr.C79_sCtx_copy",
    "Wickr.C79_tRoot_copy",
    "Wickr.C79_ecdh_copy",
    "Wickr.C79_nodes_destroy",
    "Wickr.C79_nodes_leaks",
    "Wickr.C79_nodes_not_undone",
    "Wickr.C79_parse_copy_partial",
    "Wickr.C79_parse_not_undone",
    "Wickr.C79_ctx_packet_destroy"
   ],
   "note": "Proved for every type, including copies made while allocations fail. False for node arrays, whose nodes are never released (proved in general), and for parse results copied while an allocation fails (witness)."
  },
  {
   "property": "C80",
   "status": "partial",
   "theorems": [
    "Wickr.C80_fp",
    "Wickr.C80_buf",
    "Wickr.C80_key",
    "Wickr.C80_sig",
    "Wickr.C80_id",
    "Wickr.C80_chain",
    "Wickr.C80_cKey",
    "Wickr.C80_cRes_leaks",
    "Wickr.C80_eph",
    "Wickr.C80_node",
    "Wickr.C80_nodes",
    "Wickr.C80_info",
    "Wickr.C80_payload",
    "Wickr.C80_ex_leaks",
    "Wickr.C80_exs_leaks",
    "Wickr.C80_set_leaks",
    "Wickr.C80_packet",
    "Wickr.C80_enc",
    "Wickr.C80_dec_leaks",
    "Wickr.C80_storage",
    "Wickr.C80_root",
    "Wickr.C80_dev",
    "Wickr.C80_kdfMeta_leaks",
    "Wickr.C80_kdfRes_leaks",
    "Wickr.C80_sKey",
    "Wickr.C80_sIv",
    "Wickr.C80_sCtx",
    "Wickr.C80_tRoot",
    "Wickr.C80_ecdh",
    "Wickr.C80_parse_leaks"
   ],
   "note": "Proved for the types whose copy function cleans up; false for cipher results, key exchanges, exchange arrays and sets, decode and parse results and KDF objects: a witness for each."
  },
  {
   "property": "C81",
   "status": "partial",
   "theorems": [
    "Wickr.C81_fp",
    "Wickr.C81_exs_loses",
    "Wickr.C81_set_loses",
    "Wickr.C81_nodes_loses",
    "Wickr.C81_buf",
    "Wickr.C81_key",
    "Wickr.C81_sig",
    "Wickr.C81_id_partial",
    "Wickr.C81_id_loses",
    "Wickr.C81_chain_partial",
    "Wickr.C81_chain_loses",
    "Wickr.C81_cKey",
    "Wickr.C81_cRes_partial",
    "Wickr.C81_cRes_loses",
    "Wickr.C81_eph",
    "Wickr.C81_node_partial",
    "Wickr.C81_node_loses",
    "Wickr.C81_nodes_partial",
    "Wickr.C81_info",
    "Wickr.C81_payload",
    "Wickr.C81_ex_partial",
    "Wickr.C81_ex_loses",
    "Wickr.C81_exs_partial",
    "Wickr.C81_set_partial",
    "Wickr.C81_packet",
    "Wickr.C81_enc",
    "Wickr.C81_dec_partial",
    "Wickr.C81_dec_loses",
    "Wickr.C81_parse_partial",
    "Wickr.C81_parse_loses",
    "Wickr.C81_storage",
    "Wickr.C81_root",
    "Wickr.C81_dev",
    "Wickr.C81_kdfMeta",
    "Wickr.C81_kdfRes",
    "Wickr.C81_sKey",
    "Wickr.C81_sIv",
    "Wickr.C81_sCtx",
    "Wickr.C81_tRoot",
    "Wickr.C81_ecdh"
   ],
   "note": "Proved for most types; identities, chains, nodes, cipher results, key exchanges, arrays of nodes and of exchanges, exchange sets and parse and decode results may silently lose parts (a witness for each), and what may be missing is bounded exactly."
  },
  {
   "property": "C82",
   "status": "partial",
   "theorems": [
    "Wickr.C82_fp",
    "Wickr.C82_buf",
    "Wickr.C82_key_crashes",
    "Wickr.C82_sig_crashes",
    "Wickr.C82_id_crashes",
    "Wickr.C82_chain_crashes",
    "Wickr.C82_cKey_crashes",
    "Wickr.C82_cRes_crashes",
    "Wickr.C82_eph_crashes",
    "Wickr.C82_node_crashes",
    "Wickr.C82_nodes_crashes",
    "Wickr.C82_info_crashes",
    "Wickr.C82_payload_crashes",
    "Wickr.C82_ex_crashes",
    "Wickr.C82_exs_crashes",
    "Wickr.C82_set_crashes",
    "Wickr.C82_packet_crashes",
    "Wickr.C82_enc_crashes",
    "Wickr.C82_dec_crashes",
    "Wickr.C82_parse_crashes",
    "Wickr.C82_storage_crashes",
    "Wickr.C82_root_crashes",
    "Wickr.C82_dev",
    "Wickr.C82_kdfMeta",
    "Wickr.C82_kdfRes",
    "Wickr.C82_sKey_crashes",
    "Wickr.C82_sIv",
    "Wickr.C82_sCtx_crashes",
    "Wickr.C82_tRoot",
    "Wickr.C82_ecdh_crashes"
   ],
   "note": "Proved for the types whose constructor tests its allocation; false for every type that contains an EC key, signature, cipher key, cipher result, packet metadata or key exchange: a witness for each."
  },
  {
   "property": "C83",
   "status": "partial",
   "theorems": [
    "Wickr.C83_ctx_destroy",
    "Wickr.C83_gen_destroy",
    "Wickr.C83_buf_copy",
    "Wickr.C83_key_copy",
    "Wickr.C83_sig_copy",
    "Wickr.C83_id_copy",
    "Wickr.C83_chain_copy",
    "Wickr.C83_cKey_copy",
    "Wickr.C83_cRes_copy",
    "Wickr.C83_eph_copy",
    "Wickr.C83_node_copy",
    "Wickr.C83_nodes_copy",
    "Wickr.C83_info_copy",
    "Wickr.C83_payload_copy",
    "Wickr.C83_ex_copy",
    "Wickr.C83_exs_copy",
    "Wickr.C83_set_copy",
    "Wickr.C83_packet_copy",
    "Wickr.C83_enc_copy",
    "Wickr.C83_dec_copy",
    "Wickr.C83_parse_copy",
    "Wickr.C83_storage_copy",
    "Wickr.C83_root_copy",
    "Wickr.C83_dev_copy",
    "Wickr.C83_kdfMeta_copy_partial",
    "Wickr.C83_kdfMeta_copy_spills",
    "Wickr.C83_kdfRes_copy_partial",
    "Wickr.C83_kdfRes_copy_spills",
    "Wickr.C83_sKey_copy",
    "Wickr.C83_sIv_copy",
    "Wickr.C83_sCtx_copy",
    "Wickr.C83_tRoot_copy",
    "Wickr.C83_ecdh_copy",
    "Wickr.C83_buf_destroy",
    "Wickr.C83_bufZero_destroy",
    "Wickr.C83_key_destroy",
    "Wickr.C83_sig_destroy",
    "Wickr.C83_id_destroy",
    "Wickr.C83_chain_destroy",
    "Wickr.C83_cKey_destroy",
    "Wickr.C83_cRes_destroy",
    "Wickr.C83_eph_destroy",
    "Wickr.C83_node_destroy",
    "Wickr.C83_info_destroy",
    "Wickr.C83_payload_destroy",
    "Wickr.C83_ex_destroy",
    "Wickr.C83_exs_destroy",
    "Wickr.C83_set_destroy",
    "Wickr.C83_packet_destroy",
    "Wickr.C83_enc_destroy",
    "Wickr.C83_dec_destroy",
    "Wickr.C83_parse_destroy",
    "Wickr.C83_storage_destroy",
    "Wickr.C83_root_destroy",
    "Wickr.C83_dev_destroy",
    "Wickr.C83_kdfMeta_destroy",
    "Wickr.C83_kdfRes_destroy",
    "Wickr.C83_sKey_destroy",
    "Wickr.C83_sIv_destroy",
    "Wickr.C83_sCtx_destroy",
    "Wickr.C83_tRoot_destroy",
    "Wickr.C83_ecdh_destroy",
    "Wickr.C83_ctx_packet_destroy"
   ],
   "note": "Proved for every copy and destroy function; false for copies of KDF parameters and results, which release the salt unwiped: witnesses."
  },
  {
   "property": "C84",
   "status": "proved",
   "theorems": [
    "Wickr.C84_gen",
    "Wickr.C84_key",
    "Wickr.C84_sig",
    "Wickr.C84_id",
    "Wickr.C84_chain",
    "Wickr.C84_cKey",
    "Wickr.C84_cRes",
    "Wickr.C84_eph",
    "Wickr.C84_node",
    "Wickr.C84_info",
    "Wickr.C84_payload",
    "Wickr.C84_ex",
    "Wickr.C84_packet",
    "Wickr.C84_enc",
    "Wickr.C84_dec",
    "Wickr.C84_set",
    "Wickr.C84_parse",
    "Wickr.C84_storage",
    "Wickr.C84_root",
    "Wickr.C84_dev",
    "Wickr.C84_kdfMeta",
    "Wickr.C84_kdfRes",
    "Wickr.C84_sKey",
    "Wickr.C84_tRoot",
    "Wickr.C84_ecdh",
    "Wickr.C84_missing",
    "Wickr.C84_id_long",
    "Wickr.C84_cKey_size",
    "Wickr.C84_tRoot_size",
    "Wickr.C84_sKey_range"
   ],
   "note": "Every constructor, plus refusal of missing parts and of parts of the wrong size."
  },
  {
   "property": "C85",
   "status": "partial",
   "theorems": [
    "Wickr.C85_move",
    "Wickr.C85_copy",
    "Wickr.C85_wipes",
    "Wickr.C85_self_copy",
    "Wickr.C85_self_move",
    "Wickr.C85_make_public"
   ],
   "note": "Ownership, wiping and the effect of failure are proved. Passing the node's own key pair is a use after free (proved for every such node)."
  },
  {
   "property": "C86",
   "status": "partial",
   "theorems": [
    "Wickr.C86_random",
    "Wickr.C86_random_cipher_key",
    "Wickr.C86_random_key",
    "Wickr.C86_import",
    "Wickr.C86_digest",
    "Wickr.C86_sign",
    "Wickr.C86_encrypt",
    "Wickr.C86_decrypt",
    "Wickr.C86_secret",
    "Wickr.C86_hmac",
    "Wickr.C86_identity_sign",
    "Wickr.C86_node_identity",
    "Wickr.C86_ephemeral",
    "Wickr.C86_ctx_copy",
    "Wickr.C86_gen_copy",
    "Wickr.C86_ctx_gen_partial",
    "Wickr.C86_ctx_gen_new_partial",
    "Wickr.C86_ctx_gen_sig_partial",
    "Wickr.C86_import_recovery",
    "Wickr.C86_ctx_gen_recovery_partial",
    "Wickr.C86_import_recovery_key_partial",
    "Wickr.C86_ctx_gen_pass_partial",
    "Wickr.C86_export_recovery_key",
    "Wickr.C86_make_recovery_partial",
    "Wickr.C86_cipher_local",
    "Wickr.C86_cipher_remote",
    "Wickr.C86_decipher_local",
    "Wickr.C86_decipher_remote",
    "Wickr.C86_ctx_ephemeral",
    "Wickr.C86_ctx_copy_digest_failure",
    "Wickr.C86_ctx_gen_leaks",
    "Wickr.C86_ctx_gen_recovery_crashes",
    "Wickr.C86_sha2_file",
    "Wickr.C86_decrypt_file",
    "Wickr.C86_encrypt_file",
    "Wickr.C86_cipher_result_serialize",
    "Wickr.C86_cipher_result_parse",
    "Wickr.C86_cipher_key_serialize",
    "Wickr.C86_cipher_key_parse",
    "Wickr.C86_kdf_meta_parse",
    "Wickr.C86_kdf_meta_serialize",
    "Wickr.C86_kdf",
    "Wickr.C86_kdf_gen",
    "Wickr.C86_kdf_cipher",
    "Wickr.C86_kdf_decipher_partial",
    "Wickr.C86_ecdh_create",
    "Wickr.C86_ecdh_cipher",
    "Wickr.C86_ecdh_decipher",
    "Wickr.C86_root_generate",
    "Wickr.C86_root_localize",
    "Wickr.C86_root_serialize_partial",
    "Wickr.C86_root_export_partial",
    "Wickr.C86_root_parse",
    "Wickr.C86_dev_new",
    "Wickr.C86_root_serialize_no_private_key",
    "Wickr.C86_kdf_decipher_leaks",
    "Wickr.C86_kx_data",
    "Wickr.C86_kx_key",
    "Wickr.C86_kx_derive_data",
    "Wickr.C86_kx_derive_key",
    "Wickr.C86_parse",
    "Wickr.C86_decode",
    "Wickr.C86_read_partial",
    "Wickr.C86_ctx_parse_partial",
    "Wickr.C86_ctx_parse_no_decode_partial",
    "Wickr.C86_ctx_decode",
    "Wickr.C86_parse_misreports",
    "Wickr.C86_decode_misreports",
    "Wickr.C86_sig_parse",
    "Wickr.C86_sig_serialize",
    "Wickr.C86_payload_serialize",
    "Wickr.C86_payload_parse",
    "Wickr.C86_payload_encrypt",
    "Wickr.C86_payload_decrypt",
    "Wickr.C86_set_serialize",
    "Wickr.C86_set_encrypt",
    "Wickr.C86_set_parse",
    "Wickr.C86_set_decrypt",
    "Wickr.C86_set_find",
    "Wickr.C86_packet_make",
    "Wickr.C86_packet_parse_partial",
    "Wickr.C86_packet_serialize",
    "Wickr.C86_packet_parse_leaks",
    "Wickr.C86_sig_serialize_bare",
    "Wickr.C86_identity_serialize",
    "Wickr.C86_chain_serialize",
    "Wickr.C86_ephemeral_serialize",
    "Wickr.C86_node_serialize",
    "Wickr.C86_storage_serialize",
    "Wickr.C86_ctx_serialize",
    "Wickr.C86_ctx_export",
    "Wickr.C86_ctx_export_storage",
    "Wickr.C86_identity_parse",
    "Wickr.C86_chain_parse",
    "Wickr.C86_ephemeral_parse",
    "Wickr.C86_node_parse",
    "Wickr.C86_storage_parse",
    "Wickr.C86_ctx_from_buffer",
    "Wickr.C86_ctx_import_storage_partial",
    "Wickr.C86_ctx_import_partial",
    "Wickr.C86_identity_serialize_unpadded",
    "Wickr.C86_stream_key_rand",
    "Wickr.C86_stream_key_serialize",
    "Wickr.C86_stream_key_parse_partial",
    "Wickr.C86_transport_root_random",
    "Wickr.C86_transport_root_stream",
    "Wickr.C86_stream_key_parse_leaks",
    "Wickr.C86_hex",
    "Wickr.C86_unhex",
    "Wickr.C86_base64",
    "Wickr.C86_unbase64",
    "Wickr.C86_base32",
    "Wickr.C86_unbase32",
    "Wickr.C86_pub_fixed",
    "Wickr.C86_fp_gen",
    "Wickr.C86_fp_identity",
    "Wickr.C86_fp_bilateral",
    "Wickr.C86_fp_combine",
    "Wickr.C86_fp_b32",
    "Wickr.C86_fp_hex",
    "Wickr.C86_to_raw",
    "Wickr.C86_from_raw",
    "Wickr.C86_hmac_verify",
    "Wickr.C86_tpkt_serialize",
    "Wickr.C86_tpkt_copy",
    "Wickr.C86_tpkt_parse"
   ],
   "note": "Proved for the functions listed by the theorems. Refuted by witnesses: serializing root keys without a private key dereferences NULL; decrypting with a passphrase leaks the derived key when the cipher text cannot be read; making a context with root keys that are no pair leaks the chain; making one from recovery data dereferences NULL when no context can be made; copying one with an engine whose digests fail writes through NULL; reading a stream key with user data and 0 packets per evolution leaks the user data. Handshakes and transport contexts are the subject of C96-C99. Packets: C86_packet_parse_partial excludes packets whose signature names another digest or curve, whose signature is leaked (C86_packet_parse_leaks: any sender can cause it). A signature is written without its padding if there is no memory for the padding (C86_sig_serialize_bare). Parsing and decoding packets: the result is exact with memory; without it packets in order are reported as corrupt or undecodable (C86_parse_misreports, C86_decode_misreports), so C86_parse and C86_decode allow such results. C86_read_partial and C86_ctx_parse_partial exclude packets whose signature names another digest or curve. Identities, chains, ephemeral keys, nodes and contexts: without memory for its padding a signature is written without it (C86_identity_serialize_unpadded), so their writing is stated with ComputesAmong. C86_ctx_import_partial and C86_ctx_import_storage_partial exclude inputs from which a key can be derived but whose cipher text cannot be read (see C86_kdf_decipher_leaks)."
  },
  {
   "property": "C87",
   "status": "partial",
   "theorems": [
    "Wickr.C87_random",
    "Wickr.C87_random_cipher_key",
    "Wickr.C87_random_key",
    "Wickr.C87_import",
    "Wickr.C87_digest",
    "Wickr.C87_sign",
    "Wickr.C87_encrypt",
    "Wickr.C87_decrypt",
    "Wickr.C87_decrypt_sturdy",
    "Wickr.C87_secret",
    "Wickr.C87_secret_sturdy",
    "Wickr.C87_hmac",
    "Wickr.C87_hmac_sturdy",
    "Wickr.C87_identity_sign",
    "Wickr.C87_node_identity",
    "Wickr.C87_ephemeral",
    "Wickr.C87_digest_not_sturdy",
    "Wickr.C87_random_not_sturdy",
    "Wickr.C87_ctx_copy",
    "Wickr.C87_gen_copy",
    "Wickr.C87_import_recovery",
    "Wickr.C87_make_recovery_partial",
    "Wickr.C87_cipher_local",
    "Wickr.C87_cipher_remote",
    "Wickr.C87_decipher_local",
    "Wickr.C87_decipher_local_sturdy",
    "Wickr.C87_decipher_remote",
    "Wickr.C87_decipher_remote_sturdy",
    "Wickr.C87_ctx_ephemeral",
    "Wickr.C87_ctx_copy_crashes",
    "Wickr.C87_ctx_gen_leaks",
    "Wickr.C87_sha2_file",
    "Wickr.C87_decrypt_file",
    "Wickr.C87_decrypt_path",
    "Wickr.C87_decrypt_file_not_sturdy",
    "Wickr.C87_encrypt_file_not_sturdy",
    "Wickr.C87_encrypt_file_leaks",
    "Wickr.C87_cipher_result_serialize",
    "Wickr.C87_cipher_result_serialize_sturdy",
    "Wickr.C87_cipher_result_parse",
    "Wickr.C87_cipher_key_serialize",
    "Wickr.C87_cipher_key_serialize_sturdy",
    "Wickr.C87_cipher_key_parse",
    "Wickr.C87_kdf_meta_parse_sturdy",
    "Wickr.C87_kdf_meta_serialize",
    "Wickr.C87_kdf_meta_serialize_sturdy",
    "Wickr.C87_kdf_sturdy",
    "Wickr.C87_ecdh_create",
    "Wickr.C87_root_generate",
    "Wickr.C87_root_localize",
    "Wickr.C87_root_serialize_partial",
    "Wickr.C87_root_serialize_sturdy_partial",
    "Wickr.C87_root_export_partial",
    "Wickr.C87_root_parse",
    "Wickr.C87_dev_new",
    "Wickr.C87_kdf_meta_parse_leaks",
    "Wickr.C87_kx_data_leaks",
    "Wickr.C87_kx_data_not_sturdy",
    "Wickr.C87_parse_not_sturdy",
    "Wickr.C87_sig_parse",
    "Wickr.C87_sig_serialize",
    "Wickr.C87_sig_serialize_sturdy",
    "Wickr.C87_payload_serialize",
    "Wickr.C87_payload_serialize_sturdy",
    "Wickr.C87_payload_parse",
    "Wickr.C87_payload_encrypt",
    "Wickr.C87_payload_decrypt",
    "Wickr.C87_set_serialize",
    "Wickr.C87_set_serialize_sturdy",
    "Wickr.C87_set_encrypt",
    "Wickr.C87_set_parse",
    "Wickr.C87_set_decrypt",
    "Wickr.C87_packet_make",
    "Wickr.C87_packet_parse_partial",
    "Wickr.C87_packet_serialize_sturdy",
    "Wickr.C87_packet_serialize_leaks",
    "Wickr.C87_packet_make_not_sturdy",
    "Wickr.C87_payload_parse_not_sturdy",
    "Wickr.C87_set_parse_not_sturdy",
    "Wickr.C87_set_find_leaks",
    "Wickr.C87_identity_serialize",
    "Wickr.C87_identity_serialize_sturdy",
    "Wickr.C87_chain_serialize",
    "Wickr.C87_chain_serialize_sturdy",
    "Wickr.C87_ephemeral_serialize",
    "Wickr.C87_ephemeral_serialize_sturdy",
    "Wickr.C87_node_serialize_sturdy",
    "Wickr.C87_storage_serialize",
    "Wickr.C87_ctx_serialize",
    "Wickr.C87_identity_parse",
    "Wickr.C87_chain_parse",
    "Wickr.C87_ephemeral_parse",
    "Wickr.C87_node_parse",
    "Wickr.C87_storage_parse",
    "Wickr.C87_node_serialize_leaks",
    "Wickr.C87_storage_serialize_not_sturdy",
    "Wickr.C87_storage_serialize_key_not_sturdy",
    "Wickr.C87_ctx_serialize_not_sturdy",
    "Wickr.C87_chain_parse_not_sturdy",
    "Wickr.C87_stream_key_rand",
    "Wickr.C87_stream_key_serialize",
    "Wickr.C87_transport_root_random",
    "Wickr.C87_transport_root_stream_leaks",
    "Wickr.C87_hex",
    "Wickr.C87_unhex",
    "Wickr.C87_base64",
    "Wickr.C87_unbase64",
    "Wickr.C87_base32",
    "Wickr.C87_unbase32",
    "Wickr.C87_pub_fixed",
    "Wickr.C87_fp_gen",
    "Wickr.C87_fp_identity",
    "Wickr.C87_fp_bilateral",
    "Wickr.C87_fp_combine",
    "Wickr.C87_fp_b32",
    "Wickr.C87_fp_hex",
    "Wickr.C87_to_raw",
    "Wickr.C87_from_raw",
    "Wickr.C87_fp_short_not_sturdy",
    "Wickr.C87_fp_short_b32_not_sturdy",
    "Wickr.C87_from_raw_not_sturdy",
    "Wickr.C87_hmac_verify_leaks",
    "Wickr.C87_tpkt_serialize",
    "Wickr.C87_tpkt_serialize_sturdy",
    "Wickr.C87_tpkt_copy",
    "Wickr.C87_tpkt_copy_sturdy",
    "Wickr.C87_tpkt_parse",
    "Wickr.C87_tpkt_parse_sturdy"
   ],
   "note": "Proved for the functions listed by the theorems; NULL is dereferenced for lack of memory by digests, random values and copies of contexts; reading key derivation parameters and making contexts and deriving stream keys leak for lack of memory (witnesses). Refuted for lack of memory: writing a packet leaks (C87_packet_serialize_leaks), searching a set leaks (C87_set_find_leaks), making a packet and reading payloads or sets dereference NULL (C87_packet_make_not_sturdy, C87_payload_parse_not_sturdy, C87_set_parse_not_sturdy). Key exchanges and parsing: refuted for lack of memory (C87_kx_data_leaks, C87_kx_data_not_sturdy, C87_parse_not_sturdy). Writing a node leaks its chain for lack of memory (C87_node_serialize_leaks); writing storage keys or contexts and reading chains dereference NULL (C87_storage_serialize_not_sturdy, C87_ctx_serialize_not_sturdy, C87_chain_parse_not_sturdy). The short form of a fingerprint and raw signatures dereference NULL for lack of memory (C87_fp_short_not_sturdy, C87_fp_short_b32_not_sturdy, C87_from_raw_not_sturdy); verifying an HMAC against NULL loses the computed one even with memory (C87_hmac_verify_leaks). C87_encrypt_file_leaks, C87_encrypt_file_not_sturdy and C87_decrypt_file_not_sturdy show what the functions on files do not promise."
  },
  {
   "property": "C88",
   "status": "partial",
   "theorems": [
    "Wickr.C88_random",
    "Wickr.C88_random_cipher_key",
    "Wickr.C88_random_key",
    "Wickr.C88_import",
    "Wickr.C88_digest",
    "Wickr.C88_sign",
    "Wickr.C88_encrypt",
    "Wickr.C88_decrypt",
    "Wickr.C88_secret",
    "Wickr.C88_hmac",
    "Wickr.C88_identity_sign",
    "Wickr.C88_node_identity",
    "Wickr.C88_ephemeral",
    "Wickr.C88_ctx_copy",
    "Wickr.C88_gen_copy",
    "Wickr.C88_ctx_gen_partial",
    "Wickr.C88_ctx_gen_new_partial",
    "Wickr.C88_ctx_gen_sig_partial",
    "Wickr.C88_import_recovery_partial",
    "Wickr.C88_ctx_gen_recovery_partial",
    "Wickr.C88_make_recovery_partial",
    "Wickr.C88_cipher_local",
    "Wickr.C88_cipher_remote",
    "Wickr.C88_decipher_local",
    "Wickr.C88_decipher_remote",
    "Wickr.C88_ctx_ephemeral",
    "Wickr.C88_sha2_file",
    "Wickr.C88_decrypt_file",
    "Wickr.C88_encrypt_file",
    "Wickr.C88_decrypt_path",
    "Wickr.C88_encrypt_path",
    "Wickr.C88_decrypt_file_not_wiped",
    "Wickr.C88_cipher_result_serialize",
    "Wickr.C88_cipher_result_parse",
    "Wickr.C88_cipher_key_serialize",
    "Wickr.C88_cipher_key_parse",
    "Wickr.C88_kdf_meta_parse",
    "Wickr.C88_kdf_meta_serialize",
    "Wickr.C88_ecdh_create",
    "Wickr.C88_root_generate",
    "Wickr.C88_root_localize",
    "Wickr.C88_root_serialize_partial",
    "Wickr.C88_root_export_partial",
    "Wickr.C88_root_parse_partial",
    "Wickr.C88_dev_new",
    "Wickr.C88_kdf_not_wiped",
    "Wickr.C88_dev_new_not_wiped",
    "Wickr.C88_parse",
    "Wickr.C88_read_partial",
    "Wickr.C88_ctx_parse_partial",
    "Wickr.C88_ctx_parse_no_decode_partial",
    "Wickr.C88_kx_data_psk_not_wiped",
    "Wickr.C88_kx_data_secret_not_wiped",
    "Wickr.C88_sig_parse",
    "Wickr.C88_sig_serialize",
    "Wickr.C88_payload_serialize",
    "Wickr.C88_payload_parse_partial",
    "Wickr.C88_payload_encrypt",
    "Wickr.C88_payload_decrypt_partial",
    "Wickr.C88_set_serialize",
    "Wickr.C88_set_encrypt",
    "Wickr.C88_set_parse",
    "Wickr.C88_set_decrypt",
    "Wickr.C88_set_find",
    "Wickr.C88_packet_make",
    "Wickr.C88_packet_parse_partial",
    "Wickr.C88_packet_serialize",
    "Wickr.C88_identity_serialize",
    "Wickr.C88_chain_serialize",
    "Wickr.C88_ephemeral_serialize",
    "Wickr.C88_node_serialize",
    "Wickr.C88_storage_serialize_partial",
    "Wickr.C88_ctx_serialize_partial",
    "Wickr.C88_identity_parse_partial",
    "Wickr.C88_chain_parse_partial",
    "Wickr.C88_ephemeral_parse",
    "Wickr.C88_node_parse",
    "Wickr.C88_storage_parse_partial",
    "Wickr.C88_ctx_from_buffer_partial",
    "Wickr.C88_stream_key_rand",
    "Wickr.C88_stream_key_parse_partial",
    "Wickr.C88_transport_root_random",
    "Wickr.C88_stream_key_serialize_partial",
    "Wickr.C88_hex",
    "Wickr.C88_unhex",
    "Wickr.C88_base64",
    "Wickr.C88_base32",
    "Wickr.C88_pub_fixed",
    "Wickr.C88_fp_gen",
    "Wickr.C88_fp_identity",
    "Wickr.C88_fp_bilateral",
    "Wickr.C88_fp_combine",
    "Wickr.C88_fp_b32",
    "Wickr.C88_fp_hex",
    "Wickr.C88_to_raw",
    "Wickr.C88_from_raw",
    "Wickr.C88_tpkt_serialize"
   ],
   "note": "Proved for the functions listed by the theorems; key derivation and device identifiers release secrets unwiped when memory runs out (witnesses); writing a stream key releases the cipher key unwiped (C90, witness), and only that (C88_stream_key_serialize_partial). Reading root keys and stream keys: what is released is the parts of the message and the public key (C88_root_parse_partial, C88_import_recovery_partial, C88_stream_key_parse_partial). Key exchanges: without memory a pre-shared key or the derived key is released unwiped (C88_kx_data_psk_not_wiped, C88_kx_data_secret_not_wiped); with memory C90_kx_data and its siblings hold. Parsing packets leaves no secrets whatever fails (C88_parse). Storage keys and contexts: writing releases copies of the storage keys unwiped, and reading the parts of the message, also private keys (the _partial theorems list them). Not claimed for reading base 64 and base 32, whose partly read text is released unwiped. C88_decrypt_file_not_wiped: decrypting a file releases its output buffer with plaintext in it; C88_decrypt_file says that this is all."
  },
  {
   "property": "C89",
   "status": "proved",
   "theorems": [
    "Wickr.C89_chain",
    "Wickr.C89_node",
    "Wickr.C89_chain_history",
    "Wickr.C89_node_history"
   ],
   "note": "Chains and nodes, single calls and any number of calls, over an arbitrary allocator."
  },
  {
   "property": "C90",
   "status": "partial",
   "theorems": [
    "Wickr.C90_import_recovery_key_partial",
    "Wickr.C90_ctx_gen_pass_partial",
    "Wickr.C90_export_recovery_key",
    "Wickr.C90_kdf",
    "Wickr.C90_kdf_gen",
    "Wickr.C90_kdf_cipher",
    "Wickr.C90_kdf_decipher_partial",
    "Wickr.C90_ecdh_cipher",
    "Wickr.C90_ecdh_decipher",
    "Wickr.C90_root_parse_not_wiped",
    "Wickr.C90_bcrypt_passphrase",
    "Wickr.C90_kx_data",
    "Wickr.C90_kx_key",
    "Wickr.C90_kx_derive_data",
    "Wickr.C90_kx_derive_key",
    "Wickr.C90_decode_partial",
    "Wickr.C90_ctx_decode_partial",
    "Wickr.C90_decode_not_wiped",
    "Wickr.C90_payload_parse_not_wiped",
    "Wickr.C90_payload_decrypt_not_wiped",
    "Wickr.C90_ctx_export_partial",
    "Wickr.C90_ctx_export_storage_partial",
    "Wickr.C90_ctx_import_storage_partial",
    "Wickr.C90_ctx_import_partial",
    "Wickr.C90_storage_serialize_not_wiped",
    "Wickr.C90_ctx_export_not_wiped",
    "Wickr.C90_storage_parse_not_wiped",
    "Wickr.C90_chain_parse_not_wiped",
    "Wickr.C90_transport_root_stream",
    "Wickr.C90_stream_key_serialize_not_wiped",
    "Wickr.C90_stream_key_parse_not_wiped"
   ],
   "note": "Proved for the functions listed by the theorems, with the list of what is released; bcrypt releases a copy of the passphrase, writing a stream key the cipher key, and reading root keys or a stream key the keys, which the protobuf library does not wipe (witnesses). Refuted: reading or deciphering a payload leaves the text of the message in released memory (C90_payload_parse_not_wiped, C90_payload_decrypt_not_wiped). C90_decode_partial and C90_ctx_decode_partial count the text of the message as public, because decoding leaves it in released memory (C90_decode_not_wiped). Writing or exporting storage keys or contexts, and reading storage keys, contexts or private chains, leave keys in released memory although everything succeeds (C90_storage_serialize_not_wiped, C90_ctx_export_not_wiped, C90_storage_parse_not_wiped, C90_chain_parse_not_wiped)."
  },
  {
   "property": "C91",
   "status": "proved",
   "theorems": [
    "Wickr.C91_identity",
    "Wickr.C91_chain",
    "Wickr.C91_ephemeral_key",
    "Wickr.C91_node",
    "Wickr.C91_exchange_set",
    "Wickr.C91_payload",
    "Wickr.C91_packet_content",
    "Wickr.C91_message",
    "Wickr.C91_storage_keys",
    "Wickr.C91_root_keys",
    "Wickr.C91_ctx",
    "Wickr.C91_stream_key",
    "Wickr.C91_handshake_seed",
    "Wickr.C91_handshake_response"
   ],
   "note": "The wire forms are written from the schemas and the protobuf encoding rules (Spec/Schema.lean). For handshake packets and the signed content of a message the format is stated for every packet that is produced."
  },
  {
   "property": "C92",
   "status": "partial",
   "theorems": [
    "Wickr.C92_create",
    "Wickr.C92_create_wipes_partial",
    "Wickr.C92_create_leaks",
    "Wickr.C92_encode",
    "Wickr.C92_encode_wipes",
    "Wickr.C92_decode",
    "Wickr.C92_decode_wipes",
    "Wickr.C92_encode_crashes",
    "Wickr.C92_iv_counters_increase",
    "Wickr.C92_ivs_distinct",
    "Wickr.C92_no_replay"
   ],
   "note": "The value, leak, wiping and history statements hold for every allocator. C92_create_wipes_partial: the seed of the IVs is released unwiped if there is no memory for the factory. Refuted: making a stream leaks the IV factory when there is no memory for the context (C92_create_leaks); encoding dereferences NULL when there is no memory for a cipher result (C92_encode_crashes)."
  },
  {
   "property": "C93",
   "status": "proved",
   "theorems": [
    "Wickr.C93_msg_create",
    "Wickr.C93_msg_create_wipes",
    "Wickr.C93_ctx_encode",
    "Wickr.C93_ctx_encode_wipes",
    "Wickr.C93_history",
    "Wickr.C93_ctx_encode_not_sturdy",
    "Wickr.C93_ctx_encode_not_wiped"
   ],
   "note": "Recipients are an array in memory whose stored verification results tell the truth (as after any history of C89); C93_history carries this through any number of sends. The wiping theorems hold while no allocation fails; without memory the key derived for a recipient is released unwiped (C93_ctx_encode_not_wiped) and NULL is dereferenced (C93_ctx_encode_not_sturdy). Distinct slots are distinct nodes."
  },
  {
   "property": "C94",
   "status": "proved",
   "theorems": [
    "Wickr.C94_identity",
    "Wickr.C94_chain",
    "Wickr.C94_chain_private",
    "Wickr.C94_ephemeral",
    "Wickr.C94_node",
    "Wickr.C94_storage",
    "Wickr.C94_storage_readable",
    "Wickr.C94_context",
    "Wickr.C94_export",
    "Wickr.C94_export_storage",
    "Wickr.C94_signature_cut",
    "Wickr.C94_written_unreadable"
   ],
   "note": "For identities, chains (public and private), ephemeral keys, nodes, storage keys, contexts, and exports of contexts and of storage keys. A signature may lose bytes at its beginning if an allocation failed when it was written (C94_signature_cut: the padding of a signature is left out although it is announced), or what was written cannot be read at all (C94_written_unreadable); storage keys that were written can always be read (C94_storage_readable)."
  },
  {
   "property": "C95",
   "status": "proved",
   "theorems": [
    "Wickr.C95_verify",
    "Wickr.C95_sign",
    "Wickr.C95_signed_again_leaks",
    "Wickr.C95_sign_unpadded"
   ],
   "note": "C95_signed_again_leaks and C95_sign_unpadded show what the code does not promise: a packet that is signed a second time leaks its first signature and its first bytes, and without memory for its padding a signature is attached that nobody accepts, although signing reports success."
  },
  {
   "property": "C96",
   "status": "proved",
   "theorems": [
    "Wickr.C96_history",
    "Wickr.C96_pinned",
    "Wickr.C96_accepted",
    "Wickr.C96_unasked"
   ],
   "note": "The hypothesis Orderly leaves out messages of the wrong kind, which the code reads through the wrong member of a union (C58). C96_unasked shows what the code does not promise: if the copy of the peer's identity cannot be allocated the application is not asked, and a yes from it still gives keys."
  },
  {
   "property": "C97",
   "status": "proved",
   "theorems": [
    "Wickr.C97_keys_copy",
    "Wickr.C97_keys_copy_faithful",
    "Wickr.C97_keys_copy_no_leak",
    "Wickr.C97_keys_copy_undone",
    "Wickr.C97_keys_copy_wipes",
    "Wickr.C97_keys_copy_crashes",
    "Wickr.C97_start",
    "Wickr.C97_process",
    "Wickr.C97_verify",
    "Wickr.C97_finalize",
    "Wickr.C97_copy",
    "Wickr.C97_create",
    "Wickr.C97_destroy",
    "Wickr.C97_destroy_wipes",
    "Wickr.C97_keys_destroy",
    "Wickr.C97_keys_destroy_wipes",
    "Wickr.C97_completes",
    "Wickr.C97_root_secret_released",
    "Wickr.C97_peer_leaks",
    "Wickr.C97_start_leaks"
   ],
   "note": "C97_peer_leaks, C97_start_leaks and C97_root_secret_released show what the code does not promise: a peer that answers without a root key makes the other side lose memory, a handshake that cannot sign loses its packet, and a finished handshake leaves the bytes of the root secret in memory that has been released. Copying the keys dereferences NULL when there is no memory for a cipher key (C97_keys_copy_crashes)."
  },
  {
   "property": "C98",
   "status": "proved",
   "theorems": [
    "Wickr.C98_history",
    "Wickr.C98_pinned",
    "Wickr.C98_accepted",
    "Wickr.C98_pin_lost"
   ],
   "note": "The hypothesis TOrderly leaves out messages of the wrong kind, which the code reads through the wrong member of a union (C58). C98_pin_lost shows what the code does not promise: if the copy of the remote identity cannot be allocated, a context that was made for that identity asks the application about any peer instead, and a yes makes it active."
  },
  {
   "property": "C99",
   "status": "proved",
   "theorems": [
    "Wickr.C99_send",
    "Wickr.C99_create",
    "Wickr.C99_copy",
    "Wickr.C99_destroy",
    "Wickr.C99_destroy_wipes",
    "Wickr.C99_completes",
    "Wickr.C99_restart_leaks",
    "Wickr.C99_peer_leaks"
   ],
   "note": "The conditions under which calls leave something behind are in Spec/TransportCalls.lean and, for histories, in C98_history. C99_restart_leaks and C99_peer_leaks show what the code does not promise: starting a context while a handshake is under way loses that handshake, and a peer whose root key names the CTR cipher makes the other side lose the keys of the streams."
  }
 ]
}