# Formal model of wickr-crypto-c: design

## What this is

`/verif/lean` holds a Lean 4 model of the C library in `/repo/src/wickrcrypto/src`
and theorems about it.  Nothing here runs the C code; the tie between model and code
is the file/line citation on every definition.

Layout

* `Verif/Model/*.lean`  definitions only: one file per C module, every definition cites the C lines.
* `Verif/Spec/*.lean`   small specifications, independent of the model, used in theorem statements.
* `Verif/Lemmas/*.lean` helper lemmas.
* `Verif/Props/*.lean`  the property theorems (named `Cnn_...`), each with an `example`
  showing that its hypotheses are satisfiable, and the negative witnesses.

## Modelling conventions

* There are two models.  In the first, used for everything but C78-C90 and C92-C99, objects are values: a
  `wickr_buffer_t *` is `Option (List UInt8)`, `none` is `NULL`, and `malloc` never fails, except that the
  library's own size checks (length 0, length > MAX_BUFFER_SIZE) are kept.
* The second (`Model/Heap*.lean`) is about memory: programs over a heap of blocks, under an arbitrary
  allocator that may fail at any time.  The outcomes are: return, NULL dereference, undefined behaviour (use
  after free, double free, reading uninitialised bytes).  A block is a structure (its plain fields and its pointers),
  bytes, or uninitialised bytes; what released blocks of bytes contained is logged.  Objects of the first model are
  tied to the heap by representation predicates (`Spec/Repr.lean`) that describe their blocks exactly, so that a leak is a
  block no predicate accounts for (`Spec/Sep.lean`, a small separation logic, proved sound from the definition
  of runs in `Lemmas/Sep.lean`).  The properties themselves are stated about runs (`Spec/Memory.lean`).
* `size_t`/`uint64_t` values appear as `UInt64` where wrap-around matters, otherwise as `Nat`.
* Undefined behaviour (out-of-bounds access, NULL dereference) is a separate outcome
  (`Res.ub`) in the functions where it can be reached.
* The crypto engine (function pointers in `crypto_engine.h`) is a record `Engine`.  Laws that
  theorems need (decrypt inverts encrypt, verify accepts own signatures, ECDH commutes, output
  lengths) are explicit hypotheses collected in `Engine.Lawful`; a concrete toy engine is proved lawful so the hypotheses
  are satisfiable.  The OpenSSL wrapper (`openssl_suite.c`) is modelled over raw primitives.
* Randomness is passed as explicit arguments, so theorems hold for every random choice.
* protobuf-c is not part of the repository.  Its wire format (varint, length delimited,
  ascending field order, last value wins, required fields checked) is modelled in
  `Model/Proto.lean` and belongs to the trusted base.

## Plan per property

| id | model | proof |
|----|-------|-------|
| C01-C04 | buffer.c over `UInt64` | case analysis, arithmetic, induction on the list of buffers |
| C05 | array.c as slots; operation histories | refinement to a list of optional items, induction on the history |
| C06-C09 | util.c, b32.c byte by byte with memory outcome | induction on 3/5-byte blocks, bit arithmetic; C07 false: witness plus partial theorem |
| C10-C16 | cipher.c, kdf.c, ecdsa.c, transport_packet.c, protocol.c codecs | round-trip and exact acceptance conditions |
| C17 | protobuf wire format and each message | generic field-list round trip by induction, typed corollaries |
| C18-C24, C53, C54 | stream_ctx.c, stream_iv.c as state machines; C53 also in memory (HeapStream) | invariants over histories; C22, C23, C54 false: witness plus partial |
| C25-C28 | transport_handshake.c state machine over an abstract engine | invariants over call histories; mirrored keys by computation under `Lawful`; agreement on identities from injectivity of the hashed string |
| C29-C34 | transport_ctx.c with callbacks as output events | invariants over event histories; C31, C32 false: witness plus partial |
| C35-C41 | protocol.c, key_exchange.c, payload.c | composition of codec round trips and engine laws; C39 false: witness plus partial |
| C42-C45 | identity.c, node.c, fingerprint.c | cache invariants under digest injectivity; C43 false: witness plus partial |
| C46-C49 | ecdh_cipher_ctx.c, crypto_engine.c, root_keys.c, storage.c, wickr_ctx.c, devinfo.c | round trips under `Lawful` |
| C50, C51, C68-C71 | openssl_suite.c file functions and openssl_file_suite.c over a chunked cipher and an abstract file system | induction on chunks; invariant over every prefix of the operation trace; C68, C69, C70 false: witness plus partial |
| C52, C55, C56 | openssl_suite.c and default engine over raw primitives | case analysis on every wrapper; the default engine is proved to be a lawful `Engine` |
| C57 | stream_key.c | codec round trip |
| C58, C60 | transport_handshake.c unions, delayed decisions in transport_ctx.c | exact condition for undefined behaviour; both false: witness plus partial |
| C59 | transport_ctx.c histories | invariant tying ACTIVE to an authenticated handshake |
| C61, C62 | protocol.c, fingerprint.c with memory outcome | both false at the edges: witness plus partial |
| C63 | kdf.c, bcrypt/scrypt call | value theorems; bcrypt part false: witness plus partial |
| C64-C67 | wickr_ctx.c generation, recovery, copying | composition under `Lawful`; C65 false: witness plus partial |
| C72-C74 | protocol.c, wickr_ctx.c: exact values | unfolding to the engine calls of a small specification |
| C75, C76 | wickr_ctx.c storage functions; two generated accounts | composition of C64, C44 and C35 |
| C77 | openssl_suite.c raw signatures, all three builds, over `DerSig` | value theorems and round trips; `Lawful` is proved for DER written out; false for oversized numbers: witness plus partial |
| C78-C85 | Heap, HeapBuffer, HeapObj, HeapMsg, HeapKeys, HeapArr | triples for each function by symbolic execution (tactics in `Lemmas/Sep.lean`), induction over arrays; false parts by runs under a concrete failing allocator, evaluated by the kernel |
| C86-C88, C90 | HeapEngine, HeapFun, HeapKeyFun, HeapCtx, HeapStream, HeapPacket, HeapMessage, HeapProto, HeapTransport, HeapText, HeapFile | triples for programs that look at memory (`Lemmas/View.lean`); the values are those of the first model |
| C91 | every serializer | equivalence with a format written from the schemas (`Spec/Schema.lean`); parts agree whenever one of them fits a buffer |
| C89 | HeapFun: chains and nodes with their caches | triples plus an invariant on stored results, induction over calls |
| C92 | HeapStream: streams, their keys and IV factories | triples for programs that change an object (`Spec/Update.lean`), induction over histories of calls in memory; leaks refuted by runs |
| C93 | HeapMessage: recipients verified and packets made | triples with the outcome of verifying each recipient, induction over the array and over histories of calls |
| C94 | HeapProto | the theorems of C86 for writing (with the set of forms that may be written) and reading, joined by the value round trips of C44, C47, C48 |
| C95 | HeapTransport | triples for packets that are changed in place (`SignOutcome`, `CheckOutcome`), turned into statements about runs; the value theorem that verification says yes exactly if the packet is authentic |
| C96 | HeapHandshake: histories of calls (`Spec/HandshakeMem.lean`) | an invariant that ties the handshake in memory, which may lack signatures, to what was handed out; induction over the history |
| C97 | HeapHandshake: each call | triples with outcomes and the conditions under which something is left behind (`Spec/HandshakeCalls.lean`); leaks refuted by runs |
| C98 | HeapTransportCtx: histories of calls (`Spec/TransportMem.lean`) | an invariant that ties the context in memory to what was received, asked and answered; induction over the history |
| C99 | HeapTransportCtx: each call | triples (`Spec/TransportCalls.lean`); leaks refuted by runs |

## What is modelled

Every C file of `src/wickrcrypto/src`, function by function, with these exceptions:

| not modelled | why |
|---|---|
| memory (allocation failure, release, wiping) of functions other than `*_create`, `*_copy`, `*_destroy` | the heap model covers memory.c, buffer.c, array.c and the constructors, copies and destructors of 29 types, `wickr_node_rotate_keypair`, `wickr_ephemeral_keypair_make_public`, the functions of the crypto engine, signing and verification of identities and nodes, key derivation, root keys, device identifiers, making and copying contexts and their storage data, streams, stream keys, transport root keys, payloads, key exchanges, packets, making, parsing and decoding messages, writing and reading identities, nodes, storage keys and contexts, transport packets, handshakes, transport contexts, texts, fingerprints, raw signatures, encrypting, decrypting and hashing files; elsewhere objects are values and `malloc` succeeds |
| layout of blocks, alignment, `calloc` zero padding | a structure is its fields |
| OpenSSL, bcrypt, scrypt | primitives are parameters (`Prim`, `Evp`) with functional-correctness laws; no security is claimed from them |
| protobuf-c | its wire format is modelled (`Model/Proto.lean`) and what it allocates and releases for an accepted message (`Model/HeapUnpack.lean`); its C code is not, nor its memory for messages it refuses, unknown fields and repeated fields |
| thread interleavings | the library has no locks; every history is sequential |
| kernel and disk caches | the file model (`Fs`, `Env`) has atomic rename and lossy close, no power loss |
| generators (`*_rand`) | random values are arguments, so every value is covered |

| C file | model | properties |
|---|---|---|
| array.c | Array | C05 |
| b32.c, util.c | Base32, Base64, Hex | C06-C09 |
| buffer.c, buffer_priv.c | Buffer | C01-C04 |
| cipher.c, cipher_priv.c, digest.c | Algo, Cipher | C10, C11 |
| kdf.c | Kdf, OpenSsl | C12, C63 |
| ecdsa.c, eckey.c (+priv) | Ecdsa | C13 |
| crypto_engine.c | Engine, KdfCipher | C47, C56 |
| openssl_suite.c, openssl_file_suite.c | OpenSsl, EcdsaRaw, FileCrypt, HeapFile | C50-C52, C55, C56, C68-C71, C77, C86-C88 |
| ecdh_cipher_ctx.c | Ecdh | C46 |
| identity.c, node.c, ephemeral_keypair.c (+priv) | Identity, Node | C42-C44 |
| fingerprint.c | Fingerprint | C45, C62 |
| payload.c, packet_meta.c, key_exchange.c, protocol.c | Payload, KeyExchange, Message | C16, C35-C41, C61, C72, C73 |
| root_keys.c, storage.c, devinfo.c, wickr_ctx.c, encoder_result.c | Storage, Ctx | C48, C49, C64-C67, C74-C76 |
| stream_ctx.c, stream_iv.c, stream_key.c | Stream | C18-C24, C53, C54, C57 |
| transport_packet.c, transport_handshake.c, transport_root_key.c, transport_ctx.c | TransportPacket, TransportSign, Handshake, TransportCtx | C14, C15, C24-C34, C58-C60 |

## Properties that turned out false

For each there is a theorem proving the negation (general where possible, otherwise one evaluated by
the kernel) and a `_partial` theorem for what remains true.

* C07 base64 decoding reads outside its table or text for some texts (base64 view without terminator,
  characters above 127).
* C22 a stream context and its copy encrypt under the same key and IV; so do a transport context and its copy (C24).
* C23, C54 a forged packet with a large sequence number moves the decoder forward before
  authentication, and makes it do an unbounded number of HMACs.
* C31 an identity decision that arrives after ERROR makes the context ACTIVE.
* C32 a signed response whose root key names AES-CTR ends the handshake without any report.
* C35 recipients sharing a node identifier: only the first can read (lookup finds the first entry).
* C39 version, upper nibble of the second byte and padding are outside the signature.
* C40 lookup in a set with an unset slot dereferences NULL.
* C43 replacing the chain of a validated node is not noticed by its cache.
* C48 the packet version of a context is not stored; serializing public-only root keys is undefined.
* C51 the result of `fclose` is ignored, so a truncated file may be installed; nothing is synced.
* C58 handshake messages are read through the wrong union member without looking at the tag;
  reflecting an initiator's own packet suffices.
* C60 `start()` while a decision is pending lets the old decision apply to a new handshake.
* C61 near the size limit a NULL payload buffer is dereferenced (protocol.c:276).
* C62 the long base32 fingerprint has no terminator.
* C63 bcrypt ignores everything after the first NUL of a passphrase.
* C65 recovery with a bad identifier or incomplete device information dereferences NULL (wickr_ctx.c:168).
* C68 a read error while encrypting counts as end of file (also: the source is a directory).
* C69 an existing file `destination.temp` is destroyed, even if it is the source.
* C70 decryption to a `FILE *` writes plaintext before the tag is checked.
* C77 a signature number of more than 66 bytes becomes zero in the raw form (-1 counts as true); builds
  against OpenSSL before 1.1.0 write before the buffer.
* C78 device information without a system salt cannot be copied.
* C79 `wickr_node_array_copy` copies the nodes but `wickr_node_array_destroy` does not release them.
* C80 copies of cipher results, key exchanges (and arrays, sets), decode, parse and KDF results leak when an allocation
  fails; for decode results what leaks is the payload key.
* C81 under failed allocations copies of identities lose their signature, cipher results their cipher text,
  decode results their key or payload, parse results any part, without an error.
* C82 six constructors (EC key, signature, cipher result, cipher key, packet metadata, key exchange) write through the
  result of an allocation that is not tested.
* C83 copying KDF parameters may release the salt unwiped.
* C85 rotating a node to its own key pair uses the pair after releasing it.
* C87 digests and random values dereference NULL when there is no memory for the result.
* C86 decrypting with a passphrase leaks the derived key if the cipher text cannot be read; serializing root keys without a private
  key dereferences NULL.
* C87 reading key derivation parameters leaks the salt when there is no memory for the structure.
* C88 key derivation releases the derived key, and making device identifiers the hash of the system identifier, unwiped when memory
  runs out.
* C86, C87 contexts: a chain made with root keys that are no pair is leaked, the header key is leaked when there is no memory for the
  context, copying writes the version through NULL, recovery dereferences a missing result.
* C86, C87, C90, C92 streams: reading a serialized stream key with 0 packets per evolution leaks its user data; writing one releases the
  cipher key unwiped; deriving one leaks the key material, and making a stream the IV factory, when memory runs out.
* C86, C87, C90 packets: reading a packet whose signature names another digest or curve leaks the signature, which any sender can
  cause; reading or deciphering a payload leaves the text of the message in released memory; a signature is written without its padding,
  and a packet's signature leaked, when memory runs out; making a packet dereferences NULL then.
* C86, C87, C88, C90 messages: parsing and decoding without memory report a packet in order as corrupt or its key exchange as failed; making a key
  exchange without memory releases a pre-shared key or the derived key unwiped, leaks them or dereferences NULL; decoding leaves the
  text of the message in released memory although everything succeeds.
* C86-C88, C90, C94 serialized objects: without memory for its padding a signature is written without it, although its header announces
  padding, and writing succeeds; reading gives a signature that lacks its beginning, or nothing.  Writing a node leaks its chain, and
  writing storage keys or a context dereferences NULL, for lack of memory.  Writing or exporting a context leaves the storage keys, and
  reading or importing one leaves the storage keys and private keys in released memory although everything succeeds.
* C95 a transport packet that is signed twice leaks its first signature and its first bytes.  Without memory for the padding of the
  signature, signing succeeds and nobody accepts the packet.
* C96 if there is no memory for the copy of the peer's identity that the application is to be asked about, it is not asked; the handshake
  still waits for its answer, and a yes gives keys (`C96_unasked`).
* C97 a peer that answers without a root key makes the other side lose memory, without any allocation failing (`C97_peer_leaks`).  A
  handshake whose identity cannot sign loses the packet it made (`C97_start_leaks`).  The buffers with the root secret, before and after
  it is encrypted for the peer, are released without being wiped (`C97_root_secret_released`).
* C98 a context made for a remote identity copies it for its handshake without looking at the result (transport_ctx.c:290-298).  If a
  single allocation fails there, the handshake is held to nobody: the application is asked about any peer, and a yes makes the context
  active (`C98_pin_lost`).
* C99 starting a context while a handshake is under way overwrites the pointer to it (transport_ctx.c:315, `C99_restart_leaks`).  A peer
  whose root key names the CTR cipher makes the other side lose the result of the handshake with the keys of the streams
  (transport_ctx.c:223-226, `C99_peer_leaks`), besides failing silently (C32).  If the handshake cannot be finalized the packet it wanted
  to send is lost as well (261-264, 392-395).
* C87 `openssl_hmac_verify` computes the HMAC before it looks at the expected value, and loses it when there is none
  (openssl_suite.c:1207-1214, `C87_hmac_verify_leaks`).  The short form of a fingerprint is cut through NULL when there is no memory for
  the text (fingerprint.c:186, `C87_fp_short_not_sturdy`).
* C50 if the header of an encrypted file cannot be serialized again after the tag is known, `openssl_encrypt_file` answers true
  (openssl_suite.c:1333-1344).  The header then has the bytes that were in the memory of the first tag buffer, and with GCM the file
  cannot be opened (`C50_encrypt_without_tag`); `openssl_aes256_file_encrypt` installs it (`C51_encrypt_any_allocator`).
* C51 if the structure of the operation cannot be allocated, the temporary file stays (openssl_file_suite.c:119-142,
  `C51_temporary_left`).
* C87 `openssl_encrypt_file` loses the IV if there is no memory for the tag (openssl_suite.c:1237-1240, `C87_encrypt_file_leaks`);
  encryption and decryption of files write through NULL if there is no memory for the output buffer or the IV or the header
  (`C87_encrypt_file_not_sturdy`, `C87_decrypt_file_not_sturdy`).
* C88 `openssl_decrypt_file` releases its output buffer with the last pieces of plaintext in it (1500, `C88_decrypt_file_not_wiped`).
* C28 The first packet of a handshake names no responder and answers no challenge, and the responder finishes without a
  message that only the initiator could send. A recorded first packet, replayed to any responder that knows or accepts the
  initiator, makes it hand out keys, as often as it is replayed (`C28_first_packet_replayed`). What the initiator goes on
  with is bound to both identities (`C28_agreement`).
* C72 Messages of version 2 can be passed off: whoever has seen one, and knows only what author and recipients have published, can
  encrypt its list of exchanges with their own header key and sign the result; every recipient reads the author's payload as the
  thief's, with a valid signature (`C72_version2_passed_off`). From version 3 on the root key of the author is part of the key
  derivation and this fails (`C72_author_bound`). Receivers accept version 2.
* C34 A channel does not tolerate a single foreign buffer: whatever an ACTIVE context receives is delivered or puts it into ERROR, where
  nothing happens any more (`C34_delivered_or_dead`). The empty buffer is enough (`C34_garbage_is_fatal`), so the network under it must
  be reliable, ordered and free of injection for it to stay available.
* C42 a certificate covers the key only. `wickr_ephemeral_keypair_verify_owner` and `wickr_identity_chain_validate` check the same signature over the same bytes, so a message key signed by a device is accepted as a device under a root with the device's key, with any identifiers and types (`C42_roles_not_certified`, `C42_message_key_as_device`). A user of the library must compare root keys, not identifiers.
* C34 the responder's ACTIVE does not show that the initiator is present: its first packet names no responder and carries no challenge, so a recorded one makes every accepting context ACTIVE (`C34_first_packet_replayed`; for handshakes `C28_first_packet_replayed`). The initiator's ACTIVE does, by `C28_agreement`.
* C12 `wickr_kdf_meta_create_hkdf_expand` takes the output size as a `size_t` and stores it in a `uint8_t` (kdf.c:71, kdf.h:75): a request for 300 bytes is accepted and gives 44 (`C12_expand_truncated`), a request for 256 is accepted and fails on use (`C12_expand_multiple_fails`).
* C90 bcrypt releases a copy of the passphrase unwiped although everything succeeds.
* C90 reading root keys or a stream key leaves a copy of the keys in released memory although everything succeeds: the protobuf library
  does not wipe what it unpacked.

Limits recorded as theorems beside properties that hold: malformed hex is accepted (C08), HKDF
parameters cannot be parsed back (C12), signatures are malleable in their padding (C13), re-signing a
transport packet breaks it (C15), chain caches ignore the digest mode (C42), a payload with an empty part is
written but never read (C41), a sender chain is used without validation by parsing (C37), evolution
counts above 32768 make honest handshakes fail (C28), version 2 exchanges do not bind the root keys (C72),
header keys are public (C74), short IVs are read out of bounds by the raw AES wrapper (C52).

Seen while modelling, not stated as theorems: `wickr_crypto_engine_kdf_decipher` leaks its hash on an
error path; `openssl_ecdsa_from_raw` leaks its signature when the second `i2d` fails; `transport_ctx` calls `on_state(ACTIVE)` before the last handshake message is sent; the
IN_PROGRESS branch of identity verification is unreachable; file encryption first writes an
uninitialised tag and does not truncate an existing longer output; file decryption ignores the cipher
named in the key.

## Trusted base

* Lean 4.33.0's kernel.  Every theorem of MANIFEST.json depends on a subset of `propext`,
  `Classical.choice`, `Quot.sound` (the list for each is below); there are no axioms, `sorry`,
  `native_decide`, `bv_decide`, `implemented_by` or `unsafe` in the project.
* The reading of the C code, and the simplifications named in the comment of each definition.
* protobuf-c's wire format as modelled; libc functions (`memcpy`, `strlen`, `strtol`) as modelled.
* Hypotheses that appear in statements, never as axioms: `Engine.Lawful`, `Prim.Lawful`, `Evp.Lawful`
  (functional correctness) and `Engine.Fits`, `Evp.Fits` (outputs have the sizes of the buffers the code makes for them), all
  satisfied by the toy instances, and collision-freeness or unforgeability
  restricted to the byte strings of the history in question.

## Axioms per theorem

Generated by `tools/axioms.py` from `#print axioms`.

* Classical.choice, Quot.sound, propext: Arr.C05_array_refines_list, C01_copy_section, C02_modify_section, C03_concat, C03_concat_multi, C06_base64_encode_null, C06_base64_round_trip, C08_hex_round_trip, C09_alphabet, C09_base32_decode_total, C09_base32_round_trip, C10_cipher_result_accepts_iff, C10_cipher_result_reserialize, C10_cipher_result_round_trip, C10_cipher_result_too_large, C11_cipher_key_round_trip, C12_hkdf_not_parseable, C12_kdf_meta_accepts, C12_kdf_meta_round_trip, C13_ecdsa_accepts_iff, C13_ecdsa_round_trip, C14_packet_accepts_iff, C14_packet_reserialize, C14_packet_round_trip, C15_sign_verify, C15_verify_iff, C15_verify_sound, C16_accepted_is_wellformed, C16_accepts_iff, C16_reserialize, C16_round_trip, C17_key_exchange_set_round_trip, C17_unknown_fields_ignored, C18_no_replay, C18_sequence_strictly_increasing, C19_key_depends_only_on_sequence, C19_lost_packets_do_not_matter, C20_delivery_is_sublist, C21_iv_counters_increase, C21_ivs_distinct, C22_copy_reuses_key_and_iv, C22_handover_partial, C23_forged_packet_blocks_genuine, C23_later_packets_partial, C24_copy_repeats_key_and_iv, C24_sequence_numbers_increase, C28_agreement, C28_directions_differ, C28_first_packet_replayed, C28_honest_handshake, C28_key_names_session, C28_key_schedule, C28_large_evolution_count_fails, C28_same_keys_same_transcript, C29_data_only_through_channel, C29_data_only_when_active, C30_state_callback_exact, C31_error_final_after_active_partial, C31_error_final_pinned_partial, C31_error_not_final, C32_dropped_handshake_partial, C32_silent_failure, C33_active_has_both_streams, C34_contexts_connect, C34_delivered_or_dead, C34_end_to_end, C34_first_packet_replayed, C34_traffic_is_lossy_queue, C35_distinct_recipients_all_read, C35_duplicate_identifier_cannot_read, C35_every_recipient_reads_partial, C36_not_found_means_nothing, C36_others_are_told_so, C37_all_or_nothing, C37_decode_defined, C37_decode_requires_signature, C37_error_tells_status, C37_parse_result_copy, C37_parse_total, C38_recipients_are_listed, C39_content_authenticated_partial, C39_padding_not_covered, C39_version_not_covered, C40_accepted_sets, C40_encrypted_round_trip, C40_find_first, C40_find_null_iff, C40_find_ok_iff, C40_serialized_is_read_back, C40_set_round_trip, C42_cache_notices_replacement, C42_chain_cache_transparent, C43_node_cache_transparent_partial, C44_chain_private_round_trip, C44_chain_round_trip, C44_ephemeral_round_trip, C44_identity_round_trip, C44_node_round_trip, C45_b32_forms, C45_bilateral_binds, C45_bilateral_value, C45_fingerprint_binds, C45_fingerprint_value, C45_hex_forms, C45_no_bilateral_with_itself, C45_sha512_text_lengths, C45_text_injective, C46_key_size, C47_accepts_only, C47_bcrypt_refused, C47_round_trip, C47_short_refused, C48_context_export_import, C48_context_round_trip_partial, C48_recovery_key_round_trip, C48_recovery_round_trip, C48_root_keys_round_trip, C48_storage_keys_round_trip, C48_version_not_kept, C49_devinfo_value, C50_decrypt_any_allocator, C50_decrypt_complete, C50_decrypt_sound, C50_encrypt_any_allocator, C50_encrypt_without_tag, C50_encrypts, C50_file_image, C50_round_trip, C50_same_as_one_shot, C51_decrypt_any_allocator, C51_decrypt_atomic_partial, C51_encrypt_any_allocator, C51_encrypt_atomic_partial, C51_encrypt_succeeds, C51_lost_flush, C51_temporary_left, C51_unauthentic_never_installed, C53_in_memory, C54_exact_work_partial, C54_work_unbounded, C56_default_engine_lawful, C56_generated_keys_import, C57_copy_exact, C57_read_keys_are_checked, C57_stream_key_round_trip, C58_context_undefined_iff_partial, C58_reflection, C59_active_peer_authenticated, C59_pinned_context_never_asks, C59_traffic_peer_authenticated, C60_single_question_partial, C60_stale_decision, C61_encode_defined_partial, C61_large_payload_undefined, C62_long_b32_not_terminated, C62_terminated_partial, C65_recovery_defined_partial, C67_recovery_restores, C68_decrypt_read_error_partial, C68_read_error_unnoticed, C69_other_files_untouched_partial, C69_source_destroyed, C69_temp_destroyed, C70_destination_authentic_partial, C72_author_bound, C72_derived_value, C72_exchange_agreement, C72_exchange_value, C72_psk_round_trip, C72_version2_passed_off, C72_version_agreed, C76_generated_accounts_communicate, C76_published_chain, C76_published_node, C77_builds_agree, C77_der_round_trip, C77_from_raw_length, C77_from_raw_serializable, C77_from_raw_value, C77_old_undefined_iff, C77_raw_round_trip, C78_buf, C78_cKey, C78_cRes, C78_chain, C78_dec, C78_dev, C78_dev_refused, C78_ecdh, C78_enc, C78_eph, C78_ex, C78_exs, C78_fp, C78_id, C78_info, C78_kdfMeta, C78_kdfRes, C78_key, C78_node, C78_nodes, C78_packet, C78_parse, C78_payload, C78_root, C78_sCtx, C78_sIv, C78_sKey, C78_set, C78_sig, C78_storage, C78_tRoot, C79_buf_copy, C79_cKey_copy, C79_cRes_copy, C79_chain_copy, C79_ctx_copy, C79_ctx_packet_destroy, C79_dec_copy, C79_dev_copy, C79_ecdh_copy, C79_enc_copy, C79_eph_copy, C79_ex_copy, C79_exs_copy, C79_exs_destroy, C79_fp_copy, C79_gen_copy, C79_id_copy, C79_info_copy, C79_kdfMeta_copy, C79_kdfRes_copy, C79_key_copy, C79_node_copy, C79_nodes_destroy, C79_nodes_leaks, C79_nodes_not_undone, C79_packet_copy, C79_parse_copy_partial, C79_parse_destroy, C79_parse_not_undone, C79_payload_copy, C79_root_copy, C79_sCtx_copy, C79_sIv_copy, C79_sKey_copy, C79_set_copy, C79_set_destroy, C79_sig_copy, C79_storage_copy, C79_tRoot_copy, C80_buf, C80_cKey, C80_cRes_leaks, C80_chain, C80_dec_leaks, C80_dev, C80_ecdh, C80_enc, C80_eph, C80_ex_leaks, C80_exs_leaks, C80_fp, C80_id, C80_info, C80_kdfMeta_leaks, C80_kdfRes_leaks, C80_key, C80_node, C80_nodes, C80_packet, C80_parse_leaks, C80_payload, C80_root, C80_sCtx, C80_sIv, C80_sKey, C80_set_leaks, C80_sig, C80_storage, C80_tRoot, C81_buf, C81_cKey, C81_cRes_loses, C81_cRes_partial, C81_chain_loses, C81_chain_partial, C81_dec_loses, C81_dec_partial, C81_dev, C81_ecdh, C81_enc, C81_eph, C81_ex_loses, C81_ex_partial, C81_exs_loses, C81_exs_partial, C81_fp, C81_id_loses, C81_id_partial, C81_info, C81_kdfMeta, C81_kdfRes, C81_key, C81_node_loses, C81_node_partial, C81_nodes_loses, C81_nodes_partial, C81_packet, C81_parse_loses, C81_parse_partial, C81_payload, C81_root, C81_sCtx, C81_sIv, C81_sKey, C81_set_loses, C81_set_partial, C81_sig, C81_storage, C81_tRoot, C82_buf, C82_cKey_crashes, C82_cRes_crashes, C82_chain_crashes, C82_dec_crashes, C82_dev, C82_ecdh_crashes, C82_enc_crashes, C82_eph_crashes, C82_ex_crashes, C82_exs_crashes, C82_fp, C82_id_crashes, C82_info_crashes, C82_kdfMeta, C82_kdfRes, C82_key_crashes, C82_node_crashes, C82_nodes_crashes, C82_packet_crashes, C82_parse_crashes, C82_payload_crashes, C82_root_crashes, C82_sCtx_crashes, C82_sIv, C82_sKey_crashes, C82_set_crashes, C82_sig_crashes, C82_storage_crashes, C82_tRoot, C83_buf_copy, C83_cKey_copy, C83_cRes_copy, C83_chain_copy, C83_ctx_packet_destroy, C83_dec_copy, C83_dev_copy, C83_ecdh_copy, C83_enc_copy, C83_eph_copy, C83_ex_copy, C83_exs_copy, C83_exs_destroy, C83_id_copy, C83_info_copy, C83_kdfMeta_copy_partial, C83_kdfMeta_copy_spills, C83_kdfRes_copy_partial, C83_kdfRes_copy_spills, C83_key_copy, C83_node_copy, C83_nodes_copy, C83_packet_copy, C83_parse_copy, C83_parse_destroy, C83_payload_copy, C83_root_copy, C83_sCtx_copy, C83_sIv_copy, C83_sKey_copy, C83_set_copy, C83_set_destroy, C83_sig_copy, C83_storage_copy, C83_tRoot_copy, C84_cKey_size, C84_cRes, C84_id_long, C84_kdfMeta, C84_sKey, C84_tRoot_size, C85_copy, C85_wipes, C86_base32, C86_base64, C86_chain_parse, C86_chain_serialize, C86_cipher_key_parse, C86_cipher_key_serialize, C86_cipher_local, C86_cipher_remote, C86_cipher_result_parse, C86_cipher_result_serialize, C86_ctx_copy, C86_ctx_copy_digest_failure, C86_ctx_decode, C86_ctx_ephemeral, C86_ctx_export, C86_ctx_export_storage, C86_ctx_from_buffer, C86_ctx_gen_leaks, C86_ctx_gen_new_partial, C86_ctx_gen_partial, C86_ctx_gen_pass_partial, C86_ctx_gen_recovery_crashes, C86_ctx_gen_recovery_partial, C86_ctx_gen_sig_partial, C86_ctx_import_partial, C86_ctx_import_storage_partial, C86_ctx_parse_no_decode_partial, C86_ctx_parse_partial, C86_ctx_serialize, C86_decipher_local, C86_decipher_remote, C86_decode, C86_decode_misreports, C86_decrypt, C86_decrypt_file, C86_dev_new, C86_digest, C86_ecdh_cipher, C86_ecdh_create, C86_ecdh_decipher, C86_encrypt, C86_encrypt_file, C86_ephemeral, C86_ephemeral_parse, C86_ephemeral_serialize, C86_export_recovery_key, C86_fp_b32, C86_fp_bilateral, C86_fp_combine, C86_fp_gen, C86_fp_hex, C86_fp_identity, C86_from_raw, C86_gen_copy, C86_hex, C86_hmac, C86_hmac_verify, C86_identity_parse, C86_identity_serialize, C86_identity_serialize_unpadded, C86_identity_sign, C86_import, C86_import_recovery, C86_import_recovery_key_partial, C86_kdf, C86_kdf_cipher, C86_kdf_decipher_leaks, C86_kdf_decipher_partial, C86_kdf_gen, C86_kdf_meta_parse, C86_kdf_meta_serialize, C86_kx_data, C86_kx_derive_data, C86_kx_derive_key, C86_kx_key, C86_make_recovery_partial, C86_node_identity, C86_node_parse, C86_node_serialize, C86_packet_make, C86_packet_parse_leaks, C86_packet_parse_partial, C86_packet_serialize, C86_parse, C86_parse_misreports, C86_payload_decrypt, C86_payload_encrypt, C86_payload_parse, C86_payload_serialize, C86_pub_fixed, C86_random, C86_random_cipher_key, C86_random_key, C86_read_partial, C86_root_export_partial, C86_root_generate, C86_root_localize, C86_root_parse, C86_root_serialize_no_private_key, C86_root_serialize_partial, C86_secret, C86_set_decrypt, C86_set_encrypt, C86_set_find, C86_set_parse, C86_set_serialize, C86_sha2_file, C86_sig_parse, C86_sig_serialize, C86_sig_serialize_bare, C86_sign, C86_storage_parse, C86_storage_serialize, C86_stream_key_parse_leaks, C86_stream_key_parse_partial, C86_stream_key_rand, C86_stream_key_serialize, C86_to_raw, C86_tpkt_copy, C86_tpkt_parse, C86_tpkt_serialize, C86_transport_root_random, C86_transport_root_stream, C86_unbase32, C86_unbase64, C86_unhex, C87_base32, C87_base64, C87_chain_parse, C87_chain_parse_not_sturdy, C87_chain_serialize, C87_chain_serialize_sturdy, C87_cipher_key_parse, C87_cipher_key_serialize, C87_cipher_key_serialize_sturdy, C87_cipher_local, C87_cipher_remote, C87_cipher_result_parse, C87_cipher_result_serialize, C87_cipher_result_serialize_sturdy, C87_ctx_copy, C87_ctx_copy_crashes, C87_ctx_ephemeral, C87_ctx_gen_leaks, C87_ctx_serialize, C87_ctx_serialize_not_sturdy, C87_decipher_local, C87_decipher_local_sturdy, C87_decipher_remote, C87_decipher_remote_sturdy, C87_decrypt, C87_decrypt_file, C87_decrypt_file_not_sturdy, C87_decrypt_path, C87_decrypt_sturdy, C87_dev_new, C87_digest, C87_digest_not_sturdy, C87_ecdh_create, C87_encrypt, C87_encrypt_file_leaks, C87_encrypt_file_not_sturdy, C87_ephemeral, C87_ephemeral_parse, C87_ephemeral_serialize, C87_ephemeral_serialize_sturdy, C87_fp_b32, C87_fp_bilateral, C87_fp_combine, C87_fp_gen, C87_fp_hex, C87_fp_identity, C87_fp_short_b32_not_sturdy, C87_fp_short_not_sturdy, C87_from_raw, C87_from_raw_not_sturdy, C87_gen_copy, C87_hex, C87_hmac, C87_hmac_sturdy, C87_hmac_verify_leaks, C87_identity_parse, C87_identity_serialize, C87_identity_serialize_sturdy, C87_identity_sign, C87_import, C87_import_recovery, C87_kdf_meta_parse_leaks, C87_kdf_meta_parse_sturdy, C87_kdf_meta_serialize, C87_kdf_meta_serialize_sturdy, C87_kdf_sturdy, C87_kx_data_leaks, C87_kx_data_not_sturdy, C87_make_recovery_partial, C87_node_identity, C87_node_parse, C87_node_serialize_leaks, C87_node_serialize_sturdy, C87_packet_make, C87_packet_make_not_sturdy, C87_packet_parse_partial, C87_packet_serialize_leaks, C87_packet_serialize_sturdy, C87_parse_not_sturdy, C87_payload_decrypt, C87_payload_encrypt, C87_payload_parse, C87_payload_parse_not_sturdy, C87_payload_serialize, C87_payload_serialize_sturdy, C87_pub_fixed, C87_random, C87_random_cipher_key, C87_random_key, C87_random_not_sturdy, C87_root_export_partial, C87_root_generate, C87_root_localize, C87_root_parse, C87_root_serialize_partial, C87_root_serialize_sturdy_partial, C87_secret, C87_secret_sturdy, C87_set_decrypt, C87_set_encrypt, C87_set_find_leaks, C87_set_parse, C87_set_parse_not_sturdy, C87_set_serialize, C87_set_serialize_sturdy, C87_sha2_file, C87_sig_parse, C87_sig_serialize, C87_sig_serialize_sturdy, C87_sign, C87_storage_parse, C87_storage_serialize, C87_storage_serialize_key_not_sturdy, C87_storage_serialize_not_sturdy, C87_stream_key_rand, C87_stream_key_serialize, C87_to_raw, C87_tpkt_copy, C87_tpkt_copy_sturdy, C87_tpkt_parse, C87_tpkt_parse_sturdy, C87_tpkt_serialize, C87_tpkt_serialize_sturdy, C87_transport_root_random, C87_transport_root_stream_leaks, C87_unbase32, C87_unbase64, C87_unhex, C88_base32, C88_base64, C88_chain_parse_partial, C88_chain_serialize, C88_cipher_key_parse, C88_cipher_key_serialize, C88_cipher_local, C88_cipher_remote, C88_cipher_result_parse, C88_cipher_result_serialize, C88_ctx_copy, C88_ctx_ephemeral, C88_ctx_from_buffer_partial, C88_ctx_gen_new_partial, C88_ctx_gen_partial, C88_ctx_gen_recovery_partial, C88_ctx_gen_sig_partial, C88_ctx_parse_no_decode_partial, C88_ctx_parse_partial, C88_ctx_serialize_partial, C88_decipher_local, C88_decipher_remote, C88_decrypt, C88_decrypt_file, C88_decrypt_file_not_wiped, C88_decrypt_path, C88_dev_new, C88_dev_new_not_wiped, C88_digest, C88_ecdh_create, C88_encrypt, C88_encrypt_file, C88_encrypt_path, C88_ephemeral, C88_ephemeral_parse, C88_ephemeral_serialize, C88_fp_b32, C88_fp_bilateral, C88_fp_combine, C88_fp_gen, C88_fp_hex, C88_fp_identity, C88_from_raw, C88_gen_copy, C88_hex, C88_hmac, C88_identity_parse_partial, C88_identity_serialize, C88_identity_sign, C88_import, C88_import_recovery_partial, C88_kdf_meta_parse, C88_kdf_meta_serialize, C88_kdf_not_wiped, C88_kx_data_psk_not_wiped, C88_kx_data_secret_not_wiped, C88_make_recovery_partial, C88_node_identity, C88_node_parse, C88_node_serialize, C88_packet_make, C88_packet_parse_partial, C88_packet_serialize, C88_parse, C88_payload_decrypt_partial, C88_payload_encrypt, C88_payload_parse_partial, C88_payload_serialize, C88_pub_fixed, C88_random, C88_random_cipher_key, C88_random_key, C88_read_partial, C88_root_export_partial, C88_root_generate, C88_root_localize, C88_root_parse_partial, C88_root_serialize_partial, C88_secret, C88_set_decrypt, C88_set_encrypt, C88_set_find, C88_set_parse, C88_set_serialize, C88_sha2_file, C88_sig_parse, C88_sig_serialize, C88_sign, C88_storage_parse_partial, C88_storage_serialize_partial, C88_stream_key_parse_partial, C88_stream_key_rand, C88_stream_key_serialize_partial, C88_to_raw, C88_tpkt_serialize, C88_transport_root_random, C88_unhex, C89_chain, C89_chain_history, C89_node, C89_node_history, C90_bcrypt_passphrase, C90_chain_parse_not_wiped, C90_ctx_decode_partial, C90_ctx_export_not_wiped, C90_ctx_export_partial, C90_ctx_export_storage_partial, C90_ctx_gen_pass_partial, C90_ctx_import_partial, C90_ctx_import_storage_partial, C90_decode_not_wiped, C90_decode_partial, C90_ecdh_cipher, C90_ecdh_decipher, C90_export_recovery_key, C90_import_recovery_key_partial, C90_kdf, C90_kdf_cipher, C90_kdf_decipher_partial, C90_kdf_gen, C90_kx_data, C90_kx_derive_data, C90_kx_derive_key, C90_kx_key, C90_payload_decrypt_not_wiped, C90_payload_parse_not_wiped, C90_root_parse_not_wiped, C90_storage_parse_not_wiped, C90_storage_serialize_not_wiped, C90_stream_key_parse_not_wiped, C90_stream_key_serialize_not_wiped, C90_transport_root_stream, C91_chain, C91_ctx, C91_ephemeral_key, C91_exchange_set, C91_handshake_response, C91_handshake_seed, C91_identity, C91_message, C91_node, C91_packet_content, C91_root_keys, C91_storage_keys, C91_stream_key, C92_create, C92_create_leaks, C92_create_wipes_partial, C92_decode, C92_decode_wipes, C92_encode, C92_encode_crashes, C92_encode_wipes, C92_iv_counters_increase, C92_ivs_distinct, C92_no_replay, C93_ctx_encode, C93_ctx_encode_not_sturdy, C93_ctx_encode_not_wiped, C93_ctx_encode_wipes, C93_history, C93_msg_create, C93_msg_create_wipes, C94_chain, C94_chain_private, C94_context, C94_ephemeral, C94_export, C94_export_storage, C94_identity, C94_node, C94_signature_cut, C94_storage, C94_storage_readable, C94_written_unreadable, C95_sign, C95_verify, C96_accepted, C96_history, C96_pinned, C97_copy, C97_create, C97_destroy, C97_destroy_wipes, C97_finalize, C97_keys_copy, C97_keys_copy_crashes, C97_keys_copy_faithful, C97_keys_copy_no_leak, C97_keys_copy_undone, C97_keys_copy_wipes, C97_process, C97_start, C98_accepted, C98_history, C98_pinned, C99_copy, C99_create, C99_destroy, C99_destroy_wipes, C99_send.

* Quot.sound, propext: C04_is_equal, C07_base64_decode_high_char_is_ub, C07_base64_decode_safe_partial, C07_base64_decode_short_view_is_ub, C07_base64_decode_unterminated_is_ub, C08_hex_decode_digits, C09_base32_decode_not_injective, C11_cipher_key_accepts, C11_cipher_key_rejects, C12_expand_kept, C12_expand_size, C12_expand_truncated, C13_padding_malleable, C14_packet_copy, C15_message_is_no_packet, C15_resigned_packet_fails, C16_copy, C17_context_round_trip, C17_ephemeral_keypair_round_trip, C17_handshake_response_data_round_trip, C17_handshake_round_trip, C17_identity_chain_round_trip, C17_identity_round_trip, C17_key_exchange_round_trip, C17_last_value_wins, C17_node_round_trip, C17_packet_body_round_trip, C17_payload_round_trip, C17_root_keys_round_trip, C17_storage_keys_round_trip, C17_stream_key_round_trip, C17_transport_root_key_round_trip, C17_wire_round_trip, C22_copy_leaks_plaintext_difference, C23_concrete, C24_exhausted_refuses, C25_complete_is_final, C25_failed_is_final, C25_keys_at_most_once, C26_keys_need_authentication, C26_ready_needs_authentication, C27_pinned_identity, C28_info_determines_view, C31_error_final_partial, C32_failed_handshake_reported_partial, C34_data_inside_active_callback, C34_garbage_is_fatal, C34_reordering_is_fatal, C37_decode_result_copy, C37_sender_chain_not_validated, C38_one_exchange_per_recipient, C38_only_verified_recipients, C38_recipients_genuine, C38_refused, C39_false, C40_degenerate_sets, C40_set_copy, C40_unset_slot_undefined_iff, C40_unset_slot_undefined_witness, C41_accepted_is_complete, C41_copy, C41_empty_parts_are_lost, C41_encrypted_round_trip, C41_payload_round_trip, C41_serialized_is_read_back, C42_digest_mode_not_cached, C43_chain_replacement_not_noticed, C43_invalid_chain_not_noticed, C44_chain_public_only, C44_ephemeral_public_only, C44_generated_node_wf, C44_identity_public_only, C44_node_public_only, C45_bilateral_symmetric, C45_copy, C45_short_form_undefined, C46_copy, C46_ends_agree, C48_storage_keys_accepts, C49_local_depends_on_salt_only, C49_local_key_device_bound, C49_localize_value, C49_remote_same_everywhere, C52_decrypt_refuses, C52_decrypt_requires, C52_no_ub, C52_short_iv_is_undefined, C53_ref_up_counts, C53_released_exactly_once, C56_public_import_iff, C58_context_reflection, C58_undefined_iff_partial, C58_wrong_kind_undefined, C63_bcrypt_stops_at_nul, C63_bcrypt_text, C63_scrypt_whole_passphrase_partial, C64_generated_chain_genuine, C64_generation, C64_refused, C65_recovery_undefined, C66_copy_equal, C70_forged_plaintext_written, C71_file_digest, C73_packet_value, C74_header_key_value, C77_aws_refuses, C77_raw_determines, C77_to_raw_never_refuses, C77_to_raw_value_partial, C79_bufZero_destroy, C79_buf_destroy, C79_cKey_destroy, C79_cRes_destroy, C79_chain_destroy, C79_ctx_destroy, C79_dec_destroy, C79_dev_destroy, C79_ecdh_destroy, C79_enc_destroy, C79_eph_destroy, C79_ex_destroy, C79_fp_destroy, C79_gen_destroy, C79_id_destroy, C79_info_destroy, C79_kdfMeta_destroy, C79_kdfRes_destroy, C79_key_destroy, C79_node_destroy, C79_packet_destroy, C79_payload_destroy, C79_root_destroy, C79_sCtx_destroy, C79_sIv_destroy, C79_sKey_destroy, C79_sig_destroy, C79_storage_destroy, C79_tRoot_destroy, C83_bufZero_destroy, C83_buf_destroy, C83_cKey_destroy, C83_cRes_destroy, C83_chain_destroy, C83_ctx_destroy, C83_dec_destroy, C83_dev_destroy, C83_ecdh_destroy, C83_enc_destroy, C83_eph_destroy, C83_ex_destroy, C83_gen_destroy, C83_id_destroy, C83_info_destroy, C83_kdfMeta_destroy, C83_kdfRes_destroy, C83_key_destroy, C83_node_destroy, C83_packet_destroy, C83_payload_destroy, C83_root_destroy, C83_sCtx_destroy, C83_sIv_destroy, C83_sKey_destroy, C83_sig_destroy, C83_storage_destroy, C83_tRoot_destroy, C84_cKey, C84_chain, C84_dec, C84_dev, C84_ecdh, C84_enc, C84_eph, C84_ex, C84_gen, C84_id, C84_info, C84_kdfRes, C84_key, C84_missing, C84_node, C84_packet, C84_parse, C84_payload, C84_root, C84_set, C84_sig, C84_storage, C84_tRoot, C85_make_public, C85_move, C85_self_copy, C85_self_move, C91_payload, C95_sign_unpadded, C95_signed_again_leaks, C96_unasked, C97_completes, C97_keys_destroy, C97_keys_destroy_wipes, C97_peer_leaks, C97_root_secret_released, C97_start_leaks, C97_verify, C98_pin_lost, C99_completes, C99_peer_leaks, C99_restart_leaks.

* none: C01_copy_section_null, C37_decode_copy_drops, C72_version2_context, C75_only_authenticated.

* propext: C03_concat_null, C08_hex_decode_ignores_length, C08_hex_decode_not_strict, C12_expand_multiple_fails, C12_expand_refused, C17_pack_iff, C37_bad_signature, C37_decode_all_or_nothing, C37_no_sender, C37_success_requires_signature, C41_unauthenticated_refused, C42_message_key_as_device, C42_names_not_certified, C42_roles_not_certified, C46_only_hkdf, C46_other_cipher_refused, C47_refuses_weak, C48_public_only_root_undefined, C52_encrypt_requires, C53_defined_until_release, C55_hmac_verify_exact, C56_import_refuses, C66_copy_defined, C72_context_binds, C74_header_key_public, C75_local_round_trip, C75_remote_round_trip, C76_ephemeral, C77_injective_false, C77_oversized_false, C84_sKey_range.
