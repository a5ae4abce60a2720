{
 "C07": {
  "status": "partial",
  "note": "The property is false of the code; three witnesses are proved (no terminator, characters above 127, two-byte view) and the remaining cases are proved safe."
 },
 "C08": {
  "status": "proved",
  "note": "Round trip and decoding of well-formed text proved; that malformed text is accepted is proved as a negative witness."
 },
 "C43": {
  "status": "partial",
  "note": "Proved for every history of API calls (verify, rotate, copy, chain validation). Replacing the id_chain field is not noticed: two negative witnesses are proved."
 },
 "C42": {
  "status": "proved",
  "note": "Under collision-freeness of SHA-512 on the byte strings hashed in the history. Also proved with identity replacement; the digest mode of the signature is not covered by the cache (negative witness). Names, types and roles are not certified: a message key passes for a device of its device."
 },
 "C15": {
  "status": "proved",
  "note": "Exact condition for every byte string, plus sign/serialize/parse/verify. Re-signing a signed packet breaks it (negative witness). Signatures of messages are not mistaken for signatures of packets; the converse is not claimed, since the signed bytes of a packet may parse as fields that are skipped."
 },
 "C18": {
  "status": "proved",
  "note": "For every engine, state and history, with no assumption."
 },
 "C20": {
  "status": "proved",
  "note": "Unforgeability is assumed only for the packets of the schedule (plaintext integrity). The header is any injective function of the sequence number; the transport header is one (C14)."
 },
 "C21": {
  "status": "proved",
  "note": "Counters strictly increase and stay below the last sequence number, so they never wrap for histories of any length; distinctness of IVs needs collision-freeness on those counters."
 },
 "C22": {
  "status": "partial",
  "note": "False of the code: copy and original reuse key and IV (general theorem and concrete leak). Proved: no reuse when only one of the two is used after copying."
 },
 "C23": {
  "status": "partial",
  "note": "False of the code: a forged packet with a large number makes the decoder refuse all genuine packets up to it (general theorem and concrete case). Proved: packets with larger numbers are unaffected, and old numbers change nothing."
 },
 "C54": {
  "status": "partial",
  "note": "False of the code: with one packet per evolution no bound below 2^64-1 holds (proved). Proved: the exact number of HMAC computations before authentication."
 },
 "C25": {
  "status": "proved",
  "note": "For every engine, state and history, with no assumption; histories whose behaviour is undefined (C58) are excluded only in the at-most-once part."
 },
 "C26": {
  "status": "proved",
  "note": "For every history of calls with arbitrary packets that stays defined (see C58); authentic means signed by the node of a chain whose root vouches for it. A preconfigured chain must not carry a lying validation cache (C42 shows API-made chains do not)."
 },
 "C27": {
  "status": "proved",
  "note": "Same hypotheses as C26."
 },
 "C28": {
  "status": "proved",
  "note": "All four combinations of preconfigured and asked-for identities, for evolution counts up to the documented maximum 32768; above it the honest handshake yields nothing (proved). Agreement on identities and ephemeral keys is proved for any engine under assumptions about exactly the values that occur (digest, HKDF, opening with another key); ephemeral keys are agreed on if their lengths are the same on both sides. Nothing is agreed on before the response: a recorded first packet makes any responder hand out keys (proved)."
 },
 "C46": {
  "status": "proved",
  "note": "For HKDF with each digest and both ciphers; other KDFs and other cipher ids are refused for every engine."
 },
 "C58": {
  "status": "partial",
  "note": "False of the code: the union payload is read without looking at its tag. Proved: the exact states and messages for which processing is undefined (so all others are defined), concrete unsigned packets, and that reflecting the initiator's own packet is always such a case. The same for transport contexts with any history."
 },
 "C24": {
  "status": "proved",
  "note": "Every history of calls on one context, with arbitrary callbacks; the number is read from the bytes on the wire. Also proved: across copies it fails badly, a context and its copy encrypt different data under the same sequence number, key and IV."
 },
 "C29": {
  "status": "proved",
  "note": "Every history with arbitrary packets that stays defined (see C58), for every lawful engine. Calls made from inside callbacks are modelled for identity decisions and for sends inside on_state(ACTIVE)."
 },
 "C30": {
  "status": "proved",
  "note": "Every history that stays defined (see C58), for every engine."
 },
 "C33": {
  "status": "proved",
  "note": "Every history that stays defined (see C58), for every engine; no assumption."
 },
 "C31": {
  "status": "partial",
  "note": "False of the code: an identity decision that arrives after the error makes the context ACTIVE (C31_error_not_final). Proved: ERROR is final and silent unless such a decision is outstanding and accepted; without hypotheses for contexts that had been ACTIVE and for contexts with a remote identity."
 },
 "C32": {
  "status": "partial",
  "note": "False of the code: a correctly signed response whose root key names the CTR cipher makes the handshake disappear silently (C32_silent_failure). Proved: a failed pending handshake is always reported, and a handshake that ends leads to ACTIVE or ERROR in all other cases; copies drop the pending handshake."
 },
 "C59": {
  "status": "proved",
  "note": "Every history that stays defined (see C58). Assumes engine outputs of sane size (proved for the default engine) and that a configured identity does not come with a false cached validation status (see C43). A configured identity that cannot be copied counts as not configured, as in the code."
 },
 "C60": {
  "status": "partial",
  "note": "False of the code: start() on a context waiting for a decision replaces the handshake, and the delayed decision is applied to the new one (C60_stale_decision). Proved: if start() is not called after packets were fed in, there is at most one question in the life of a context."
 },
 "C34": {
  "status": "proved",
  "note": "For messages of at least one byte (and 38 below the buffer limit), fewer than 2^64 per direction. Limits of the claim are theorems too: a reordered genuine packet is fatal, and data sent inside the ACTIVE callback by the responder breaks the initiator. Every buffer that reaches an ACTIVE context is delivered or ends the channel for ever, so one injected buffer that is not a packet suffices (proved). A responder becomes ACTIVE on a replayed first packet."
 },
 "C16": {
  "status": "proved",
  "note": "Exact acceptance condition for every byte string, round trip, and re-serialization up to the padding and the upper half of the second byte."
 },
 "C40": {
  "status": "partial",
  "note": "Lookup, round trips, copies and accepted sets proved for every set without unset slots; for a set built from an array with an unset slot the lookup is undefined (exact condition and witness proved)."
 },
 "C41": {
  "status": "proved",
  "note": "Round trips plain and encrypted; a payload with an empty channel tag or body is written but never read back (proved)."
 },
 "C36": {
  "status": "proved",
  "note": "For honestly created packets, any context whose node identifier is not among the recipients' gets node-not-found; and a node-not-found result carries nothing and cannot be decoded."
 },
 "C37": {
  "status": "proved",
  "note": "For every engine, packet, node id, key function and sender, with no assumption."
 },
 "C38": {
  "status": "proved",
  "note": "For every engine and recipient list. That verification implies genuine signatures is proved for nodes without cached status (C42/C43 treat caches)."
 },
 "C39": {
  "status": "partial",
  "note": "The property is false of the code: the version nibble, the rest of the second byte and padding bytes are not covered by the signature (proved, witness). The content is covered (proved, unforgeability assumed only for the received string)."
 },
 "C35": {
  "status": "partial",
  "note": "Proved for every lawful engine, version 2..4, payload, and recipient list: every recipient whose node identifier's first occurrence in the list is its own entry reads the payload, so all read it when identifiers are distinct. False for recipients sharing a node identifier (witness)."
 },
 "C45": {
  "status": "proved",
  "note": "Symmetry holds for every engine without hypotheses; prefix law for both texts; value and binding under lawful engine and absence of a collision on the two inputs. Also recorded: the short form is undefined when the text cannot be made."
 },
 "C61": {
  "status": "partial",
  "note": "False for payloads whose serialization leaves less than 29 bytes of the largest buffer (NULL dereference, protocol.c:276; proved for every lawful engine). Proved defined for all others."
 },
 "C62": {
  "status": "partial",
  "note": "False for the long base32 text, whose object has no room for a terminator (proved for every fingerprint). Proved for hex texts and the short base32 text."
 },
 "C47": {
  "status": "proved",
  "note": "Round trip for every lawful engine and scrypt setting, exact layout, exact acceptance. That a string naming bcrypt is refused assumes bcrypt hashes do not have 32 bytes."
 },
 "C48": {
  "status": "partial",
  "note": "Proved for storage keys, root keys (clear and encrypted), recovery keys and contexts (clear and exported), except the packet version of a context, which is not stored (proved). Public-only root keys: serialization is undefined (proved)."
 },
 "C49": {
  "status": "proved",
  "note": "Value of both keys for every lawful engine; that two devices get different local keys assumes only that the two salted digests differ."
 },
 "C63": {
  "status": "partial",
  "note": "False for bcrypt: everything after the first NUL is ignored (proved for every primitive). scrypt: whole passphrase, documented parameters. bcrypt on texts: passphrases without NUL are passed on whole."
 },
 "C64": {
  "status": "proved",
  "note": "For every lawful engine; soundness (chain genuine) for every engine."
 },
 "C65": {
  "status": "partial",
  "note": "False: NULL dereference at wickr_ctx.c:168 for identifiers that are empty or have 128 bytes or more and for devices without system salt (proved). Proved defined for all other inputs with the default engine over lawful primitives."
 },
 "C66": {
  "status": "proved",
  "note": ""
 },
 "C67": {
  "status": "proved",
  "note": "Remote storage key with an authenticated cipher, which is what the library generates."
 },
 "C50": {
  "status": "proved",
  "note": "Chunked encryption, decryption and header rewriting, for every content, every outcome of the writes; incremental EVP calls are assumed to act like the one-shot primitives (Evp.Lawful), with GCM's limit of 2^36-32 bytes; equal to the serialised one-shot encryption for contents that fit a buffer. C50_decrypt_any_allocator and C50_encrypt_any_allocator are about the functions in memory, whatever the allocator does; C50_encrypt_without_tag shows that encryption may answer true and leave a GCM file that cannot be opened if the header cannot be serialized again."
 },
 "C51": {
  "status": "partial",
  "note": "Holds in every intermediate state if closing the temporary file loses nothing and the source is not destination.temp; unauthentic input never reaches the destination in any environment. False when the buffered data cannot be written by fclose, whose result is ignored (C51_lost_flush). Power loss with unsynced data is not modelled beyond that. C51_decrypt_any_allocator and C51_encrypt_any_allocator are about the functions in memory and any file system; C51_temporary_left shows that the temporary file stays behind if the structure of the operation cannot be allocated."
 },
 "C68": {
  "status": "partial",
  "note": "False for encryption (C68_read_error_unnoticed): a read error counts as the end of the file. Holds for authenticated decryption and for digests (C71)."
 },
 "C69": {
  "status": "partial",
  "note": "All other files keep their content in every state; a file named destination.temp is destroyed (C69_temp_destroyed), also when it is the source (C69_source_destroyed)."
 },
 "C70": {
  "status": "partial",
  "note": "False for the FILE* function (C70_forged_plaintext_written); the path function only installs authentic plaintext."
 },
 "C71": {
  "status": "proved",
  "note": "For every file size; a read error gives no digest."
 },
 "C72": {
  "status": "proved",
  "note": "Values of C72_exchange_value / C72_derived_value hold for every engine; the round trip for every lawful engine. Agreement of maker and reader (of the same data: packet keys are exchanged in counter mode, so a reader with other beliefs may get other data) is proved for any engine under assumptions about exactly the values that occur, for root keys of equal lengths; agreement on the version needs that no device identifier is as long as two root keys and a device identifier. Passing off version 2 messages is proved possible for every lawful engine, message and thief."
 },
 "C73": {
  "status": "proved",
  "note": "Holds for every engine; the recipients are those given, in order."
 },
 "C74": {
  "status": "proved",
  "note": "The value is stated over the default engine, publicity for every engine."
 },
 "C75": {
  "status": "proved",
  "note": "GCM storage keys, as generated and derived by the library."
 },
 "C76": {
  "status": "proved",
  "note": "Composition of generation (C64), publication (C44) and delivery (C35) for two generated accounts."
 },
 "C77": {
  "status": "partial",
  "note": "Value, both round trips, refused lengths and serializability proved for numbers of up to 66 bytes; the unrestricted claim is refuted: an oversized number becomes zero (current OpenSSL build) or is written before the buffer (builds before 1.1.0), and the raw form drops signs and trailing bytes."
 },
 "C78": {
  "status": "partial",
  "note": "Proved for all 30 object types over an explicit heap and an arbitrary allocator. Missing: device information without a system salt is a legal object that can never be copied (proved)."
 },
 "C79": {
  "status": "partial",
  "note": "Proved for every type, including copies made while allocations fail. False for node arrays, whose nodes are never released (proved in general), and for parse results copied while an allocation fails (witness)."
 },
 "C80": {
  "status": "partial",
  "note": "Proved for the types whose copy function cleans up; false for cipher results, key exchanges, exchange arrays and sets, decode and parse results and KDF objects: a witness for each."
 },
 "C81": {
  "status": "partial",
  "note": "Proved for most types; identities, chains, nodes, cipher results, key exchanges, arrays of nodes and of exchanges, exchange sets and parse and decode results may silently lose parts (a witness for each), and what may be missing is bounded exactly."
 },
 "C82": {
  "status": "partial",
  "note": "Proved for the types whose constructor tests its allocation; false for every type that contains an EC key, signature, cipher key, cipher result, packet metadata or key exchange: a witness for each."
 },
 "C83": {
  "status": "partial",
  "note": "Proved for every copy and destroy function; false for copies of KDF parameters and results, which release the salt unwiped: witnesses."
 },
 "C84": {
  "status": "proved",
  "note": "Every constructor, plus refusal of missing parts and of parts of the wrong size."
 },
 "C85": {
  "status": "partial",
  "note": "Ownership, wiping and the effect of failure are proved. Passing the node's own key pair is a use after free (proved for every such node)."
 },
 "C86": {
  "status": "partial",
  "note": "Proved for the functions listed by the theorems. Refuted by witnesses: serializing root keys without a private key dereferences NULL; decrypting with a passphrase leaks the derived key when the cipher text cannot be read; making a context with root keys that are no pair leaks the chain; making one from recovery data dereferences NULL when no context can be made; copying one with an engine whose digests fail writes through NULL; reading a stream key with user data and 0 packets per evolution leaks the user data. Handshakes and transport contexts are the subject of C96-C99. Packets: C86_packet_parse_partial excludes packets whose signature names another digest or curve, whose signature is leaked (C86_packet_parse_leaks: any sender can cause it). A signature is written without its padding if there is no memory for the padding (C86_sig_serialize_bare). Parsing and decoding packets: the result is exact with memory; without it packets in order are reported as corrupt or undecodable (C86_parse_misreports, C86_decode_misreports), so C86_parse and C86_decode allow such results. C86_read_partial and C86_ctx_parse_partial exclude packets whose signature names another digest or curve. Identities, chains, ephemeral keys, nodes and contexts: without memory for its padding a signature is written without it (C86_identity_serialize_unpadded), so their writing is stated with ComputesAmong. C86_ctx_import_partial and C86_ctx_import_storage_partial exclude inputs from which a key can be derived but whose cipher text cannot be read (see C86_kdf_decipher_leaks)."
 },
 "C87": {
  "status": "partial",
  "note": "Proved for the functions listed by the theorems; NULL is dereferenced for lack of memory by digests, random values and copies of contexts; reading key derivation parameters and making contexts and deriving stream keys leak for lack of memory (witnesses). Refuted for lack of memory: writing a packet leaks (C87_packet_serialize_leaks), searching a set leaks (C87_set_find_leaks), making a packet and reading payloads or sets dereference NULL (C87_packet_make_not_sturdy, C87_payload_parse_not_sturdy, C87_set_parse_not_sturdy). Key exchanges and parsing: refuted for lack of memory (C87_kx_data_leaks, C87_kx_data_not_sturdy, C87_parse_not_sturdy). Writing a node leaks its chain for lack of memory (C87_node_serialize_leaks); writing storage keys or contexts and reading chains dereference NULL (C87_storage_serialize_not_sturdy, C87_ctx_serialize_not_sturdy, C87_chain_parse_not_sturdy). The short form of a fingerprint and raw signatures dereference NULL for lack of memory (C87_fp_short_not_sturdy, C87_fp_short_b32_not_sturdy, C87_from_raw_not_sturdy); verifying an HMAC against NULL loses the computed one even with memory (C87_hmac_verify_leaks). C87_encrypt_file_leaks, C87_encrypt_file_not_sturdy and C87_decrypt_file_not_sturdy show what the functions on files do not promise."
 },
 "C88": {
  "status": "partial",
  "note": "Proved for the functions listed by the theorems; key derivation and device identifiers release secrets unwiped when memory runs out (witnesses); writing a stream key releases the cipher key unwiped (C90, witness), and only that (C88_stream_key_serialize_partial). Reading root keys and stream keys: what is released is the parts of the message and the public key (C88_root_parse_partial, C88_import_recovery_partial, C88_stream_key_parse_partial). Key exchanges: without memory a pre-shared key or the derived key is released unwiped (C88_kx_data_psk_not_wiped, C88_kx_data_secret_not_wiped); with memory C90_kx_data and its siblings hold. Parsing packets leaves no secrets whatever fails (C88_parse). Storage keys and contexts: writing releases copies of the storage keys unwiped, and reading the parts of the message, also private keys (the _partial theorems list them). Not claimed for reading base 64 and base 32, whose partly read text is released unwiped. C88_decrypt_file_not_wiped: decrypting a file releases its output buffer with plaintext in it; C88_decrypt_file says that this is all."
 },
 "C89": {
  "status": "proved",
  "note": "Chains and nodes, single calls and any number of calls, over an arbitrary allocator."
 },
 "C90": {
  "status": "partial",
  "note": "Proved for the functions listed by the theorems, with the list of what is released; bcrypt releases a copy of the passphrase, writing a stream key the cipher key, and reading root keys or a stream key the keys, which the protobuf library does not wipe (witnesses). Refuted: reading or deciphering a payload leaves the text of the message in released memory (C90_payload_parse_not_wiped, C90_payload_decrypt_not_wiped). C90_decode_partial and C90_ctx_decode_partial count the text of the message as public, because decoding leaves it in released memory (C90_decode_not_wiped). Writing or exporting storage keys or contexts, and reading storage keys, contexts or private chains, leave keys in released memory although everything succeeds (C90_storage_serialize_not_wiped, C90_ctx_export_not_wiped, C90_storage_parse_not_wiped, C90_chain_parse_not_wiped)."
 },
 "C91": {
  "status": "proved",
  "note": "The wire forms are written from the schemas and the protobuf encoding rules (Spec/Schema.lean). For handshake packets and the signed content of a message the format is stated for every packet that is produced."
 },
 "C92": {
  "status": "partial",
  "note": "The value, leak, wiping and history statements hold for every allocator. C92_create_wipes_partial: the seed of the IVs is released unwiped if there is no memory for the factory. Refuted: making a stream leaks the IV factory when there is no memory for the context (C92_create_leaks); encoding dereferences NULL when there is no memory for a cipher result (C92_encode_crashes)."
 },
 "C93": {
  "status": "proved",
  "note": "Recipients are an array in memory whose stored verification results tell the truth (as after any history of C89); C93_history carries this through any number of sends. The wiping theorems hold while no allocation fails; without memory the key derived for a recipient is released unwiped (C93_ctx_encode_not_wiped) and NULL is dereferenced (C93_ctx_encode_not_sturdy). Distinct slots are distinct nodes."
 },
 "C94": {
  "status": "proved",
  "note": "For identities, chains (public and private), ephemeral keys, nodes, storage keys, contexts, and exports of contexts and of storage keys. A signature may lose bytes at its beginning if an allocation failed when it was written (C94_signature_cut: the padding of a signature is left out although it is announced), or what was written cannot be read at all (C94_written_unreadable); storage keys that were written can always be read (C94_storage_readable)."
 },
 "C95": {
  "status": "proved",
  "note": "C95_signed_again_leaks and C95_sign_unpadded show what the code does not promise: a packet that is signed a second time leaks its first signature and its first bytes, and without memory for its padding a signature is attached that nobody accepts, although signing reports success."
 },
 "C96": {
  "status": "proved",
  "note": "The hypothesis Orderly leaves out messages of the wrong kind, which the code reads through the wrong member of a union (C58). C96_unasked shows what the code does not promise: if the copy of the peer's identity cannot be allocated the application is not asked, and a yes from it still gives keys."
 },
 "C97": {
  "status": "proved",
  "note": "C97_peer_leaks, C97_start_leaks and C97_root_secret_released show what the code does not promise: a peer that answers without a root key makes the other side lose memory, a handshake that cannot sign loses its packet, and a finished handshake leaves the bytes of the root secret in memory that has been released. Copying the keys dereferences NULL when there is no memory for a cipher key (C97_keys_copy_crashes)."
 },
 "C98": {
  "status": "proved",
  "note": "The hypothesis TOrderly leaves out messages of the wrong kind, which the code reads through the wrong member of a union (C58). C98_pin_lost shows what the code does not promise: if the copy of the remote identity cannot be allocated, a context that was made for that identity asks the application about any peer instead, and a yes makes it active."
 },
 "C99": {
  "status": "proved",
  "note": "The conditions under which calls leave something behind are in Spec/TransportCalls.lean and, for histories, in C98_history. C99_restart_leaks and C99_peer_leaks show what the code does not promise: starting a context while a handshake is under way loses that handshake, and a peer whose root key names the CTR cipher makes the other side lose the keys of the streams."
 }
}