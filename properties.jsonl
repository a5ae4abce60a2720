{"id": "C01", "title": "Section copies never leave the buffer", "statement": "wickr_buffer_copy_section(buffer, start, len) returns exactly the bytes start..start+len-1 when the section is non-empty, inside the buffer and below the maximum buffer size, and returns NULL for every other 64-bit start/len pair, including pairs whose sum wraps around.", "quantifier": "every buffer content and length, and every pair of 64-bit values start, len", "why_tests_cant": "2^128 start/len pairs; wrap-around and boundary pairs cannot be enumerated", "anchors": ["src/wickrcrypto/src/buffer.c:__validate_buffer_range", "src/wickrcrypto/src/buffer.c:wickr_buffer_copy_section"]}
{"id": "C02", "title": "In-place modification touches exactly the requested range", "statement": "wickr_buffer_modify_section either returns true and changes exactly the bytes start..start+len-1 to the supplied bytes, leaving the length and every other byte alone, or returns false and leaves the buffer unchanged; it returns true exactly when the range lies inside the buffer.", "quantifier": "every buffer, every source, every 64-bit start and len", "why_tests_cant": "the frame condition ranges over every position and every range", "anchors": ["src/wickrcrypto/src/buffer.c:wickr_buffer_modify_section"]}
{"id": "C03", "title": "Concatenation is exact and size-capped", "statement": "wickr_buffer_concat and wickr_buffer_concat_multi return the in-order concatenation of their inputs (concat_multi skipping NULL and empty inputs); they return NULL exactly when an input of concat is NULL, the result would be empty, or the result would exceed the maximum buffer size. No intermediate sum wraps.", "quantifier": "every list of up to 255 possibly-NULL buffers with 64-bit lengths", "why_tests_cant": "lists of buffers are unbounded; overflow cases need multi-gigabyte inputs", "anchors": ["src/wickrcrypto/src/buffer.c:wickr_buffer_concat", "src/wickrcrypto/src/buffer.c:wickr_buffer_concat_multi"]}
{"id": "C04", "title": "Buffer equality decides byte equality", "statement": "wickr_buffer_is_equal is true exactly when both buffers are non-NULL and hold the same bytes, both with memcmp and with any comparison function that returns 0 exactly on equal memory.", "quantifier": "every pair of possibly-NULL buffers", "why_tests_cant": "all pairs", "anchors": ["src/wickrcrypto/src/buffer.c:wickr_buffer_is_equal"]}
{"id": "C05", "title": "Arrays behave as fixed-length lists of optional items", "statement": "After any sequence of set/fetch/copy operations, a wickr_array of n items behaves as a list of n optional items: a fetch at index i<n returns the value of the last successful set at i (NULL if none), out-of-range accesses fail and change nothing, an array copy equals the original at the time of copying and later writes to either do not affect the other.", "quantifier": "every sequence of operations with every 32-bit index and every item", "why_tests_cant": "histories are unbounded", "anchors": ["src/wickrcrypto/src/array.c:wickr_array_new", "src/wickrcrypto/src/array.c:wickr_array_set_item", "src/wickrcrypto/src/array.c:wickr_array_fetch_item", "src/wickrcrypto/src/array.c:wickr_array_copy"]}
{"id": "C06", "title": "Base64 round trip", "statement": "getDataFromBase64(getBase64FromData(b)) returns b for every non-empty buffer within the size limits, without touching memory outside the buffers involved; the text consists only of the base64 alphabet and padding and its length is 4*ceil(n/3).", "quantifier": "every non-empty byte string", "why_tests_cant": "all byte strings", "anchors": ["src/wickrcrypto/src/util.c:getBase64FromData", "src/wickrcrypto/src/util.c:getDataFromBase64"]}
{"id": "C07", "title": "Base64 decoding is memory safe on every text", "statement": "getDataFromBase64 performs no out-of-bounds read or write for every buffer handed to it.", "quantifier": "every buffer (contents, length and what follows it in memory)", "why_tests_cant": "undefined behaviour on adversarial inputs is not observable by asserting results", "anchors": ["src/wickrcrypto/src/util.c:getDataFromBase64"]}
{"id": "C08", "title": "Hex round trip and strictness", "statement": "getDataFromHexString(getHexStringFromData(b)) returns b for every non-empty buffer; the text is lower-case hex of length 2n. (Strict rejection of malformed hex is what a caller would expect; the code is lenient.)", "quantifier": "every byte string; every text", "why_tests_cant": "all byte strings / texts", "anchors": ["src/wickrcrypto/src/util.c:getHexStringFromData", "src/wickrcrypto/src/util.c:getDataFromHexString"]}
{"id": "C09", "title": "Base32 round trip", "statement": "base32_decode(base32_encode(b)) returns b for every non-empty buffer; the text uses only the Crockford alphabet and has length ceil(8n/5); decoding any text either yields floor(5m/8) bytes or NULL, and NULL exactly when a character is outside the alphabet or the result would be empty.", "quantifier": "every non-empty byte string and every text", "why_tests_cant": "all byte strings", "anchors": ["src/wickrcrypto/src/b32.c:base32_encode", "src/wickrcrypto/src/b32.c:base32_decode"]}
{"id": "C10", "title": "Cipher result codec is exact", "statement": "Every well-formed cipher result survives serialize/from_buffer unchanged, and from_buffer accepts a byte string exactly when its first byte names a known cipher and it is long enough for that cipher's IV and tag; re-serializing an accepted string reproduces it byte for byte.", "quantifier": "every cipher result and every byte string", "why_tests_cant": "all byte strings, including hostile ones", "anchors": ["src/wickrcrypto/src/cipher.c:wickr_cipher_result_serialize", "src/wickrcrypto/src/cipher.c:wickr_cipher_result_from_buffer"]}
{"id": "C11", "title": "Cipher key codec", "statement": "Every cipher key survives serialize/from_buffer unchanged; no string shorter than id+key length or with an unknown id is accepted.", "quantifier": "every key and every byte string", "why_tests_cant": "all byte strings", "anchors": ["src/wickrcrypto/src/cipher.c:wickr_cipher_key_serialize", "src/wickrcrypto/src/cipher.c:wickr_cipher_key_from_buffer"]}
{"id": "C12", "title": "KDF parameter codec", "statement": "KDF parameters (algorithm, salt) survive serialize/create_with_buffer unchanged also when followed by other data, and the reported size is the exact number of bytes consumed. Parameters made for an HKDF expansion to n bytes give n bytes for n from 1 to 255; a larger request is accepted and gives n modulo 256 bytes, or fails on use when n is a multiple of 256.", "quantifier": "every serializable algorithm, salt and trailing data; every info, secret and requested size", "why_tests_cant": "all salts and trailers", "anchors": ["src/wickrcrypto/src/kdf.c:wickr_kdf_meta_serialize", "src/wickrcrypto/src/kdf.c:wickr_kdf_meta_create_with_buffer", "src/wickrcrypto/src/kdf.c:wickr_kdf_meta_size_with_buffer", "src/wickrcrypto/src/kdf.c:wickr_kdf_meta_create_hkdf_expand"]}
{"id": "C13", "title": "ECDSA signature codec is fixed-size and lossless", "statement": "Serializing a signature gives exactly the curve's signature size or NULL, and parsing it gives the same curve, digest and signature bytes; parsing accepts only known curve/digest ids and never reads past the declared padding.", "quantifier": "every signature object and every byte string", "why_tests_cant": "all byte strings", "anchors": ["src/wickrcrypto/src/ecdsa.c:wickr_ecdsa_result_serialize", "src/wickrcrypto/src/ecdsa.c:wickr_ecdsa_result_create_from_buffer"]}
{"id": "C14", "title": "Transport packet codec", "statement": "A transport packet survives serialize/create_from_buffer unchanged, create_from_buffer accepts exactly the byte strings that have a known body type, a complete header, a non-empty body and room for the MAC their header announces, and re-serializing an accepted packet reproduces the input.", "quantifier": "every packet and every byte string", "why_tests_cant": "all byte strings from the network", "anchors": ["src/wickrcrypto/src/transport_packet.c:wickr_transport_packet_serialize", "src/wickrcrypto/src/transport_packet.c:wickr_transport_packet_create_from_buffer"]}
{"id": "C15", "title": "Transport packet signatures cover header and body", "statement": "wickr_transport_packet_verify on a packet parsed from the network returns true only if the presented identity chain is valid and its node key verifies the signature over every byte that precedes the MAC; a packet signed once, serialized and parsed by the peer verifies under the signer's chain. A signature made for a message never serves for a transport packet: no packet beginning with the signed bytes of a message is verified, whoever is the claimed signer.", "quantifier": "every byte string, every identity chain, every lawful crypto engine", "why_tests_cant": "all byte strings and keys", "anchors": ["src/wickrcrypto/src/transport_packet.c:wickr_transport_packet_sign", "src/wickrcrypto/src/transport_packet.c:wickr_transport_packet_verify", "src/wickrcrypto/src/protocol.c:wickr_packet_create_with_components"]}
{"id": "C16", "title": "Message packet codec", "statement": "A message packet survives serialize/create_from_buffer; create_from_buffer only accepts versions 2 to 4, the P-521/SHA-512 signature trailer and non-empty content, and never reads outside the buffer.", "quantifier": "every packet and every byte string", "why_tests_cant": "all byte strings", "anchors": ["src/wickrcrypto/src/protocol.c:wickr_packet_serialize", "src/wickrcrypto/src/protocol.c:wickr_packet_create_from_buffer"]}
{"id": "C17", "title": "Wire messages survive the protobuf codec", "statement": "For every message type the library exchanges or stores, unpacking the packed bytes returns the same message, and unpacking is total: any byte string yields a message or a clean failure.", "quantifier": "every message value and every byte string", "why_tests_cant": "all messages, unbounded repeated fields", "anchors": ["src/protobuf/*.proto", "src/wickrcrypto/src/key_exchange.c", "src/wickrcrypto/src/identity_priv.c", "src/wickrcrypto/src/payload.c", "src/wickrcrypto/src/root_keys.c", "src/wickrcrypto/src/storage_priv.c", "src/wickrcrypto/src/stream_key_priv.c", "src/wickrcrypto/src/transport_root_key_priv.c", "src/wickrcrypto/src/transport_handshake_priv.c", "src/wickrcrypto/src/ephemeral_keypair_priv.c", "src/wickrcrypto/src/node_priv.c"]}
{"id": "C18", "title": "Stream decoder never accepts a sequence number twice", "statement": "Across any sequence of calls, the sequence numbers for which wickr_stream_ctx_decode (or _encode) returns data are strictly increasing; in particular no number is accepted twice and 0 is never accepted.", "quantifier": "every history of calls with every 64-bit sequence number and arbitrary ciphertexts", "why_tests_cant": "histories are unbounded", "anchors": ["src/wickrcrypto/src/stream_ctx.c:wickr_stream_ctx_decode", "src/wickrcrypto/src/stream_ctx.c:wickr_stream_ctx_encode"]}
{"id": "C19", "title": "Key evolution depends only on the sequence number", "statement": "After any history of accepted or lost packets, the key a stream context uses for sequence number s is the initial key evolved floor(s / packets_per_evolution) times; hence encoder and decoder use the same key for the same packet whatever was lost in between.", "quantifier": "every history, loss pattern, sequence number and packets_per_evolution in 1..32768", "why_tests_cant": "loss patterns are exponential and histories unbounded", "anchors": ["src/wickrcrypto/src/stream_ctx.c:__wickr_stream_ctx_evolove_key_material"]}
{"id": "C20", "title": "Stream delivery is a subsequence of what was sent", "statement": "If the cipher is unforgeable, then for every adversarial network schedule (drop, duplicate, reorder, modify, inject) the list of plaintexts delivered by the decoder is a subsequence, in order and without duplicates, of the list of plaintexts encoded by the peer.", "quantifier": "every adversary schedule and every list of messages", "why_tests_cant": "schedules are unbounded", "anchors": ["src/wickrcrypto/src/stream_ctx.c", "src/wickrcrypto/src/transport_ctx.c:wickr_transport_ctx_process_rx_buffer"]}
{"id": "C21", "title": "A stream never reuses an IV input", "statement": "All IVs generated during the lifetime of one encoding context come from distinct counter values of one secret seed, so with a collision-free PRF they are pairwise distinct for up to 2^64 packets.", "quantifier": "every history of encode calls", "why_tests_cant": "needs 2^64 calls / all histories", "anchors": ["src/wickrcrypto/src/stream_iv.c:wickr_stream_iv_generate", "src/wickrcrypto/src/stream_ctx.c:wickr_stream_ctx_encode"]}
{"id": "C22", "title": "Copying a context does not endanger confidentiality", "statement": "A copy of a stream context may be used independently of the original without two packets being encrypted under the same key and IV.", "quantifier": "every history of copy and encode operations", "why_tests_cant": "needs reasoning over joint histories", "anchors": ["src/wickrcrypto/src/stream_ctx.c:wickr_stream_ctx_copy", "src/wickrcrypto/src/stream_iv.c:wickr_stream_iv_copy"]}
{"id": "C23", "title": "A rejected packet leaves the receiver able to continue", "statement": "A packet that fails authentication does not change which later genuine packets the stream decoder will accept.", "quantifier": "every decoder state and every forged packet", "why_tests_cant": "all states and forged packets", "anchors": ["src/wickrcrypto/src/stream_ctx.c:wickr_stream_ctx_decode"]}
{"id": "C24", "title": "Sequence numbers never wrap", "statement": "A transport context never sends two data packets with the same sequence number: after 2^64-1 packets it reports an error instead of wrapping around.", "quantifier": "every history of sends, including ones longer than 2^64", "why_tests_cant": "cannot run 2^64 sends", "anchors": ["src/wickrcrypto/src/transport_ctx.c:__wickr_transport_ctx_encode_pkt"]}
{"id": "C25", "title": "A failed or completed handshake stays so", "statement": "Once a handshake has failed, no sequence of start/process/verify/finalize calls ever makes it yield keys; and a handshake yields keys at most once in its life.", "quantifier": "every sequence of API calls with arbitrary packets", "why_tests_cant": "histories are unbounded", "anchors": ["src/wickrcrypto/src/transport_handshake.c"]}
{"id": "C26", "title": "No keys before the peer is authenticated", "statement": "A handshake yields keys only if some packet was verified as signed under a valid identity chain that is either the preconfigured remote identity or one the user explicitly accepted through the identity callback.", "quantifier": "every sequence of API calls with arbitrary packets and engines", "why_tests_cant": "histories and packets are unbounded", "anchors": ["src/wickrcrypto/src/transport_handshake.c:wickr_transport_handshake_process", "src/wickrcrypto/src/transport_handshake.c:wickr_transport_handshake_verify_identity", "src/wickrcrypto/src/transport_handshake.c:wickr_transport_handshake_finalize"]}
{"id": "C27", "title": "A pinned peer cannot be replaced", "statement": "If the handshake was created with a remote identity, that identity never changes and every packet that lets the handshake progress verifies under it, whatever chain the packet carries.", "quantifier": "every packet and history", "why_tests_cant": "all packets", "anchors": ["src/wickrcrypto/src/transport_handshake.c:__wickr_transport_handshake_process_remote_identity"]}
{"id": "C28", "title": "Honest handshake gives both sides mirrored keys, and only sides that agree on both identities share any", "statement": "When two parties run the handshake over a faithful network, the initiator's sending key is the responder's receiving key and vice versa, for every lawful crypto engine, identities, evolution counts and identity-verification modes. Conversely, an initiator that goes on with a response containing what a responder has encrypted, whoever sends and signs it, agrees with that responder on both identities, both ephemeral keys and the shared secret, unless a primitive fails on exactly these values; and two handshakes with a key in common have the same transcript and root secret and use the key for the same direction, so that mirrored keys mean opposite roles and no side sends and receives with one key.", "quantifier": "every lawful engine, all identities and random choices; for agreement every engine, every state of either side and every packet", "why_tests_cant": "all keys, identities and attackers in between", "anchors": ["src/wickrcrypto/src/transport_handshake.c:wickr_transport_handshake_finalize", "src/wickrcrypto/src/transport_root_key.c:wickr_transport_root_key_to_stream_key", "src/wickrcrypto/src/transport_handshake.c:__wickr_transport_handshake_kdf_meta_gen", "src/wickrcrypto/src/transport_handshake.c:wickr_transport_handshake_process"]}
{"id": "C29", "title": "Application data only flows on an established channel", "statement": "The rx callback only ever receives data that the receive stream authenticated; user data handed to process_tx_buffer never leaves through the tx callback unless the context was active, and then only as the cipher text of the send stream.", "quantifier": "every history of start/rx/tx/identity-decision events with arbitrary buffers", "why_tests_cant": "histories are unbounded", "anchors": ["src/wickrcrypto/src/transport_ctx.c:wickr_transport_ctx_process_rx_buffer", "src/wickrcrypto/src/transport_ctx.c:wickr_transport_ctx_process_tx_buffer"]}
{"id": "C30", "title": "Status callbacks report exactly the status changes", "statement": "The on_state callback is invoked exactly when the status changes, with the new status; so the list of callbacks determines the status at any time.", "quantifier": "every history", "why_tests_cant": "histories are unbounded", "anchors": ["src/wickrcrypto/src/transport_ctx.c:__wickr_transport_ctx_update_status"]}
{"id": "C31", "title": "The error state is final", "statement": "After the transport context enters TRANSPORT_STATUS_ERROR (documented as 'communication is no longer possible') it never becomes active again.", "quantifier": "every history", "why_tests_cant": "histories are unbounded", "anchors": ["src/wickrcrypto/src/transport_ctx.c"]}
{"id": "C32", "title": "A failed handshake is always reported", "statement": "Whenever the context gives up on a pending handshake without becoming active, it enters the error state, so the user is told.", "quantifier": "every peer response, including hostile authenticated ones", "why_tests_cant": "all responses", "anchors": ["src/wickrcrypto/src/transport_ctx.c:__wickr_transport_ctx_finalize_handshake"]}
{"id": "C33", "title": "An active context has both streams", "statement": "Whenever the status is ACTIVE both stream contexts exist, in the right directions, with authenticated ciphers, and no handshake is pending.", "quantifier": "every history", "why_tests_cant": "histories are unbounded", "anchors": ["src/wickrcrypto/src/transport_ctx.c:__wickr_transport_ctx_finalize_handshake"]}
{"id": "C34", "title": "End-to-end transport delivery", "statement": "After an honest handshake, any data sent by one side and fed, in order and possibly with losses, to the other side is delivered unchanged, across any number of key evolutions and in both directions. The first packet of a started context, replayed to any responding context that accepts its sender, makes that context ACTIVE.", "quantifier": "every message list, loss pattern and evolution count", "why_tests_cant": "unbounded", "anchors": ["src/wickrcrypto/src/transport_ctx.c", "src/wickrcrypto/src/stream_ctx.c"]}
{"id": "C35", "title": "Message round trip for every recipient", "statement": "For every packet version 2..4, every payload and every non-empty list of valid recipients, the packet created for them is parsed and decrypted by each recipient (found by its node id) to the same payload.", "quantifier": "every recipient list, payload, version and lawful engine", "why_tests_cant": "recipient lists are unbounded", "anchors": ["src/wickrcrypto/src/protocol.c:wickr_packet_create_from_components", "src/wickrcrypto/src/protocol.c:wickr_parse_result_from_packet", "src/wickrcrypto/src/protocol.c:wickr_decode_result_from_parse_result"]}
{"id": "C36", "title": "Non-recipients are told so", "statement": "A node whose identifier is not among the recipients gets ERROR_NODE_NOT_FOUND and no plaintext.", "quantifier": "every recipient list and node id", "why_tests_cant": "all lists", "anchors": ["src/wickrcrypto/src/protocol.c:wickr_parse_result_from_packet", "src/wickrcrypto/src/key_exchange.c:wickr_key_exchange_set_find"]}
{"id": "C37", "title": "No content is interpreted before its signature is checked", "statement": "parse/decode succeed, and return any field of the packet, only if the sender's node key verified the signature over the packet content; a wrong signature always gives ERROR_MAC_INVALID with status INVALID. A copy of a parse result or of a decode result the library made equals it.", "quantifier": "every packet, sender identity and engine", "why_tests_cant": "all packets", "anchors": ["src/wickrcrypto/src/protocol.c:wickr_parse_result_from_packet", "src/wickrcrypto/src/protocol.c:wickr_parse_result_copy", "src/wickrcrypto/src/protocol.c:wickr_decode_result_copy"]}
{"id": "C38", "title": "Packets are only created for verified recipients", "statement": "Packet creation fails unless every recipient node's signature chain verifies, and a created packet contains exactly one key exchange per recipient, in order.", "quantifier": "every recipient list", "why_tests_cant": "all lists", "anchors": ["src/wickrcrypto/src/protocol.c:__wickr_recipients_validate", "src/wickrcrypto/src/protocol.c:wickr_packet_create_from_components"]}
{"id": "C39", "title": "The whole serialized packet is authenticated", "statement": "Changing any byte of a serialized packet makes it unparseable or its signature invalid.", "quantifier": "every packet and every modification", "why_tests_cant": "all modifications", "anchors": ["src/wickrcrypto/src/protocol.c:wickr_packet_create_from_buffer", "src/wickrcrypto/src/protocol.c:wickr_packet_serialize"]}
{"id": "C40", "title": "Key exchange lookup", "statement": "wickr_key_exchange_set_find returns the first exchange whose identifier equals the given id, and NULL exactly if there is none; the set survives its codec with order and count preserved.", "quantifier": "every exchange set", "why_tests_cant": "all sets", "anchors": ["src/wickrcrypto/src/key_exchange.c:wickr_key_exchange_set_find"]}
{"id": "C41", "title": "Payload round trip", "statement": "A payload (metadata and body) survives serialization; all metadata values are preserved.", "quantifier": "every payload", "why_tests_cant": "all payloads", "anchors": ["src/wickrcrypto/src/payload.c:wickr_payload_serialize", "src/wickrcrypto/src/payload.c:wickr_payload_create_from_buffer"]}
{"id": "C42", "title": "Identity-chain validation caching is transparent", "statement": "After any history of validations, copies and status changes of a chain whose keys and signature are not modified, wickr_identity_chain_validate returns exactly what a fresh signature verification would return. The answer depends on the keys and the signature alone: identifiers and types are not certified, nor is the role of a key, so that a message key accepted from a device is accepted as a device under a root with that device's key.", "quantifier": "every history and chain", "why_tests_cant": "histories are unbounded", "anchors": ["src/wickrcrypto/src/identity.c:wickr_identity_chain_validate", "src/wickrcrypto/src/identity_priv.c:wickr_identity_chain_has_valid_cache", "src/wickrcrypto/src/ephemeral_keypair.c:wickr_ephemeral_keypair_verify_owner"]}
{"id": "C43", "title": "Node validation caching is transparent", "statement": "After any history of changes to a node (key rotation, identity chain replacement) wickr_node_verify_signature_chain returns exactly what a fresh verification of chain and ephemeral key would return.", "quantifier": "every history and node", "why_tests_cant": "histories are unbounded", "anchors": ["src/wickrcrypto/src/node.c:wickr_node_verify_signature_chain", "src/wickrcrypto/src/node_priv.c:wickr_node_has_valid_cache"]}
{"id": "C44", "title": "Identity serialization preserves identities and leaks no private key", "statement": "Public serialization of identities, chains, nodes and ephemeral keypairs depends only on public data, and parsing gives back identifier, type, public key and signature.", "quantifier": "every identity and chain", "why_tests_cant": "all identities", "anchors": ["src/wickrcrypto/src/identity_priv.c", "src/wickrcrypto/src/node_priv.c", "src/wickrcrypto/src/ephemeral_keypair_priv.c"]}
{"id": "C45", "title": "Fingerprints are symmetric", "statement": "The bilateral fingerprint of two identities is the same whichever party computes it; its short form is a prefix of its long form. A copy of a fingerprint equals it.", "quantifier": "every pair of identities and engine", "why_tests_cant": "all pairs", "anchors": ["src/wickrcrypto/src/fingerprint.c:wickr_fingerprint_gen_bilateral", "src/wickrcrypto/src/fingerprint.c:wickr_fingerprint_get_b32", "src/wickrcrypto/src/fingerprint.c:wickr_fingerprint_copy"]}
{"id": "C46", "title": "ECDH encryption agrees between the two ends", "statement": "What one end of wickr_ecdh_cipher_ctx encrypts to the other's public key with given KDF parameters the other end decrypts, for every cipher and digest size; different cipher ids are refused. A copy of a context encrypts and decrypts as the original.", "quantifier": "every key pair, plaintext and KDF parameter", "why_tests_cant": "all", "anchors": ["src/wickrcrypto/src/ecdh_cipher_ctx.c", "src/wickrcrypto/src/ecdh_cipher_ctx.c:wickr_ecdh_cipher_ctx_copy"]}
{"id": "C47", "title": "Passphrase-encrypted exports round trip and reject malformed input", "statement": "wickr_crypto_engine_kdf_decipher(kdf_cipher(x,p),p)=x for every scrypt parameter set; only authenticated ciphers are accepted on decryption; every malformed input is refused.", "quantifier": "every plaintext, passphrase and byte string", "why_tests_cant": "all", "anchors": ["src/wickrcrypto/src/crypto_engine.c:wickr_crypto_engine_kdf_cipher", "src/wickrcrypto/src/crypto_engine.c:wickr_crypto_engine_kdf_decipher"]}
{"id": "C48", "title": "Context and key storage survive serialization", "statement": "Root keys, storage keys and wickr contexts survive serialize/create_from_buffer and export/import.", "quantifier": "every value", "why_tests_cant": "all values", "anchors": ["src/wickrcrypto/src/root_keys.c", "src/wickrcrypto/src/storage_priv.c", "src/wickrcrypto/src/wickr_ctx.c"]}
{"id": "C49", "title": "Remote storage key is device independent, local key is device bound", "statement": "Localizing the same root keys on any two devices gives the same remote storage key, and the local key is a function of root key and the device's system salt only.", "quantifier": "every root key set and device", "why_tests_cant": "all devices", "anchors": ["src/wickrcrypto/src/root_keys.c:wickr_root_keys_localize", "src/wickrcrypto/src/devinfo.c:wickr_dev_info_derive"]}
{"id": "C50", "title": "File encryption round trip for every file size", "statement": "Encrypting a file of any size and decrypting it gives the same bytes and the stored header is the one of the one-shot encryption of the whole content; chunking is not observable. Whatever the allocator does, decryption answers true only if the file opens, with all of its content written, and encryption answers true only for the whole encryption of the content, but for the tag if an allocation failed.", "quantifier": "every file content (any length, chunk boundary cases)", "why_tests_cant": "files are unbounded", "anchors": ["src/wickrcrypto/src/openssl_suite.c:openssl_encrypt_file", "src/wickrcrypto/src/openssl_suite.c:openssl_decrypt_file"]}
{"id": "C51", "title": "File operations are atomic with respect to the destination", "statement": "At every crash point, and after every failure, the destination path holds either its previous content or the complete new content; a decryption that fails authentication never changes the destination. This holds whatever the allocator does, but for the tag of an encrypted file if an allocation failed.", "quantifier": "every file system state and every crash point", "why_tests_cant": "crash points cannot be enumerated by unit tests", "anchors": ["src/wickrcrypto/src/openssl_file_suite.c"]}
{"id": "C52", "title": "The AES layer refuses inconsistent parameters", "statement": "Decryption returns plaintext only if the key's cipher is the result's cipher, the tag has the right length, an authenticated cipher was used whenever authentication is demanded or AAD is given.", "quantifier": "every result/key/AAD combination", "why_tests_cant": "all combinations", "anchors": ["src/wickrcrypto/src/openssl_suite.c:openssl_aes256_decrypt", "src/wickrcrypto/src/openssl_suite.c:openssl_aes256_encrypt"]}
{"id": "C53", "title": "Reference counting frees a stream context exactly once", "statement": "After n ref_ups a stream context is released exactly by the (n+1)-th destroy, never earlier, for every interleaving.", "quantifier": "every interleaving of ref_up and destroy", "why_tests_cant": "histories are unbounded", "anchors": ["src/wickrcrypto/src/stream_ctx.c:wickr_stream_ctx_ref_up", "src/wickrcrypto/src/stream_ctx.c:wickr_stream_ctx_destroy"]}
{"id": "C54", "title": "A packet costs bounded work before it is authenticated", "statement": "The work done for a received data packet before its authentication is bounded independently of attacker-chosen fields.", "quantifier": "every packet", "why_tests_cant": "adversarial values up to 2^64", "anchors": ["src/wickrcrypto/src/stream_ctx.c:__wickr_stream_ctx_evolove_key_material"]}
{"id": "C55", "title": "HMAC verification accepts exactly the right tag", "statement": "The engine's HMAC verification returns true exactly when the supplied tag equals the HMAC of the data under the key; a NULL, truncated or extended tag is refused.", "quantifier": "every data, key, digest and tag", "why_tests_cant": "a test tries a few wrong tags; truncations and extensions of every length must be refused", "anchors": ["src/wickrcrypto/src/openssl_suite.c:openssl_hmac_create", "src/wickrcrypto/src/openssl_suite.c:openssl_hmac_verify"]}
{"id": "C56", "title": "The default engine meets the contract of the engine interface", "statement": "Provided the raw OpenSSL primitives are functionally correct, the functions of the default crypto engine satisfy all contracts the rest of the library relies on: decryption inverts encryption, own signatures verify under the public half, Diffie-Hellman commutes, outputs have the documented sizes, generated keys survive export and import, and keys at infinity or on other curves are refused.", "quantifier": "every plaintext, key, AAD, digest, KDF parameter and key encoding", "why_tests_cant": "the contract ranges over all sizes and parameter combinations", "anchors": ["src/wickrcrypto/src/openssl_suite.c", "src/wickrcrypto/src/kdf.c:wickr_perform_kdf_meta", "src/wickrcrypto/src/crypto_engine.c:wickr_crypto_engine_get_default"]}
{"id": "C57", "title": "Stream keys survive serialization and copying", "statement": "For every valid stream key (authenticated cipher key, evolution key, packets per evolution in 1..32768, optional user data) wickr_stream_key_serialize followed by wickr_stream_key_create_from_buffer gives the same key back, wickr_stream_key_copy is exact, and no byte string parses to a key whose packets-per-evolution value is outside 1..32768 or whose cipher key has the wrong length.", "quantifier": "every valid stream key of any size, and every input byte string", "why_tests_cant": "The codec composes a hand-written cipher key format with a protobuf message; only a proof covers every combination of sizes and every malformed input.", "anchors": ["src/wickrcrypto/src/stream_key.c: wickr_stream_key_serialize, wickr_stream_key_create_from_buffer, wickr_stream_key_copy", "src/wickrcrypto/src/stream_key_priv.c: wickr_stream_key_to_proto, wickr_stream_key_create_from_proto"]}
{"id": "C58", "title": "A handshake message of the wrong kind is rejected", "statement": "Feeding wickr_transport_handshake_process a well-formed handshake message of the other kind (a response where the first message is expected, a first message where a response is expected, including the initiator's own one sent back to it) makes the handshake fail cleanly, without undefined behaviour.", "quantifier": "every handshake state and every packet", "why_tests_cant": "Tests drive the handshake with the messages it expects; the space of states times attacker-chosen messages is unbounded, and a wrong-kind message is only dangerous through the memory layout of a C union.", "anchors": ["src/wickrcrypto/src/transport_handshake.c: wickr_transport_handshake_process, __wickr_transport_handshake_process_initial, __wickr_transport_handshake_process_response", "src/protobuf/gen/stream.pb-c.h: _Wickr__Proto__HandshakeV1"]}
{"id": "C59", "title": "An active transport has an authenticated peer", "statement": "Whenever a transport context has reported TRANSPORT_STATUS_ACTIVE, or has sent or delivered any data, its peer was authenticated: with a configured remote identity, a packet fed in carries a valid signature under that identity; without one, a packet fed in carries a valid signature under an identity chain the application was asked about, and the application accepted an identity no earlier than being asked. With a configured remote identity the application is never asked.", "quantifier": "every history of calls, with arbitrary packets fed in and arbitrary decisions, synchronous or delayed", "why_tests_cant": "the guarantee has to hold for every adversarial interleaving of packets, copies, starts and decisions", "anchors": ["src/wickrcrypto/src/transport_ctx.c", "src/wickrcrypto/src/transport_handshake.c"]}
{"id": "C60", "title": "An identity decision is taken for the question it answers", "statement": "A transport context only becomes active if the application has decided every identity question it was asked; a decision made for one identity is never applied to another one asked about later.", "quantifier": "every history of calls, with decisions that may arrive at any later time", "why_tests_cant": "needs interleavings of several handshakes with delayed decisions", "anchors": ["src/wickrcrypto/src/transport_ctx.c:wickr_transport_ctx_start", "src/wickrcrypto/src/transport_ctx.c:__wickr_transport_validate_identity_complete"]}
{"id": "C61", "title": "Creating a message packet never goes undefined", "statement": "Encoding a payload with a context gives a packet or NULL, never undefined behaviour.", "quantifier": "every context, payload, recipient list, key and IV of legal size", "why_tests_cant": "the failing sizes are within a few bytes of 2 GiB and depend on the cipher; recipient lists are unbounded", "anchors": ["src/wickrcrypto/src/wickr_ctx.c:wickr_ctx_encode", "src/wickrcrypto/src/protocol.c:wickr_packet_create_from_components"]}
{"id": "C62", "title": "Fingerprint texts are C strings", "statement": "wickr_fingerprint_get_b32 and wickr_fingerprint_get_hex return text followed by a NUL inside the returned object, in short and long form, as documented.", "quantifier": "every fingerprint and output mode", "why_tests_cant": "memory after an exactly-sized object usually happens to be zero, so tests pass", "anchors": ["src/wickrcrypto/src/fingerprint.c:__wickr_fingerprint_encode_for_output_mode", "src/wickrcrypto/src/b32.c:base32_encode"]}
{"id": "C63", "title": "The whole passphrase matters", "statement": "A passphrase hash is computed from every byte of the passphrase, with the documented cost parameters.", "quantifier": "every passphrase and salt", "why_tests_cant": "passphrases with embedded NUL bytes, and equal hashes of different passphrases, are not looked for by tests", "anchors": ["src/wickrcrypto/src/kdf.c:__bcrypt_generate_hash", "src/wickrcrypto/src/kdf.c:__scrypt_generate_hash"]}
{"id": "C64", "title": "Generated contexts are genuine", "statement": "Generating a context from root keys gives a context whose node key is signed by its root key, whose chain status is valid, whose root identity is the account's, whose storage keys are the root keys localized to the device, and which can send messages; identifiers that are empty or too long and incomplete device information are refused.", "quantifier": "every root key set, device, identifier and random choice", "why_tests_cant": "all random choices", "anchors": ["src/wickrcrypto/src/wickr_ctx.c:wickr_ctx_gen_with_root_keys", "src/wickrcrypto/src/wickr_ctx.c:wickr_ctx_gen_new"]}
{"id": "C65", "title": "Recovery never goes undefined", "statement": "Restoring an account from recovery data with a key or passphrase gives a context or NULL, never undefined behaviour.", "quantifier": "every device, recovery data, key, passphrase and identifier", "why_tests_cant": "the failing inputs are combinations of valid recovery data with unusual identifiers or devices", "anchors": ["src/wickrcrypto/src/wickr_ctx.c:wickr_ctx_gen_with_recovery", "src/wickrcrypto/src/wickr_ctx.c:wickr_ctx_gen_with_passphrase"]}
{"id": "C66", "title": "A copy of a context equals the original", "statement": "wickr_ctx_copy gives an equal context, including validation status and packet version, and is never undefined.", "quantifier": "every context", "why_tests_cant": "all contexts", "anchors": ["src/wickrcrypto/src/wickr_ctx.c:wickr_ctx_copy"]}
{"id": "C67", "title": "An account can be recovered on another device", "statement": "Recovery data and the passphrase-protected recovery key of an account restore, on any other device, a context with the same root identity and root keys; both devices read each other's remote storage.", "quantifier": "every account, pair of devices, passphrase and random choice", "why_tests_cant": "all of them", "anchors": ["src/wickrcrypto/src/wickr_ctx.c:wickr_ctx_gen_with_passphrase", "src/wickrcrypto/src/wickr_ctx.c:wickr_ctx_gen_result_make_recovery", "src/wickrcrypto/src/wickr_ctx.c:wickr_ctx_gen_export_recovery_key_passphrase"]}
{"id": "C68", "title": "Read errors are reported", "statement": "A file operation whose source cannot be read completely reports failure and does not change the destination.", "quantifier": "every content, every position of the error, every key", "why_tests_cant": "read errors do not occur in tests", "anchors": ["src/wickrcrypto/src/openssl_suite.c:openssl_encrypt_file", "src/wickrcrypto/src/openssl_suite.c:openssl_decrypt_file", "src/wickrcrypto/src/openssl_file_suite.c"]}
{"id": "C69", "title": "File operations change no other file", "statement": "During and after a file operation every file other than the destination has the content it had before.", "quantifier": "every file system state, every pair of paths, every environment behaviour, every intermediate state", "why_tests_cant": "the collision of names is not among the tested paths", "anchors": ["src/wickrcrypto/src/openssl_file_suite.c"]}
{"id": "C70", "title": "Decryption releases no unauthenticated plaintext", "statement": "A file decryption that fails authentication has not delivered any plaintext to its caller or to the destination.", "quantifier": "every forged file", "why_tests_cant": "tests only look at the result value", "anchors": ["src/wickrcrypto/src/openssl_suite.c:openssl_decrypt_file", "src/wickrcrypto/src/openssl_file_suite.c"]}
{"id": "C71", "title": "File digests equal digests of the whole content", "statement": "The digest of a file is the digest of all its bytes, whatever its size, and a read error gives no digest.", "quantifier": "every content, every digest algorithm", "why_tests_cant": "files are unbounded", "anchors": ["src/wickrcrypto/src/openssl_suite.c:openssl_sha2_file"]}
{"id": "C72", "title": "A key exchange is sealed under exactly the documented key", "statement": "For versions 2, 3 and 4 only, an exchange for a node holds the node's identifier, the identifier of its ephemeral key and the data encrypted under a 32 byte key: HKDF (SHA-256 in versions 2 and 3, SHA-512 in version 4) of the ECDH secret between the exchange key and the node's ephemeral key, with the pre-shared key as salt and, as context, the device id (version 2) or sender root key, receiver root key and device id. Reading computes the same key from the other side, so data sent with a psk is read with the same psk, roots and device; from version 3 on the context determines the roots and the device. Whoever gets the data from the ciphertext of an exchange agrees with its maker on shared secret, pre-shared key and version, and from version 3 on on both root keys and the device, unless a primitive fails on exactly these values; so from version 3 on nobody with another root key can pass a message off as their own, while in version 2 anybody can.", "quantifier": "every engine, chain, node, exchange key, data, cipher, psk, version and IV", "why_tests_cant": "A round trip test passes just as well if both ends drop the psk, the roots or the device id from the derivation, and a test vector covers one version and one set of keys.", "anchors": ["src/wickrcrypto/src/protocol.c: wickr_key_exchange_create_with_data, wickr_key_exchange_derive_data", "src/wickrcrypto/src/ecdh_cipher_ctx.c: wickr_ecdh_cipher_ctx_cipher"]}
{"id": "C73", "title": "The composition of a packet", "statement": "Whenever a packet is created, it holds one exchange of the packet key per recipient, in order, each sealed with its own IV; these and the public exchange key are encrypted under the header key with the header IV, the payload under the packet key with the payload IV; the signature is made by the sender's node key with SHA-512 over exactly the content; the version is the one asked for.", "quantifier": "every engine, header and packet key, exchange key, payload, recipient list, sender, version and random values", "why_tests_cant": "Tests see packets only through the library's own parser, so a shared mistake (the same IV for all exchanges, a signature over part of the content, a payload under the header key) goes unnoticed.", "anchors": ["src/wickrcrypto/src/protocol.c: wickr_packet_create_from_components, wickr_packet_create_with_components"]}
{"id": "C74", "title": "The header key is public information", "statement": "The key that protects a packet header is the SHA-256 of the sender's root identifier and node identifier: anyone who knows these two identifiers, and no key at all, derives it.", "quantifier": "every chain, cipher and engine", "why_tests_cant": "That a value depends on nothing else is a statement over all chains with the same identifiers.", "anchors": ["src/wickrcrypto/src/wickr_ctx.c: __wickr_ctx_gen_header_key"]}
{"id": "C75", "title": "Local and remote data use their own storage keys and must be authenticated", "statement": "Data encrypted for local (remote) storage is encrypted under the context's local (remote) key and read back; nothing is ever read that is not an authenticated cipher text under that key.", "quantifier": "every lawful engine, context, plaintext, IV and cipher result", "why_tests_cant": "Tests encrypt and decrypt with one context and a few plaintexts; using the other key on both sides passes them.", "anchors": ["src/wickrcrypto/src/wickr_ctx.c: wickr_ctx_cipher_local, wickr_ctx_decipher_local, wickr_ctx_cipher_remote, wickr_ctx_decipher_remote"]}
{"id": "C76", "title": "Generated accounts can write to each other knowing only published bytes", "statement": "For any two contexts generated on any devices: the receiver can always make an ephemeral key pair, the node it publishes (serialized, without private keys) verifies for whoever reads it, and what the sender encodes for that node is parsed with a valid signature and decoded to the same payload and key by the receiver, who knows the sender's serialized public chain only.", "quantifier": "every lawful engine, pair of devices, root keys, account identifiers, random values and payload", "why_tests_cant": "An end to end test runs one combination of keys and identifiers; the claim is for all of them and for every primitive implementation that is functionally correct.", "anchors": ["src/wickrcrypto/src/wickr_ctx.c: wickr_ctx_gen_new, wickr_ctx_ephemeral_keypair_gen, wickr_ctx_encode_packet, wickr_ctx_parse_packet, wickr_ctx_decode_packet", "src/wickrcrypto/src/node.c: wickr_node_serialize, wickr_node_create_from_buffer", "src/wickrcrypto/src/identity.c: wickr_identity_chain_serialize"]}
{"id": "C77", "title": "Raw signatures stand for the same pair of numbers", "statement": "Converting a signature to its fixed length raw form gives 132 bytes holding exactly the two numbers of the signature; converting back gives the same signature; every 132 byte string converts to a signature object that can be serialized and converts back to itself; every other length is refused. A signature whose numbers do not fit is not refused but silently changed.", "quantifier": "every signature object (any numbers, curve and digest marks) and every byte string", "why_tests_cant": "The space of pairs of 528 bit numbers cannot be sampled meaningfully; leading zeros, sign octets and length forms only show for rare values.", "anchors": ["src/wickrcrypto/src/openssl_suite.c: openssl_ecdsa_to_raw, openssl_ecdsa_from_raw, __openssl_ecdsa_bn_to_bin"]}
{"id": "C78", "title": "Copies are independent and equal", "statement": "Copying an object never has undefined behaviour, whatever the allocator does; NULL is only dereferenced after an allocation failed; existing memory is untouched; NULL is only returned after an allocation failed; and if none failed the result is an equal object in new memory, besides which nothing new is in memory.", "quantifier": "every heap, every object of these types: buffers, EC keys, signatures, identities, chains, cipher keys, cipher results, ephemeral key pairs, nodes, node arrays, packet metadata, payloads, key exchanges, exchange arrays and sets, packets, encoder, parse and decode results, storage keys, root keys, device information, KDF parameters and results, stream keys, IV factories and contexts, transport root keys, ECDH contexts, fingerprints; every allocator, including ones that fail at any time", "why_tests_cant": "Unit tests copy a few objects with an allocator that succeeds; aliasing between copy and original and stray allocations are invisible to them.", "anchors": ["src/wickrcrypto/src/memory.c, buffer.c, array.c", "src/wickrcrypto/src/eckey.c, ecdsa.c, identity.c, cipher.c, ephemeral_keypair.c, node.c: *_create, *_copy, *_destroy", "src/wickrcrypto/src/packet_meta.c, payload.c, key_exchange.c, protocol.c, encoder_result.c: *_create, *_copy, *_destroy", "src/wickrcrypto/src/storage.c, root_keys.c, devinfo.c, kdf.c, stream_key.c, stream_iv.c, stream_ctx.c, transport_root_key.c, ecdh_cipher_ctx.c: *_create, *_copy, *_destroy", "src/wickrcrypto/src/fingerprint.c: wickr_fingerprint_create, wickr_fingerprint_copy, wickr_fingerprint_destroy"]}
{"id": "C79", "title": "Releasing an object releases exactly it", "statement": "Destroying an object releases each of its blocks once and changes nothing else; destroying a copy brings memory back to what it was before the copy was made, even if allocations failed in between.", "quantifier": "every heap, object and allocator", "why_tests_cant": "Double frees and leaks in rarely taken paths need a failing allocator and a global view of memory.", "anchors": ["src/wickrcrypto/src/memory.c, buffer.c, array.c", "src/wickrcrypto/src/eckey.c, ecdsa.c, identity.c, cipher.c, ephemeral_keypair.c, node.c: *_create, *_copy, *_destroy", "src/wickrcrypto/src/packet_meta.c, payload.c, key_exchange.c, protocol.c, encoder_result.c: *_create, *_copy, *_destroy", "src/wickrcrypto/src/storage.c, root_keys.c, devinfo.c, kdf.c, stream_key.c, stream_iv.c, stream_ctx.c, transport_root_key.c, ecdh_cipher_ctx.c: *_create, *_copy, *_destroy", "src/wickrcrypto/src/wickr_ctx.c: wickr_ctx_destroy, wickr_ctx_gen_result_destroy", "src/wickrcrypto/src/wickr_ctx.c: wickr_ctx_packet_destroy", "src/wickrcrypto/src/fingerprint.c: wickr_fingerprint_create, wickr_fingerprint_copy, wickr_fingerprint_destroy"]}
{"id": "C80", "title": "A copy that fails leaves nothing behind", "statement": "When a copy function returns NULL, memory is what it was before.", "quantifier": "every heap, object and allocator", "why_tests_cant": "Needs an allocation to fail at each possible point.", "anchors": ["src/wickrcrypto/src/memory.c, buffer.c, array.c", "src/wickrcrypto/src/eckey.c, ecdsa.c, identity.c, cipher.c, ephemeral_keypair.c, node.c: *_create, *_copy, *_destroy", "src/wickrcrypto/src/packet_meta.c, payload.c, key_exchange.c, protocol.c, encoder_result.c: *_create, *_copy, *_destroy", "src/wickrcrypto/src/storage.c, root_keys.c, devinfo.c, kdf.c, stream_key.c, stream_iv.c, stream_ctx.c, transport_root_key.c, ecdh_cipher_ctx.c: *_create, *_copy, *_destroy", "src/wickrcrypto/src/fingerprint.c: wickr_fingerprint_create, wickr_fingerprint_copy, wickr_fingerprint_destroy"]}
{"id": "C81", "title": "A copy is never silently incomplete", "statement": "When a copy function returns an object it is equal to the original, even if an allocation failed on the way.", "quantifier": "every heap, object and allocator", "why_tests_cant": "Needs an allocation to fail at each possible point.", "anchors": ["src/wickrcrypto/src/memory.c, buffer.c, array.c", "src/wickrcrypto/src/eckey.c, ecdsa.c, identity.c, cipher.c, ephemeral_keypair.c, node.c: *_create, *_copy, *_destroy", "src/wickrcrypto/src/packet_meta.c, payload.c, key_exchange.c, protocol.c, encoder_result.c: *_create, *_copy, *_destroy", "src/wickrcrypto/src/storage.c, root_keys.c, devinfo.c, kdf.c, stream_key.c, stream_iv.c, stream_ctx.c, transport_root_key.c, ecdh_cipher_ctx.c: *_create, *_copy, *_destroy", "src/wickrcrypto/src/fingerprint.c: wickr_fingerprint_create, wickr_fingerprint_copy, wickr_fingerprint_destroy"]}
{"id": "C82", "title": "Lack of memory is never a crash", "statement": "Copy functions do not dereference NULL, even if an allocation fails.", "quantifier": "every heap, object and allocator", "why_tests_cant": "Needs an allocation to fail at each possible point.", "anchors": ["src/wickrcrypto/src/memory.c, buffer.c, array.c", "src/wickrcrypto/src/eckey.c, ecdsa.c, identity.c, cipher.c, ephemeral_keypair.c, node.c: *_create, *_copy, *_destroy", "src/wickrcrypto/src/packet_meta.c, payload.c, key_exchange.c, protocol.c, encoder_result.c: *_create, *_copy, *_destroy", "src/wickrcrypto/src/storage.c, root_keys.c, devinfo.c, kdf.c, stream_key.c, stream_iv.c, stream_ctx.c, transport_root_key.c, ecdh_cipher_ctx.c: *_create, *_copy, *_destroy", "src/wickrcrypto/src/fingerprint.c: wickr_fingerprint_create, wickr_fingerprint_copy, wickr_fingerprint_destroy"]}
{"id": "C83", "title": "Secrets are wiped before their memory is released", "statement": "Every block of bytes released while copying or destroying an object holds only zeros or a public part of the object (public keys, signatures, identifiers, cipher texts, IVs, tags).", "quantifier": "every heap, object and allocator", "why_tests_cant": "The content of released memory is not observable by a test.", "anchors": ["src/wickrcrypto/src/memory.c, buffer.c, array.c", "src/wickrcrypto/src/eckey.c, ecdsa.c, identity.c, cipher.c, ephemeral_keypair.c, node.c: *_create, *_copy, *_destroy", "src/wickrcrypto/src/packet_meta.c, payload.c, key_exchange.c, protocol.c, encoder_result.c: *_create, *_copy, *_destroy", "src/wickrcrypto/src/storage.c, root_keys.c, devinfo.c, kdf.c, stream_key.c, stream_iv.c, stream_ctx.c, transport_root_key.c, ecdh_cipher_ctx.c: *_create, *_copy, *_destroy", "src/wickrcrypto/src/wickr_ctx.c: wickr_ctx_destroy, wickr_ctx_gen_result_destroy", "src/wickrcrypto/src/wickr_ctx.c: wickr_ctx_packet_destroy"]}
{"id": "C84", "title": "Constructors own their parts only if they succeed", "statement": "A constructor that succeeds returns an object consisting of the given parts and one new block; one that returns NULL for lack of memory leaves the parts with the caller; missing or badly sized parts are refused without touching memory.", "quantifier": "every heap, parts and allocator", "why_tests_cant": "A constructor that kept or released parts on failure would only show with a failing allocator, as a double free or leak in its callers.", "anchors": ["src/wickrcrypto/src/memory.c, buffer.c, array.c", "src/wickrcrypto/src/eckey.c, ecdsa.c, identity.c, cipher.c, ephemeral_keypair.c, node.c: *_create, *_copy, *_destroy", "src/wickrcrypto/src/packet_meta.c, payload.c, key_exchange.c, protocol.c, encoder_result.c: *_create, *_copy, *_destroy", "src/wickrcrypto/src/storage.c, root_keys.c, devinfo.c, kdf.c, stream_key.c, stream_iv.c, stream_ctx.c, transport_root_key.c, ecdh_cipher_ctx.c: *_create, *_copy, *_destroy", "src/wickrcrypto/src/wickr_ctx.c: __wickr_ctx_gen_result_create"]}
{"id": "C85", "title": "Changing the key of a node is memory safe", "statement": "Rotating the key pair of a node releases the old pair, wiped, resets the cached status and installs the new pair (or a copy, leaving the original with the caller); removing a private key wipes and releases exactly it.", "quantifier": "every heap, node, key pair and allocator", "why_tests_cant": "Aliasing of arguments and failure of the inner copy are not exercised by tests.", "anchors": ["src/wickrcrypto/src/node.c: wickr_node_rotate_keypair", "src/wickrcrypto/src/ephemeral_keypair.c: wickr_ephemeral_keypair_make_public"]}
{"id": "C86", "title": "Functions compute their value in memory", "statement": "A function that makes an object out of objects has no undefined behaviour whatever the allocator does, dereferences NULL only after an allocation failed, changes nothing that was in memory, and returns the object the value model says: NULL exactly when there is no value or an allocation failed. If none failed, the result consists of new blocks and nothing else is new in memory. Arguments may share blocks.", "quantifier": "every heap, arguments (also aliased), allocator, engine whose results fit into buffers, random values", "why_tests_cant": "Aliasing, lack of memory and stray allocations are not exercised by tests, and a test sees one heap.", "anchors": ["src/wickrcrypto/src/openssl_suite.c: openssl_crypto_random, openssl_cipher_key_random, openssl_ec_rand_key, openssl_ec_key_import, openssl_sha2, openssl_ec_sign, openssl_aes256_encrypt, openssl_aes256_decrypt, openssl_gen_shared_secret, openssl_hmac_create", "src/wickrcrypto/src/identity.c: wickr_identity_sign, wickr_node_identity_gen", "src/wickrcrypto/src/ephemeral_keypair.c: wickr_ephemeral_keypair_generate_identity", "src/wickrcrypto/src/wickr_ctx.c: wickr_ctx_copy, wickr_ctx_gen_with_root_keys, wickr_ctx_gen_with_recovery, wickr_ctx_cipher_local", "src/wickrcrypto/src/stream_key.c: wickr_stream_key_create_rand, wickr_stream_key_serialize, wickr_stream_key_create_from_buffer", "src/wickrcrypto/src/transport_root_key.c: wickr_transport_root_key_create_random, wickr_transport_root_key_to_stream_key", "src/wickrcrypto/src/payload.c: wickr_payload_serialize, wickr_payload_create_from_buffer, wickr_payload_encrypt, wickr_payload_create_from_cipher", "src/wickrcrypto/src/key_exchange.c: wickr_key_exchange_set_serialize, wickr_key_exchange_set_encrypt, wickr_key_exchange_set_create_from_buffer, wickr_key_exchange_set_create_from_cipher, wickr_key_exchange_set_find", "src/wickrcrypto/src/protocol.c: wickr_packet_create_with_components, wickr_packet_create_from_buffer, wickr_packet_serialize", "src/wickrcrypto/src/ecdsa.c: wickr_ecdsa_result_serialize, wickr_ecdsa_result_create_from_buffer", "src/wickrcrypto/src/protocol.c: wickr_key_exchange_create_with_data, wickr_key_exchange_create_with_packet_key, wickr_key_exchange_derive_data, wickr_key_exchange_derive_packet_key, wickr_parse_result_from_packet, wickr_decode_result_from_parse_result", "src/wickrcrypto/src/wickr_ctx.c: wickr_ctx_parse_packet, wickr_ctx_stateless_parse_packet, wickr_ctx_parse_packet_no_decode, wickr_ctx_decode_packet", "src/wickrcrypto/src/identity.c: wickr_identity_serialize, wickr_identity_create_from_buffer, wickr_identity_chain_serialize, wickr_identity_chain_create_from_buffer", "src/wickrcrypto/src/ephemeral_keypair.c: wickr_ephemeral_keypair_serialize, wickr_ephemeral_keypair_create_from_buffer", "src/wickrcrypto/src/node.c: wickr_node_serialize, wickr_node_create_from_buffer", "src/wickrcrypto/src/storage.c: wickr_storage_keys_serialize, wickr_storage_keys_create_from_buffer", "src/wickrcrypto/src/wickr_ctx.c: wickr_ctx_serialize, wickr_ctx_create_from_buffer, wickr_ctx_export, wickr_ctx_import, wickr_ctx_export_storage_keys, wickr_ctx_import_storage_keys", "src/wickrcrypto/src/transport_packet.c: wickr_transport_packet_serialize, wickr_transport_packet_create_from_buffer, wickr_transport_packet_copy", "src/wickrcrypto/src/util.c: getHexStringFromData, getDataFromHexString", "src/wickrcrypto/src/util.c: getBase64FromData, getDataFromBase64", "src/wickrcrypto/src/b32.c: base32_encode, base32_decode", "src/wickrcrypto/src/fingerprint.c: wickr_fingerprint_gen, wickr_fingerprint_gen_bilateral, wickr_fingerprint_get_b32, wickr_fingerprint_get_hex", "src/wickrcrypto/src/identity.c: wickr_identity_get_fingerprint, wickr_identity_get_bilateral_fingerprint", "src/wickrcrypto/src/eckey.c: wickr_ec_key_get_pubdata_fixed_len", "src/wickrcrypto/src/openssl_suite.c: openssl_ecdsa_to_raw, openssl_ecdsa_from_raw, openssl_hmac_verify", "src/wickrcrypto/src/openssl_suite.c: openssl_encrypt_file, openssl_decrypt_file, openssl_sha2_file", "src/wickrcrypto/src/openssl_file_suite.c: openssl_aes256_file_encrypt, openssl_aes256_file_decrypt"]}
{"id": "C87", "title": "A call that fails leaves nothing behind", "statement": "When such a function returns NULL memory is what it was before, and when it returns an object only that object is new, even if allocations failed.", "quantifier": "every heap, arguments, allocator and engine", "why_tests_cant": "Needs an allocation to fail at each possible point.", "anchors": ["src/wickrcrypto/src/openssl_suite.c: openssl_crypto_random, openssl_cipher_key_random, openssl_ec_rand_key, openssl_ec_key_import, openssl_sha2, openssl_ec_sign, openssl_aes256_encrypt, openssl_aes256_decrypt, openssl_gen_shared_secret, openssl_hmac_create", "src/wickrcrypto/src/identity.c: wickr_identity_sign, wickr_node_identity_gen", "src/wickrcrypto/src/ephemeral_keypair.c: wickr_ephemeral_keypair_generate_identity", "src/wickrcrypto/src/wickr_ctx.c: wickr_ctx_copy, wickr_ctx_gen_with_root_keys, wickr_ctx_gen_with_recovery, wickr_ctx_cipher_local", "src/wickrcrypto/src/stream_key.c: wickr_stream_key_create_rand, wickr_stream_key_serialize, wickr_stream_key_create_from_buffer", "src/wickrcrypto/src/transport_root_key.c: wickr_transport_root_key_create_random, wickr_transport_root_key_to_stream_key", "src/wickrcrypto/src/payload.c: wickr_payload_serialize, wickr_payload_create_from_buffer, wickr_payload_encrypt, wickr_payload_create_from_cipher", "src/wickrcrypto/src/key_exchange.c: wickr_key_exchange_set_serialize, wickr_key_exchange_set_encrypt, wickr_key_exchange_set_create_from_buffer, wickr_key_exchange_set_create_from_cipher, wickr_key_exchange_set_find", "src/wickrcrypto/src/protocol.c: wickr_packet_create_with_components, wickr_packet_create_from_buffer, wickr_packet_serialize", "src/wickrcrypto/src/ecdsa.c: wickr_ecdsa_result_serialize, wickr_ecdsa_result_create_from_buffer", "src/wickrcrypto/src/protocol.c: wickr_key_exchange_create_with_data, wickr_key_exchange_create_with_packet_key, wickr_key_exchange_derive_data, wickr_key_exchange_derive_packet_key, wickr_parse_result_from_packet, wickr_decode_result_from_parse_result", "src/wickrcrypto/src/wickr_ctx.c: wickr_ctx_parse_packet, wickr_ctx_stateless_parse_packet, wickr_ctx_parse_packet_no_decode, wickr_ctx_decode_packet", "src/wickrcrypto/src/identity.c: wickr_identity_serialize, wickr_identity_create_from_buffer, wickr_identity_chain_serialize, wickr_identity_chain_create_from_buffer", "src/wickrcrypto/src/ephemeral_keypair.c: wickr_ephemeral_keypair_serialize, wickr_ephemeral_keypair_create_from_buffer", "src/wickrcrypto/src/node.c: wickr_node_serialize, wickr_node_create_from_buffer", "src/wickrcrypto/src/storage.c: wickr_storage_keys_serialize, wickr_storage_keys_create_from_buffer", "src/wickrcrypto/src/wickr_ctx.c: wickr_ctx_serialize, wickr_ctx_create_from_buffer, wickr_ctx_export, wickr_ctx_import, wickr_ctx_export_storage_keys, wickr_ctx_import_storage_keys", "src/wickrcrypto/src/transport_packet.c: wickr_transport_packet_serialize, wickr_transport_packet_create_from_buffer, wickr_transport_packet_copy", "src/wickrcrypto/src/util.c: getHexStringFromData, getDataFromHexString", "src/wickrcrypto/src/util.c: getBase64FromData, getDataFromBase64", "src/wickrcrypto/src/b32.c: base32_encode, base32_decode", "src/wickrcrypto/src/fingerprint.c: wickr_fingerprint_gen, wickr_fingerprint_gen_bilateral, wickr_fingerprint_get_b32, wickr_fingerprint_get_hex", "src/wickrcrypto/src/identity.c: wickr_identity_get_fingerprint, wickr_identity_get_bilateral_fingerprint", "src/wickrcrypto/src/eckey.c: wickr_ec_key_get_pubdata_fixed_len", "src/wickrcrypto/src/openssl_suite.c: openssl_ecdsa_to_raw, openssl_ecdsa_from_raw, openssl_hmac_verify", "src/wickrcrypto/src/openssl_suite.c: openssl_encrypt_file, openssl_decrypt_file, openssl_sha2_file", "src/wickrcrypto/src/openssl_file_suite.c: openssl_aes256_file_encrypt, openssl_aes256_file_decrypt"]}
{"id": "C88", "title": "Intermediate secrets are wiped", "statement": "Every block of bytes such a function releases, on success or failure, holds only zeros or a public value (public keys, signatures, identifiers, cipher texts).", "quantifier": "every heap, arguments, allocator and engine", "why_tests_cant": "The content of released memory is not observable by a test.", "anchors": ["src/wickrcrypto/src/openssl_suite.c: openssl_crypto_random, openssl_cipher_key_random, openssl_ec_rand_key, openssl_ec_key_import, openssl_sha2, openssl_ec_sign, openssl_aes256_encrypt, openssl_aes256_decrypt, openssl_gen_shared_secret, openssl_hmac_create", "src/wickrcrypto/src/identity.c: wickr_identity_sign, wickr_node_identity_gen", "src/wickrcrypto/src/ephemeral_keypair.c: wickr_ephemeral_keypair_generate_identity", "src/wickrcrypto/src/wickr_ctx.c: wickr_ctx_copy, wickr_ctx_gen_with_root_keys, wickr_ctx_gen_with_recovery, wickr_ctx_cipher_local", "src/wickrcrypto/src/stream_key.c: wickr_stream_key_create_rand, wickr_stream_key_serialize, wickr_stream_key_create_from_buffer", "src/wickrcrypto/src/transport_root_key.c: wickr_transport_root_key_create_random, wickr_transport_root_key_to_stream_key", "src/wickrcrypto/src/payload.c: wickr_payload_serialize, wickr_payload_create_from_buffer, wickr_payload_encrypt, wickr_payload_create_from_cipher", "src/wickrcrypto/src/key_exchange.c: wickr_key_exchange_set_serialize, wickr_key_exchange_set_encrypt, wickr_key_exchange_set_create_from_buffer, wickr_key_exchange_set_create_from_cipher, wickr_key_exchange_set_find", "src/wickrcrypto/src/protocol.c: wickr_packet_create_with_components, wickr_packet_create_from_buffer, wickr_packet_serialize", "src/wickrcrypto/src/ecdsa.c: wickr_ecdsa_result_serialize, wickr_ecdsa_result_create_from_buffer", "src/wickrcrypto/src/protocol.c: wickr_key_exchange_create_with_data, wickr_key_exchange_create_with_packet_key, wickr_key_exchange_derive_data, wickr_key_exchange_derive_packet_key, wickr_parse_result_from_packet, wickr_decode_result_from_parse_result", "src/wickrcrypto/src/wickr_ctx.c: wickr_ctx_parse_packet, wickr_ctx_stateless_parse_packet, wickr_ctx_parse_packet_no_decode, wickr_ctx_decode_packet", "src/wickrcrypto/src/identity.c: wickr_identity_serialize, wickr_identity_create_from_buffer, wickr_identity_chain_serialize, wickr_identity_chain_create_from_buffer", "src/wickrcrypto/src/ephemeral_keypair.c: wickr_ephemeral_keypair_serialize, wickr_ephemeral_keypair_create_from_buffer", "src/wickrcrypto/src/node.c: wickr_node_serialize, wickr_node_create_from_buffer", "src/wickrcrypto/src/storage.c: wickr_storage_keys_serialize, wickr_storage_keys_create_from_buffer", "src/wickrcrypto/src/wickr_ctx.c: wickr_ctx_serialize, wickr_ctx_create_from_buffer, wickr_ctx_export, wickr_ctx_import, wickr_ctx_export_storage_keys, wickr_ctx_import_storage_keys", "src/wickrcrypto/src/transport_packet.c: wickr_transport_packet_serialize, wickr_transport_packet_create_from_buffer, wickr_transport_packet_copy", "src/wickrcrypto/src/util.c: getHexStringFromData, getDataFromHexString", "src/wickrcrypto/src/util.c: getBase64FromData, getDataFromBase64", "src/wickrcrypto/src/b32.c: base32_encode, base32_decode", "src/wickrcrypto/src/fingerprint.c: wickr_fingerprint_gen, wickr_fingerprint_gen_bilateral, wickr_fingerprint_get_b32, wickr_fingerprint_get_hex", "src/wickrcrypto/src/identity.c: wickr_identity_get_fingerprint, wickr_identity_get_bilateral_fingerprint", "src/wickrcrypto/src/eckey.c: wickr_ec_key_get_pubdata_fixed_len", "src/wickrcrypto/src/openssl_suite.c: openssl_ecdsa_to_raw, openssl_ecdsa_from_raw, openssl_hmac_verify", "src/wickrcrypto/src/openssl_suite.c: openssl_encrypt_file, openssl_decrypt_file, openssl_sha2_file", "src/wickrcrypto/src/openssl_file_suite.c: openssl_aes256_file_encrypt, openssl_aes256_file_decrypt"]}
{"id": "C89", "title": "Verification does not depend on memory", "statement": "Verifying an identity chain or a node gives the right answer whatever the allocator does: if the cached result cannot be computed or stored for lack of memory the answer is still whether the signatures are genuine, the cache left behind never makes a later answer wrong, keys are unchanged and nothing else in memory changes.", "quantifier": "every heap, chain, node, engine, allocator, and any number of calls with different allocators", "why_tests_cant": "Needs allocations to fail between verification and the update of the cache, over sequences of calls.", "anchors": ["src/wickrcrypto/src/identity.c: wickr_identity_chain_validate", "src/wickrcrypto/src/identity_priv.c", "src/wickrcrypto/src/node.c: wickr_node_verify_signature_chain", "src/wickrcrypto/src/node_priv.c"]}
{"id": "C90", "title": "Secrets are wiped while memory suffices", "statement": "Deriving a key from a passphrase or a shared secret, and encrypting and decrypting with one, release - if every allocation succeeds - only blocks that hold zeros, random values that are part of the result, or parts of the cipher text; bcrypt alone also releases a copy of the passphrase.", "quantifier": "every heap, arguments (also aliased), engine whose results fit into buffers, random values, and allocator that never fails", "why_tests_cant": "The content of released memory is not observable by a test.", "anchors": ["src/wickrcrypto/src/kdf.c: wickr_perform_kdf, wickr_perform_kdf_meta", "src/wickrcrypto/src/crypto_engine.c: wickr_crypto_engine_kdf_cipher, wickr_crypto_engine_kdf_decipher", "src/wickrcrypto/src/ecdh_cipher_ctx.c: wickr_ecdh_cipher_ctx_cipher, wickr_ecdh_cipher_ctx_decipher", "src/wickrcrypto/src/wickr_ctx.c: wickr_ctx_gen_with_passphrase, wickr_ctx_gen_export_recovery_key_passphrase", "src/wickrcrypto/src/stream_key.c: wickr_stream_key_create_rand, wickr_stream_key_serialize, wickr_stream_key_create_from_buffer", "src/wickrcrypto/src/transport_root_key.c: wickr_transport_root_key_create_random, wickr_transport_root_key_to_stream_key", "src/wickrcrypto/src/payload.c: wickr_payload_serialize, wickr_payload_create_from_buffer, wickr_payload_encrypt, wickr_payload_create_from_cipher", "src/wickrcrypto/src/key_exchange.c: wickr_key_exchange_set_serialize, wickr_key_exchange_set_encrypt, wickr_key_exchange_set_create_from_buffer, wickr_key_exchange_set_create_from_cipher, wickr_key_exchange_set_find", "src/wickrcrypto/src/protocol.c: wickr_packet_create_with_components, wickr_packet_create_from_buffer, wickr_packet_serialize", "src/wickrcrypto/src/ecdsa.c: wickr_ecdsa_result_serialize, wickr_ecdsa_result_create_from_buffer", "src/wickrcrypto/src/protocol.c: wickr_key_exchange_create_with_data, wickr_key_exchange_create_with_packet_key, wickr_key_exchange_derive_data, wickr_key_exchange_derive_packet_key, wickr_parse_result_from_packet, wickr_decode_result_from_parse_result", "src/wickrcrypto/src/wickr_ctx.c: wickr_ctx_parse_packet, wickr_ctx_stateless_parse_packet, wickr_ctx_parse_packet_no_decode, wickr_ctx_decode_packet", "src/wickrcrypto/src/identity.c: wickr_identity_serialize, wickr_identity_create_from_buffer, wickr_identity_chain_serialize, wickr_identity_chain_create_from_buffer", "src/wickrcrypto/src/ephemeral_keypair.c: wickr_ephemeral_keypair_serialize, wickr_ephemeral_keypair_create_from_buffer", "src/wickrcrypto/src/node.c: wickr_node_serialize, wickr_node_create_from_buffer", "src/wickrcrypto/src/storage.c: wickr_storage_keys_serialize, wickr_storage_keys_create_from_buffer", "src/wickrcrypto/src/wickr_ctx.c: wickr_ctx_serialize, wickr_ctx_create_from_buffer, wickr_ctx_export, wickr_ctx_import, wickr_ctx_export_storage_keys, wickr_ctx_import_storage_keys"]}
{"id": "C91", "title": "Serialized objects have exactly the published byte format", "statement": "What each serialization function returns is byte for byte the encoding that the published message schemas prescribe for the object: the field numbers, their order, their wire types, which optional fields are left out, the nested messages, the format version numbers, and the hand-written signature and cipher framings inside. A serialization is produced exactly when the object has one and it fits into a buffer. So two implementations of the schemas read each other's identities, nodes, key exchanges, payloads, messages, contexts, stream keys and handshakes.", "quantifier": "All identities, chains (public and private), ephemeral keys, nodes, key exchange sets of any length, payloads, messages, root and storage keys, contexts, stream keys and handshakes, with members of any length.", "why_tests_cant": "Round-trip tests agree with any encoding that is changed on both sides at once; a fixed test vector pins the format for one object, not for all field values, lengths and presence combinations.", "anchors": ["src/protobuf/identity.proto", "src/protobuf/node.proto", "src/protobuf/ephemeral_keypair.proto", "src/protobuf/key_exchange.proto", "src/protobuf/message.proto", "src/protobuf/storage.proto", "src/protobuf/stream.proto", "src/wickrcrypto/src/identity.c: wickr_identity_serialize, wickr_identity_chain_serialize, wickr_identity_chain_serialize_private", "src/wickrcrypto/src/node.c: wickr_node_serialize", "src/wickrcrypto/src/payload.c: wickr_payload_serialize", "src/wickrcrypto/src/key_exchange.c: wickr_key_exchange_set_serialize", "src/wickrcrypto/src/protocol.c: wickr_packet_create_with_components, wickr_packet_serialize", "src/wickrcrypto/src/root_keys.c: wickr_root_keys_serialize", "src/wickrcrypto/src/storage.c: wickr_storage_keys_serialize", "src/wickrcrypto/src/wickr_ctx.c: wickr_ctx_serialize", "src/wickrcrypto/src/stream_key.c: wickr_stream_key_serialize", "src/wickrcrypto/src/transport_handshake.c: wickr_transport_handshake_start, __wickr_transport_handshake_process_initial"]}
{"id": "C92", "title": "Streams in memory survive lack of memory without reusing an IV or accepting a replay", "statement": "Making a stream takes over the key exactly if a stream is returned, and the stream is the one the functional model describes. Encoding and decoding change only the stream and return what the functional model says; when an allocation fails they return nothing, leak nothing, leave everything else in memory as it was and leave the stream in a state from which it can be used on: over any history of calls, whichever allocations fail, the IVs of the packets come from strictly increasing values of the counter, so no IV is used twice even if a packet is encoded again after a failure, and the sequence numbers of accepted packets strictly increase. Keys that are replaced are wiped before their memory is released.", "quantifier": "All streams, keys, engines, data, associated data and sequence numbers; all memories, allocators and histories of calls (for IVs: up to the capacity of the 64-bit counter).", "why_tests_cant": "An allocation failure would have to be injected at each of the dozens of allocations of each call of each history; that a counter value was used up by a failed call is not visible in any result.", "anchors": ["src/wickrcrypto/src/stream_ctx.c: wickr_stream_ctx_create, wickr_stream_ctx_encode, wickr_stream_ctx_decode, __wickr_stream_ctx_evolove_key_material", "src/wickrcrypto/src/stream_iv.c: wickr_stream_iv_create, wickr_stream_iv_generate", "src/wickrcrypto/src/stream_key.c: wickr_stream_key_copy, wickr_stream_key_destroy", "src/wickrcrypto/src/openssl_suite.c: openssl_aes256_encrypt, openssl_aes256_decrypt, openssl_hmac_create"]}
{"id": "C93", "title": "A packet in memory only for genuine recipients", "statement": "Making a packet from a context, a payload and an array of recipients in memory, whatever the allocator does: there is no undefined behaviour, and NULL is dereferenced only after an allocation has failed. A packet is returned only if there is a node in every slot and every node's chain and ephemeral key are genuinely signed; it is then exactly the packet of the values, complete for every recipient, however many allocations failed before. The recipients keep their keys, and their stored verification results keep telling the truth, so any number of further packets are safe too. If no allocation fails nothing is leaked and only public values are released unwiped; the packet key and the exchange key drawn for the packet are wiped.", "quantifier": "all engines with results of the sizes of the default engine, all contexts, payloads, recipient arrays of any length with empty slots, key material, random values, allocators and, for histories, all sequences of calls", "why_tests_cant": "A test fails one allocation in one run; the claim is about every subset of failing allocations, for every recipient list, and about what verification leaves behind in the recipients for the next packet.", "anchors": ["src/wickrcrypto/src/wickr_ctx.c: wickr_ctx_encode_packet", "src/wickrcrypto/src/protocol.c: wickr_packet_create_from_components, __wickr_recipients_validate, wickr_key_exchange_create_with_packet_key", "src/wickrcrypto/src/node.c: wickr_node_verify_signature_chain"]}
{"id": "C94", "title": "Written under memory pressure, read elsewhere", "statement": "An identity, chain, ephemeral key, node, set of storage keys or context is written in one process, or exported under a passphrase, and read in another, each with its own allocator. There is no undefined behaviour in either, and NULL is dereferenced only after an allocation has failed there. If no allocation failed when it was written, what is read is exactly the object (its public half where only that is written; for contexts without stored verification results and with the default packet version), and nothing is read only if an allocation failed when reading. If allocations failed when it was written and there is a result nevertheless, what is read from it has the same keys, identifiers and storage keys; only signatures may lack bytes at their beginning.", "quantifier": "all lawful engines with results of the sizes of the default engine, all well-formed objects, passphrases, salts, ivs, memories and both allocators", "why_tests_cant": "A test writes with memory and reads with memory; the claim is about all combinations of failing allocations on both sides, where writing reports success although the padding of a signature is missing.", "anchors": ["src/wickrcrypto/src/identity.c: wickr_identity_serialize, wickr_identity_create_from_buffer, wickr_identity_chain_serialize, wickr_identity_chain_serialize_private, wickr_identity_chain_create_from_buffer", "src/wickrcrypto/src/ephemeral_keypair.c: wickr_ephemeral_keypair_serialize, wickr_ephemeral_keypair_create_from_buffer", "src/wickrcrypto/src/node.c: wickr_node_serialize, wickr_node_create_from_buffer", "src/wickrcrypto/src/storage.c: wickr_storage_keys_serialize, wickr_storage_keys_create_from_buffer", "src/wickrcrypto/src/wickr_ctx.c: wickr_ctx_serialize, wickr_ctx_create_from_buffer, wickr_ctx_export, wickr_ctx_import, wickr_ctx_export_storage_keys, wickr_ctx_import_storage_keys"]}
{"id": "C95", "title": "Transport packets signed and verified under memory pressure", "statement": "Whatever the allocator does, verifying a transport packet against an identity chain whose stored verification result tells the truth says yes only if the root of the chain signed its node and the node signed the bytes of the packet; if no allocation fails it says yes whenever that is so. The chain keeps its identities, its stored result stays truthful, and nothing else in memory changes. Signing a packet that has no signature reports success only if the packet then has the node's signature over the bytes before it and these are the bytes to send; the signature lacks its padding only if an allocation failed. There is no undefined behaviour, NULL is dereferenced only after an allocation has failed, and nothing is leaked.", "quantifier": "all engines with results of the sizes of the default engine, all packets, chains with truthful stored results, nonces, memories and allocators", "why_tests_cant": "A test signs and verifies with memory; the claim is about every combination of failing allocations, and about every packet and chain that can be in memory.", "anchors": ["src/wickrcrypto/src/transport_packet.c: wickr_transport_packet_sign, wickr_transport_packet_verify, wickr_transport_packet_serialize, wickr_transport_packet_create_from_buffer, wickr_transport_packet_copy, wickr_transport_packet_destroy"]}
{"id": "C96", "title": "Handshake keys only for genuine peers under memory pressure", "statement": "A handshake is created for an identity and for a remote identity or none; then there is any history of starting, processing packets, accepting or refusing the peer, finalizing, and copying and going on with the copy. Whatever the allocator does: if it was created with a remote identity whose stored verification result tells the truth, keys come out only after a packet was processed that the node of that identity signed and whose node its root signed; if it was created without, keys come out only after a packet was processed that is authentic under the identity that came with it, the application was then asked about that identity unless an allocation failed, and later said yes. Keys come out at most once, apart from the first packet nothing is sent to a peer nobody vouches for, and while memory lasts every call does what the handshake of values does. There is no undefined behaviour and NULL is dereferenced only after an allocation has failed, provided that the peer sends no message of the wrong kind (C58).", "quantifier": "all engines with results of the sizes of the default engine, all identities, histories of calls with any packets and random values of the right lengths, memories and allocators", "why_tests_cant": "A test runs a few handshakes with memory; the claim is about every history of calls, every packet and every combination of failing allocations.", "anchors": ["src/wickrcrypto/src/transport_handshake.c: wickr_transport_handshake_create_with_params, wickr_transport_handshake_start, wickr_transport_handshake_process, wickr_transport_handshake_verify_identity, wickr_transport_handshake_finalize, wickr_transport_handshake_copy"]}
{"id": "C97", "title": "Handshake calls own and release their memory", "statement": "Each call on a handshake, in any memory and with any allocator: creating takes over the identities or leaves them with the caller; starting gives a packet signed by the identity of the handshake with its new key, or fails; processing fails or accepts a packet it waited for from the right peer; finalizing gives the keys of the handshake of values or fails; a copy has everything the original has, but for signatures of identities if an allocation fails, and never lacks the remote identity; destroying releases every block once and wipes the ephemeral key and the root key. Nothing else in memory changes. Memory is lost only if an allocation failed, a packet cannot be written or signed, or the peer sent a response without a root key. A copy of the keys a handshake ended with is separate, complete and released without trace; a copy that fails leaves nothing behind and releases no key unwiped.", "quantifier": "all engines with results of the sizes of the default engine, all handshakes, packets, random values, memories and allocators", "why_tests_cant": "Leaks, double releases and partly copied objects show only under particular combinations of failing allocations and particular peers.", "anchors": ["src/wickrcrypto/src/transport_handshake.c: wickr_transport_handshake_create_with_params, wickr_transport_handshake_start, wickr_transport_handshake_process, wickr_transport_handshake_verify_identity, wickr_transport_handshake_finalize, wickr_transport_handshake_copy, wickr_transport_handshake_destroy, wickr_transport_handshake_res_destroy", "src/wickrcrypto/src/transport_handshake.c:wickr_transport_handshake_res_copy"]}
{"id": "C98", "title": "Transport contexts talk only to genuine peers under memory pressure", "statement": "A transport context is created for an identity and for a remote identity or none; then there is any history of starting it, sending, receiving any bytes, answering the question about the peer inside the callback or later, sending from inside the status callback, and copying the context and going on with the copy. Whatever the allocator does: if it was created without a remote identity, it reports that it is active, hands out data and sends anything but its first packet only after it received a packet that is authentic under some identity, the application was asked about that identity in that call unless an allocation failed, and the application said yes then or later. If it was created with a remote identity whose stored verification result tells the truth, then, as long as no allocation fails, it does so only after it received a packet that the node of that identity signed and whose node its root signed, and it asks nobody; if an allocation fails it may instead behave like one created without. A context that is active has both streams. While memory lasts every call does what the context of values does. There is no undefined behaviour, NULL is dereferenced only after an allocation has failed, the buffers the application passes are unchanged, and no memory is lost unless an allocation failed or a call of the history is one of those that lose memory, provided that the peer sends no message of the wrong kind (C58).", "quantifier": "all engines with results of the sizes of the default engine, all identities, histories of calls with any received bytes and random values of the right lengths, reactions of the application, memories and allocators", "why_tests_cant": "A test runs a few connections with memory; the claim is about every history of calls, everything a peer may send and every combination of failing allocations.", "anchors": ["src/wickrcrypto/src/transport_ctx.c: wickr_transport_ctx_create, wickr_transport_ctx_start, wickr_transport_ctx_process_tx_buffer, wickr_transport_ctx_process_rx_buffer, wickr_transport_ctx_copy, wickr_transport_ctx_destroy"]}
{"id": "C99", "title": "Transport context calls own and release their memory", "statement": "Creating a transport context takes over the identities or, without memory or with too many packets per evolution, leaves them with the caller. Sending gives the transmit callback exactly the packet of the context of values or reports an error, even if allocations fail, changes nothing but the send stream, status and error, and loses no memory. A copy has the streams, status and identities of the original, but for signatures of identities if an allocation fails, and never lacks the remote identity; it has no handshake and no error, and making it loses no memory. Destroying a context releases every block of it once, nothing else, and wipes the keys of its streams and of a handshake that is under way. Two contexts that complete a handshake and are released leave nothing behind.", "quantifier": "all engines with results of the sizes of the default engine, all contexts, buffers, memories and allocators", "why_tests_cant": "Leaks, double releases and partly copied objects show only under particular combinations of failing allocations and particular peers.", "anchors": ["src/wickrcrypto/src/transport_ctx.c: wickr_transport_ctx_create, wickr_transport_ctx_process_tx_buffer, wickr_transport_ctx_copy, wickr_transport_ctx_destroy"]}
