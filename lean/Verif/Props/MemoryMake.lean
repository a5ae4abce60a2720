import Verif.Lemmas.Witness
/-
C84: constructors own their parts only if they succeed.
-/
namespace Wickr
open Asrt Spec

/-- `wickr_ec_key_create` -/
theorem C84_key (q : Addr) (p : Ptr) (cv : Curve) (b : Bytes) (v : Option Bytes) :
    CreateSafe (isBuf q b ∗ optRep isBuf p v) isKey ⟨cv, b, v⟩ (hKeyCreate cv (some q) p) :=
  CreateSafe.ofMade (hKeyCreate_spec _ _ trivial _ _ _ _ _)

/-- `wickr_ecdsa_result_create` -/
theorem C84_sig (q : Addr) (cv : Curve) (d : Digest) (b : Bytes) :
    CreateSafe (isBuf q b) isSig ⟨cv, d, b⟩ (hSigCreate cv d (some q)) :=
  CreateSafe.ofMade (hSigCreate_spec _ _ trivial _ _ _ _)

/-- `wickr_identity_create` -/
theorem C84_id (t : IdType) (q k : Addr) (p : Ptr) (b : Bytes) (key : EcKey) (s : Option EcdsaResult) (hb : b.length < 128) :
    CreateSafe (isBuf q b ∗ isKey k key ∗ optRep isSig p s) isId ⟨t, b, key, s⟩ (hIdCreate t (some q) (some k) p) :=
  CreateSafe.of (hIdCreate_spec _ _ _ _ _ _ _ _ _ hb)

/-- `wickr_identity_chain_create` -/
theorem C84_chain (r n : Addr) (i j : Identity) :
    CreateSafe (isId r i ∗ isId n j) isChain ⟨i, j, .unknown, none⟩ (hChainCreate (some r) (some n)) :=
  CreateSafe.of (hChainCreate_spec _ _ _ _ _ _)

/-- `wickr_cipher_key_create` -/
theorem C84_cKey (q : Addr) (ci : Cipher) (b : Bytes) (hb : b.length = ci.keyLen) :
    CreateSafe (isBuf q b) isCKey ⟨ci, b⟩ (hCKeyCreate ci (some q)) :=
  CreateSafe.ofMade (hCKeyCreate_spec _ _ trivial _ _ _ hb)

/-- `wickr_cipher_result_create` -/
theorem C84_cRes (ci : Cipher) (q : Addr) (p t : Ptr) (iv : Bytes) (ct tag : Option Bytes) (ho : CipherResult.Ok ⟨ci, iv, ct, tag⟩) :
    CreateSafe (isBuf q iv ∗ optRep isBuf p ct ∗ optRep isBuf t tag) isCRes ⟨ci, iv, ct, tag⟩ (hCResCreate ci (some q) p t) :=
  CreateSafe.ofMade (hCResCreate_spec _ _ trivial _ _ _ _ _ _ _ ho)

/-- `wickr_ephemeral_keypair_create` -/
theorem C84_eph (n : UInt64) (k : Addr) (p : Ptr) (key : EcKey) (s : Option EcdsaResult) :
    CreateSafe (isKey k key ∗ optRep isSig p s) isEph ⟨n, key, s⟩ (hEphCreate n (some k) p) :=
  CreateSafe.of (hEphCreate_spec _ _ _ _ _ _ _)

/-- `wickr_node_create` -/
theorem C84_node (d ch : Addr) (p : Ptr) (b : Bytes) (v : Chain) (e : Option EphKey) :
    CreateSafe (isBuf d b ∗ isChain ch v ∗ optRep isEph p e) isNode ⟨b, v, e, .unknown, none⟩ (hNodeCreate (some d) (some ch) p) :=
  CreateSafe.of (hNodeCreate_spec _ _ _ _ _ _ _ _)

/-- `wickr_packet_meta_create` -/
theorem C84_info (ttl bor : UInt64) (q : Addr) (ct : UInt16) (b : Bytes) :
    CreateSafe (isBuf q b) isInfo ⟨ttl, bor, b, ct⟩ (hInfoCreate ttl bor (some q) ct) :=
  CreateSafe.ofMade (hInfoCreate_spec _ _ trivial _ _ _ _ _)

/-- `wickr_payload_create` -/
theorem C84_payload (p q : Addr) (i : PktInfo) (b : Bytes) :
    CreateSafe (isInfo p i ∗ isBuf q b) isPayload ⟨i, b⟩ (hPayloadCreate (some p) (some q)) :=
  CreateSafe.of (hPayloadCreate_spec _ _ _ _ _ _)

/-- `wickr_key_exchange_create` -/
theorem C84_ex (p q : Addr) (n : UInt64) (b : Bytes) (r : CipherResult) :
    CreateSafe (isBuf p b ∗ isCRes q r) isEx ⟨b, n, r⟩ (hExCreate (some p) n (some q)) :=
  CreateSafe.ofMade (hExCreate_spec _ _ trivial _ _ _ _ _)

/-- `wickr_packet_create` -/
theorem C84_packet (n : UInt8) (p q : Addr) (b : Bytes) (s : EcdsaResult) :
    CreateSafe (isBuf p b ∗ isSig q s) isPacket ⟨n, b, s⟩ (hPacketCreate n (some p) (some q)) :=
  CreateSafe.of (hPacketCreate_spec _ _ _ _ _ _ _)

/-- `wickr_encoder_result_create` -/
theorem C84_enc (p q : Addr) (k : CipherKey) (m : Msg) :
    CreateSafe (isCKey p k ∗ isPacket q m) isEnc ⟨k, m⟩ (hEncCreate (some p) (some q)) :=
  CreateSafe.of (hEncCreate_spec _ _ _ _ _ _)

/-- `wickr_decode_result_create_success` -/
theorem C84_dec (e : DecodeErr) (p q : Ptr) (v : Option Payload) (k : Option CipherKey) :
    CreateSafe (optRep isPayload p v ∗ optRep isCKey q k) isDec ⟨e, v, k⟩ (hDecCreate e p q) :=
  CreateSafe.of (hDecCreate_spec _ _ _ _ _ _ _)

/-- `wickr_key_exchange_set_create` -/
theorem C84_set (p q : Addr) (k : EcKey) (xs : List (Option KeyExchange)) :
    CreateSafe (isKey p k ∗ isArr isEx q xs) isSet ⟨k, xs⟩ (hSetCreate (some p) (some q)) :=
  CreateSafe.of (hSetCreate_spec _ _ _ _ _ _)

/-- `__wickr_parse_result_create` -/
theorem C84_parse (p q r : Ptr) (s : SigStatus) (e : DecodeErr) (v : Option KeyExchangeSet) (w : Option CipherResult) (x : Option KeyExchange) :
    CreateSafe (optRep isSet p v ∗ optRep isCRes q w ∗ optRep isEx r x) isParse ⟨e, s, v, x, w⟩ (hParseCreate p r q s e) :=
  CreateSafe.of (hParseCreate_spec _ _ _ _ _ _ _ _ _ _)

/-- `wickr_storage_keys_create` -/
theorem C84_storage (p q : Addr) (k l : CipherKey) :
    CreateSafe (isCKey p k ∗ isCKey q l) isStorage ⟨k, l⟩ (hStorageCreate (some p) (some q)) :=
  CreateSafe.of (hStorageCreate_spec _ _ _ _ _ _)

/-- `wickr_root_keys_create` -/
theorem C84_root (p q r : Addr) (k : EcKey) (l m : CipherKey) :
    CreateSafe (isKey p k ∗ isCKey q l ∗ isCKey r m) isRoot ⟨k, l, m⟩ (hRootCreate (some p) (some q) (some r)) :=
  CreateSafe.of (hRootCreate_spec _ _ _ _ _ _ _ _)

/-- `wickr_dev_info_create` -/
theorem C84_dev (p : Addr) (s : Ptr) (q r : Addr) (b : Bytes) (y : Option Bytes) (d e : Bytes) :
    CreateSafe (isBuf p b ∗ optRep isBuf s y ∗ isBuf q d ∗ isBuf r e) isDev ⟨b, y, d, e⟩ (hDevCreate (some p) s (some q) (some r)) :=
  CreateSafe.of (hDevCreate_spec _ _ _ _ _ _ _ _ _ _)

/-- `wickr_kdf_meta_create` -/
theorem C84_kdfMeta (al : KdfAlgo) (p q : Ptr) (s i : Option Bytes) (ho : KdfMeta.Ok ⟨al, s, i⟩) :
    CreateSafe (optRep isBuf p s ∗ optRep isBuf q i) isKdfMeta ⟨al, s, i⟩ (hKdfMetaCreate al p q) :=
  CreateSafe.of (hKdfMetaCreate_spec _ _ _ _ _ _ _ ho)

/-- `wickr_kdf_result_create` -/
theorem C84_kdfRes (p q : Addr) (m : KdfMeta) (b : Bytes) :
    CreateSafe (isKdfMeta p m ∗ isBuf q b) isKdfRes ⟨m, b⟩ (hKdfResCreate (some p) (some q)) :=
  CreateSafe.of (hKdfResCreate_spec _ _ _ _ _ _)

/-- `wickr_stream_key_create` -/
theorem C84_sKey (p q : Addr) (n : UInt32) (u : Ptr) (k : CipherKey) (b : Bytes) (d : Option Bytes) (hn : ppeMin ≤ n ∧ n ≤ ppeMax) :
    CreateSafe (isCKey p k ∗ isBuf q b ∗ optRep isBuf u d) isSKey ⟨k, b, n, d⟩ (hSKeyCreate (some p) (some q) n u) :=
  CreateSafe.of (hSKeyCreate_spec _ _ _ _ _ _ _ _ _ hn)

/-- `wickr_transport_root_key_create` -/
theorem C84_tRoot (p : Addr) (ci : Cipher) (m n : UInt32) (b : Bytes) (hb : b.length = ci.keyLen) :
    CreateSafe (isBuf p b) isTRoot ⟨b, ci, m, n⟩ (hTRootCreate (some p) ci m n) :=
  CreateSafe.of (hTRootCreate_spec _ _ _ _ _ _ _ hb)

/-- `wickr_ecdh_cipher_ctx_create_key` -/
theorem C84_ecdh (p : Addr) (ci : Cipher) (k : EcKey) :
    CreateSafe (isKey p k) isEcdh ⟨ci, k⟩ (hEcdhCreate (some p) ci) :=
  CreateSafe.of (hEcdhCreate_spec _ _ _ _ _)

/-! Required parts that are missing, or of the wrong size, are refused. -/

theorem C84_missing (cv : Curve) (d : Digest) (t : IdType) (ci : Cipher) (n : UInt64) (m : UInt8) (u w : UInt32) (ct : UInt16)
    (p q r : Ptr) : ∀ make ∈ [hKeyCreate cv none p, hSigCreate cv d none, hIdCreate t none p q, hChainCreate none p,
      hChainCreate p none, hCKeyCreate ci none, hCResCreate ci none p q, hEphCreate n none p, hNodeCreate none p q,
      hNodeCreate p none q, hInfoCreate n n none ct, hPayloadCreate none p, hPayloadCreate p none, hExCreate none n p,
      hExCreate p n none, hPacketCreate m none p, hPacketCreate m p none, hEncCreate none p, hEncCreate p none,
      hSetCreate none p, hSetCreate p none, hStorageCreate none p, hStorageCreate p none, hRootCreate none p q,
      hRootCreate p none q, hRootCreate p q none, hDevCreate none p q r, hDevCreate p q none r, hDevCreate p q r none,
      hKdfResCreate none p, hKdfResCreate p none, hSKeyCreate none p u q, hSKeyCreate p none u q, hTRootCreate none ci u w,
      hEcdhCreate none ci], Refuses make := by
  simp only [List.forall_mem_cons]
  refine ⟨?_, ?_, ?_, ?_, ?_, ?_, ?_, ?_, ?_, ?_, ?_, ?_, ?_, ?_, ?_, ?_, ?_, ?_, ?_, ?_, ?_, ?_, ?_, ?_, ?_, ?_, ?_, ?_, ?_, ?_,
    ?_, ?_, ?_, ?_, ?_, by simp⟩ <;> intro A s <;> first | rfl | (cases p <;> first | rfl | (cases q <;> first | rfl | (cases r <;> rfl)))

/-- An identifier of 128 bytes or more. -/
theorem C84_id_long (t : IdType) (q : Addr) (k p : Ptr) (b : Bytes) (hb : 128 ≤ b.length) :
    RefusesIn (isBuf q b) (hIdCreate t (some q) k p) := by
  refine RefusesIn.of fun h hx c f => ?_
  unfold hIdCreate
  sread hBufLen_keep q b h hx
  simp only [ge_iff_le, hb, if_true]
  sgo

/-- A cipher key of the wrong size. -/
theorem C84_cKey_size (ci : Cipher) (q : Addr) (b : Bytes) (hb : b.length ≠ ci.keyLen) :
    RefusesIn (isBuf q b) (hCKeyCreate ci (some q)) := by
  refine RefusesIn.of fun h hx c f => ?_
  unfold hCKeyCreate
  sread hBufLen_keep q b h hx
  simp only [ne_eq, hb, not_false_eq_true, if_true]
  sgo

/-- A transport root key of the wrong size. -/
theorem C84_tRoot_size (ci : Cipher) (m n : UInt32) (q : Addr) (b : Bytes) (hb : b.length ≠ ci.keyLen) :
    RefusesIn (isBuf q b) (hTRootCreate (some q) ci m n) := by
  refine RefusesIn.of fun h hx c f => ?_
  unfold hTRootCreate
  sread hBufLen_keep q b h hx
  simp only [ne_eq, hb, not_false_eq_true, if_true]
  sgo

/-- Packets per evolution out of range. -/
theorem C84_sKey_range (p q u : Ptr) (n : UInt32) (hn : n < ppeMin ∨ n > ppeMax) : Refuses (hSKeyCreate p q n u) := by
  intro A s
  cases p <;> cases q <;> simp only [hSKeyCreate, hn, if_true] <;> rfl

/-- Parts in memory. -/
example : ∃ (s : St) (p q : Addr) (rest : Heap), s.oom = false ∧ ((isInfo p exInfo ∗ isBuf q [1]) ∗ keep rest) s.heap :=
  exists_pair mkInfo_spec (fun c f hc => litBuf_spec c f hc [1] (by decide)) (by decide +kernel)

end Wickr
