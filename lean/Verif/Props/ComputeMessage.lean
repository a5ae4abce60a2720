import Verif.Lemmas.Scene
/-
C86-C88 and C90 for key exchanges, and for parsing and decoding packets.
-/
namespace Wickr
open Asrt Spec

variable {E : Engine}

/-! ### Key exchanges -/

/-- `wickr_key_exchange_create_with_data`. -/
theorem C86_kx_data (hE : E.Fits) (a n x d : Addr) (k : Ptr) (s : Chain) (r : Node) (exKey : EcKey) (data : Bytes) (ci : Cipher)
    (psk : Option Bytes) (v : UInt8) (iv : Bytes) :
    Computes (fun h => Has isChain h a s ∧ Has isNode h n r ∧ Has isKey h x exKey ∧ Has isBuf h d data ∧ HasOpt isBuf h k psk) isEx
      (kxCreateWithData E s r exKey data ci psk v iv) (hKxCreateWithData E (some a) (some n) (some x) (some d) ci k v iv) :=
  Computes.ofN (kx_data_vs hE a n x d k s r exKey data ci psk v iv)

/-- Everything but public keys, what the derived key is bound to, and the exchange is wiped: the shared secret, the derived key, the
data, the copy of the pre-shared key.  Only if every allocation succeeds: see `C88_kx_data_psk_not_wiped`. -/
theorem C90_kx_data (hE : E.Fits) (a n x d : Addr) (k : Ptr) (s : Chain) (r : Node) (exKey : EcKey) (data : Bytes) (ci : Cipher)
    (psk : Option Bytes) (v : UInt8) (iv : Bytes) :
    DiscreetWithMemory (fun h => Has isChain h a s ∧ Has isNode h n r ∧ Has isKey h x exKey ∧ Has isBuf h d data ∧ HasOpt isBuf h k psk)
      (kxDataPubs E s r exKey data ci psk v iv) (hKxCreateWithData E (some a) (some n) (some x) (some d) ci k v iv) :=
  DiscreetWithMemory.of (kx_data_vs hE a n x d k s r exKey data ci psk v iv) fun _ h => h

/-- `wickr_key_exchange_create_with_packet_key`. -/
theorem C86_kx_key (hE : E.Fits) (a n x d : Addr) (k : Ptr) (s : Chain) (r : Node) (exKey : EcKey) (pk : CipherKey)
    (psk : Option Bytes) (v : UInt8) (iv : Bytes) :
    Computes (fun h => Has isChain h a s ∧ Has isNode h n r ∧ Has isKey h x exKey ∧ Has isCKey h d pk ∧ HasOpt isBuf h k psk) isEx
      (kxCreateWithKey E s r exKey pk psk v iv) (hKxCreateWithKey E (some a) (some n) (some x) (some d) k v iv) :=
  Computes.ofN (kx_key_vs hE a n x d k s r exKey pk psk v iv)

/-- The packet key in particular is wiped. -/
theorem C90_kx_key (hE : E.Fits) (a n x d : Addr) (k : Ptr) (s : Chain) (r : Node) (exKey : EcKey) (pk : CipherKey)
    (psk : Option Bytes) (v : UInt8) (iv : Bytes) :
    DiscreetWithMemory (fun h => Has isChain h a s ∧ Has isNode h n r ∧ Has isKey h x exKey ∧ Has isCKey h d pk ∧ HasOpt isBuf h k psk)
      (kxKeyPubs E s r exKey pk psk v iv) (hKxCreateWithKey E (some a) (some n) (some x) (some d) k v iv) :=
  DiscreetWithMemory.of (kx_key_vs hE a n x d k s r exKey pk psk v iv) fun _ h => h

/-- `wickr_key_exchange_derive_data`. -/
theorem C86_kx_derive_data (hE : E.Fits) (a n x y : Addr) (k : Ptr) (s : Chain) (r : Node) (exKey : EcKey) (ex : KeyExchange)
    (psk : Option Bytes) (v : UInt8) :
    Computes (fun h => Has isChain h a s ∧ Has isNode h n r ∧ Has isKey h x exKey ∧ Has isEx h y ex ∧ HasOpt isBuf h k psk) isBuf
      (kxDeriveData E s r exKey ex psk v) (hKxNodeData E (some a) (some n) (some x) (some y) k v) :=
  Computes.ofN (kx_derive_data_vs hE a n x y k s r exKey ex psk v)

theorem C90_kx_derive_data (hE : E.Fits) (a n x y : Addr) (k : Ptr) (s : Chain) (r : Node) (exKey : EcKey) (ex : KeyExchange)
    (psk : Option Bytes) (v : UInt8) :
    DiscreetWithMemory (fun h => Has isChain h a s ∧ Has isNode h n r ∧ Has isKey h x exKey ∧ Has isEx h y ex ∧ HasOpt isBuf h k psk)
      (kxDerivePubs s r v) (hKxNodeData E (some a) (some n) (some x) (some y) k v) :=
  DiscreetWithMemory.of (kx_derive_data_vs hE a n x y k s r exKey ex psk v) fun _ h => h

/-- `wickr_key_exchange_derive_packet_key`. -/
theorem C86_kx_derive_key (hE : E.Fits) (a n x y : Addr) (k : Ptr) (s : Chain) (r : Node) (exKey : EcKey) (ex : KeyExchange)
    (psk : Option Bytes) (v : UInt8) :
    Computes (fun h => Has isChain h a s ∧ Has isNode h n r ∧ Has isKey h x exKey ∧ Has isEx h y ex ∧ HasOpt isBuf h k psk) isCKey
      (kxDeriveKey E s r exKey ex psk v) (hKxNodeKey E (some a) (some n) (some x) (some y) k v) :=
  Computes.ofN (kx_derive_key_vs hE a n x y k s r exKey ex psk v)

theorem C90_kx_derive_key (hE : E.Fits) (a n x y : Addr) (k : Ptr) (s : Chain) (r : Node) (exKey : EcKey) (ex : KeyExchange)
    (psk : Option Bytes) (v : UInt8) :
    DiscreetWithMemory (fun h => Has isChain h a s ∧ Has isNode h n r ∧ Has isKey h x exKey ∧ Has isEx h y ex ∧ HasOpt isBuf h k psk)
      (kxDerivePubs s r v) (hKxNodeKey E (some a) (some n) (some x) (some y) k v) :=
  DiscreetWithMemory.of (kx_derive_key_vs hE a n x y k s r exKey ex psk v) fun _ h => h

/-! ### Parsing and decoding -/

/-- `wickr_parse_result_from_packet`.  Without memory a signed packet may be reported as corrupt or not for this node, or the exchange may
lack its cipher text: see `C86_parse_misreports`; a signature is never misreported. -/
theorem C86_parse (hE : E.Fits) (p a : Addr) (n : Ptr) (m : Msg) (i : Option Bytes) (s : Chain) (v : ParseResult)
    (hr : parseFromPacket E m i (genHeaderKey E) (some s) = .ok v) :
    ComputesUpTo parseShort (fun h => Has isPacket h p m ∧ HasOpt isBuf h n i ∧ Has isChain h a s) isParse (some v)
      (hParseFromPacket E (some p) n (some a)) :=
  ComputesUpTo.of (parse_vs hE p a n m i s v hr)

theorem C88_parse (hE : E.Fits) (p a : Addr) (n : Ptr) (m : Msg) (i : Option Bytes) (s : Chain) (v : ParseResult)
    (hr : parseFromPacket E m i (genHeaderKey E) (some s) = .ok v) :
    Discreet (fun h => Has isPacket h p m ∧ HasOpt isBuf h n i ∧ Has isChain h a s) (parsePubs E m.content s)
      (hParseFromPacket E (some p) n (some a)) :=
  Discreet.of (parse_vs hE p a n m i s v hr) fun _ h => h

/-- `wickr_decode_result_from_parse_result`, where it is defined.  Without memory there may be a result that says that there is no key. -/
theorem C86_decode (hE : E.Fits) (p q d k x y : Addr) (m : Msg) (r : ParseResult) (dev : Bytes) (key : EcKey) (rc s : Chain)
    (z : Option DecodeResult) (hz : decodeFromParse E m.version r dev (some key) rc s = Res.ofOption z) :
    ComputesUpTo decodeShort
      (fun h => Has isPacket h p m ∧ Has isParse h q r ∧ Has isBuf h d dev ∧ Has isKey h k key ∧ Has isChain h x rc ∧ Has isChain h y s)
      isDec z (hDecodeFromParse E (some p) (some q) (some d) (some k) (some x) (some y)) :=
  ComputesUpTo.of (decode_vs hE p q d k x y m r dev key rc s z hz)

/-- The keys are wiped; the parts of the payload are not, see `C90_decode_not_wiped`. -/
theorem C90_decode_partial (hE : E.Fits) (p q d k x y : Addr) (m : Msg) (r : ParseResult) (dev : Bytes) (key : EcKey) (rc s : Chain)
    (z : Option DecodeResult) (hz : decodeFromParse E m.version r dev (some key) rc s = Res.ofOption z) :
    DiscreetWithMemory
      (fun h => Has isPacket h p m ∧ Has isParse h q r ∧ Has isBuf h d dev ∧ Has isKey h k key ∧ Has isChain h x rc ∧ Has isChain h y s)
      (decodePubs E m.version r dev key rc s) (hDecodeFromParse E (some p) (some q) (some d) (some k) (some x) (some y)) :=
  DiscreetWithMemory.of (decode_vs hE p q d k x y m r dev key rc s z hz) fun _ h => h

/-- `wickr_ctx_stateless_parse_packet` and `wickr_ctx_parse_packet_no_decode` of bytes whose signature is of the kind that they name; for the
others see `C86_packet_parse_leaks`. -/
theorem C86_read_partial (hE : E.Fits) (a q : Addr) (n : Ptr) (b : Bytes) (i : Option Bytes) (s : Chain) (z : Option CtxPacket) (hk : SigKind b)
    (hz : readPacket E b i (some s) = Res.ofOption z) :
    ComputesUpTo readShort (fun h => Has isBuf h a b ∧ HasOpt isBuf h n i ∧ Has isChain h q s) isCtxPacket z
      (hReadPacket E (some a) n (some q)) :=
  ComputesUpTo.of (read_vs hE a q n b i s z hk hz)

theorem C88_read_partial (hE : E.Fits) (a q : Addr) (n : Ptr) (b : Bytes) (i : Option Bytes) (s : Chain) (z : Option CtxPacket) (hk : SigKind b)
    (hz : readPacket E b i (some s) = Res.ofOption z) :
    Discreet (fun h => Has isBuf h a b ∧ HasOpt isBuf h n i ∧ Has isChain h q s) (readPubs E b i s) (hReadPacket E (some a) n (some q)) :=
  Discreet.of (read_vs hE a q n b i s z hk hz) fun _ h => h

/-- `wickr_ctx_parse_packet`. -/
theorem C86_ctx_parse_partial (hE : E.Fits) (p a q : Addr) (x : Ctx) (b : Bytes) (s : Chain) (z : Option CtxPacket) (hk : SigKind b)
    (hz : ctxParse E x b (some s) = Res.ofOption z) :
    ComputesUpTo readShort (fun h => Has isCtx h p x ∧ Has isBuf h a b ∧ Has isChain h q s) isCtxPacket z
      (hCtxParse E (some p) (some a) (some q)) :=
  ComputesUpTo.of (ctx_parse_vs hE p a q x b s z hk hz)

theorem C88_ctx_parse_partial (hE : E.Fits) (p a q : Addr) (x : Ctx) (b : Bytes) (s : Chain) (z : Option CtxPacket) (hk : SigKind b)
    (hz : ctxParse E x b (some s) = Res.ofOption z) :
    Discreet (fun h => Has isCtx h p x ∧ Has isBuf h a b ∧ Has isChain h q s) (readPubs E b (some x.chain.node.identifier) s)
      (hCtxParse E (some p) (some a) (some q)) :=
  Discreet.of (ctx_parse_vs hE p a q x b s z hk hz) fun _ h => h

/-- `wickr_ctx_parse_packet_no_decode`. -/
theorem C86_ctx_parse_no_decode_partial (hE : E.Fits) (a q : Addr) (b : Bytes) (s : Chain) (z : Option CtxPacket) (hk : SigKind b)
    (hz : ctxParseNoDecode E b (some s) = Res.ofOption z) :
    ComputesUpTo readShort (fun h => Has isBuf h a b ∧ Has isChain h q s) isCtxPacket z (hCtxParseNoDecode E (some a) (some q)) :=
  ComputesUpTo.of (ctx_parse_no_decode_vs hE a q b s z hk hz)

theorem C88_ctx_parse_no_decode_partial (hE : E.Fits) (a q : Addr) (b : Bytes) (s : Chain) (z : Option CtxPacket) (hk : SigKind b)
    (hz : ctxParseNoDecode E b (some s) = Res.ofOption z) :
    Discreet (fun h => Has isBuf h a b ∧ Has isChain h q s) (readPubs E b none s) (hCtxParseNoDecode E (some a) (some q)) :=
  Discreet.of (ctx_parse_no_decode_vs hE a q b s z hk hz) fun _ h => h

/-- `wickr_ctx_decode_packet`. -/
theorem C86_ctx_decode (hE : E.Fits) (p q k : Addr) (x : Ctx) (m : CtxPacket) (key : EcKey) (z : Option DecodeResult)
    (hz : ctxDecode E x m (some key) = Res.ofOption z) :
    ComputesUpTo decodeShort (fun h => Has isCtx h p x ∧ Has isCtxPacket h q m ∧ Has isKey h k key) isDec z
      (hCtxDecode E (some p) (some q) (some k)) :=
  ComputesUpTo.of (ctx_decode_vs hE p q k x m key z hz)

theorem C90_ctx_decode_partial (hE : E.Fits) (p q k : Addr) (x : Ctx) (m : CtxPacket) (key : EcKey) (z : Option DecodeResult)
    (hz : ctxDecode E x m (some key) = Res.ofOption z) :
    DiscreetWithMemory (fun h => Has isCtx h p x ∧ Has isCtxPacket h q m ∧ Has isKey h k key)
      (decodePubs E m.packet.version m.parse x.dev.msgProtoId key x.chain m.sender) (hCtxDecode E (some p) (some q) (some k)) :=
  DiscreetWithMemory.of (ctx_decode_vs hE p q k x m key z hz) fun _ h => h

/-! ### There are such objects -/

example : ∃ (s : St) (x : Kx), s.oom = false ∧ x.In s.heap := by
  obtain ⟨x, s, h1, h2, -⟩ := kxScene.run (P := fun _ _ => true) (by decide +kernel)
  exact ⟨s, x, h1, h2⟩

example : ∃ (s : St) (x : Rd), s.oom = false ∧ x.In s.heap := by
  obtain ⟨x, s, h1, h2, -⟩ := rdScene.run (P := fun _ _ => true) (by decide +kernel)
  exact ⟨s, x, h1, h2⟩

example : kxCreateWithKey toyEngine toyChain toyPeerNode (toyKey 41) toyPk none 4 (List.replicate 16 0) = some toyEx ∧
    kxDeriveKey toyEngine toyChain toyOwn (toyKey 41) toyEx none 4 = some toyPk := by decide +kernel
example : parseFromPacket toyEngine toyMsg (some [4, 4]) (genHeaderKey toyEngine) (some toySender) = .ok toyParse := by decide +kernel
example : ctxParse toyEngine toyReader toyWire (some toySender) = Res.ofOption (some ⟨toyMsg, toySender, toyParse⟩) := by decide +kernel
example : ctxDecode toyEngine toyReader ⟨toyMsg, toySender, toyParse⟩ (some (toyKey 31)) =
    Res.ofOption (some ⟨.success, some toyPayload, some toyPk⟩) := by decide +kernel
example : SigKind toyWire := by
  intro cv s h
  have e : packetSig toyWire = some (.p521, toyMsg.sig) := by decide +kernel
  cases e.symm.trans h
  exact ⟨by decide +kernel, by decide +kernel⟩

/-! ### What does not hold -/

/-- Making an exchange for the peer, with a pre-shared key. -/
abbrev kxRun (x : Kx) : H Ptr :=
  hKxCreateWithData toyEngine (some x.self) (some x.node) (some x.exKey) (some x.data) .ctr (some x.psk) 4 (List.replicate 16 0)
abbrev kxArgs (x : Kx) (h : Heap) : Prop := Has isChain h x.self toyChain ∧ Has isNode h x.node toyPeerNode ∧
  Has isKey h x.exKey (toyKey 41) ∧ Has isBuf h x.data [6, 6] ∧ HasOpt isBuf h (some x.psk) (some [1, 2, 3])
abbrev kxRunPubs : List Bytes := kxDataPubs toyEngine toyChain toyPeerNode (toyKey 41) [6, 6] .ctr (some [1, 2, 3]) 4 (List.replicate 16 0)

theorem kxArgs_of (h : Heap) (x : Kx) (hx : x.In h) : kxArgs x h := ⟨hx.self, hx.node, hx.exKey, hx.data, hx.psk⟩

/-- Without memory for the parameters of the key derivation the copy of the pre-shared key is released as it is: protocol.c:74-77. -/
theorem C88_kx_data_psk_not_wiped : ¬ ∀ x, Discreet (kxArgs x) kxRunPubs (kxRun x) :=
  kxScene.not_discreet [109] kxArgs_of (by decide +kernel)

/-- Without memory for the cipher key the derived key is: cipher.c, `wickr_ecdh_cipher_ctx_cipher`. -/
theorem C88_kx_data_secret_not_wiped : ¬ ∀ x, Discreet (kxArgs x) kxRunPubs (kxRun x) :=
  kxScene.not_discreet [114] kxArgs_of (by decide +kernel)

/-- Without memory for the sealed data the key and its parameters are leaked. -/
theorem C87_kx_data_leaks : ¬ ∀ x, Tidy (kxArgs x) isEx (kxRun x) :=
  kxScene.not_tidy [118] 114 kxArgs_of (by decide +kernel)

/-- Without memory for the copy of the exchange key NULL is dereferenced. -/
theorem C87_kx_data_not_sturdy : ¬ ∀ x, Sturdy (kxArgs x) (kxRun x) :=
  kxScene.not_sturdy [103] kxArgs_of (by decide +kernel)

theorem parseProbe (b : Addr) (v : ParseResult) (hv : v.err = .success) : Reads (isParse b v)
    (do
      let x ← scal (some b)
      Pure.pure (match x with | .parse e _ => decide (e ≠ .success) | _ => false)) false := by
  intro c f
  obtain ⟨e, s, s1, s2, s3⟩ := v
  sopen isParse
  cases hv
  sgo

abbrev parseProg (x : Rd) : H Ptr := hParseFromPacket toyEngine (some x.msg) (some x.id) (some x.sender)
abbrev parseArgs (x : Rd) (h : Heap) : Prop := Has isPacket h x.msg toyMsg ∧ HasOpt isBuf h (some x.id) (some [4, 4]) ∧ Has isChain h x.sender toySender

theorem parseArgs_of (h : Heap) (x : Rd) (hx : x.In h) : parseArgs x h := ⟨hx.msg, hx.id, hx.sender⟩

set_option maxRecDepth 4000 in
/-- Without memory a packet in order is reported as corrupt, and not as a failure to allocate: protocol.c:690-694. -/
theorem C86_parse_misreports : ¬ ∀ x, Computes (parseArgs x) isParse (some toyParse) (parseProg x) :=
  rdScene.not_exact (probe := fun p => do
      let x ← scal p
      Pure.pure (match x with | .parse e _ => decide (e ≠ .success) | _ => false)) [179] parseArgs_of (fun b => parseProbe b _ rfl)
    (by decide +kernel)

/-- With no memory for the key of the header NULL is dereferenced. -/
theorem C87_parse_not_sturdy : ¬ ∀ x, Sturdy (parseArgs x) (parseProg x) :=
  rdScene.not_sturdy [188] parseArgs_of (by decide +kernel)

abbrev decProg (x : Rd) : H Ptr := hCtxDecode toyEngine (some x.reader) (some x.pkt) (some x.key)
abbrev decArgs (x : Rd) (h : Heap) : Prop := Has isCtx h x.reader toyReader ∧ Has isCtxPacket h x.pkt ⟨toyMsg, toySender, toyParse⟩ ∧
  Has isKey h x.key (toyKey 31)

theorem decArgs_of (h : Heap) (x : Rd) (hx : x.In h) : decArgs x h := ⟨hx.reader, hx.pkt, hx.key⟩

theorem decProbe (b : Addr) (v : DecodeResult) (hv : v.err = .success) : Reads (isDec b v)
    (do
      let x ← scal (some b)
      Pure.pure (match x with | .err e => decide (e ≠ .success) | _ => false)) false := by
  intro c f
  obtain ⟨e, s, s1⟩ := v
  sopen isDec
  cases hv
  sgo

/-- Without memory decoding says that the key exchange failed: protocol.c:772-774. -/
theorem C86_decode_misreports : ¬ ∀ x, Computes (decArgs x) isDec (some ⟨.success, some toyPayload, some toyPk⟩) (decProg x) :=
  rdScene.not_exact (probe := fun p => do
      let x ← scal p
      Pure.pure (match x with | .err e => decide (e ≠ .success) | _ => false)) [179] decArgs_of (fun b => decProbe b _ rfl)
    (by decide +kernel)

/-- Decoding leaves the text of the message in released memory although everything succeeds. -/
theorem C90_decode_not_wiped : ¬ ∀ x, DiscreetWithMemory (decArgs x)
    ((toyKey 31).pub :: (kxInfo toySender ⟨[8, 8], toyPeer, some ⟨0, toyKey 31, none⟩, .unknown, none⟩ 4).toList) (decProg x) :=
  rdScene.not_discreetWithMemory decArgs_of (by decide +kernel)

end Wickr
