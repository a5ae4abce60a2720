import Verif.Lemmas.ViewSpecsMsg
import Verif.Lemmas.RefuteMore
import Verif.Lemmas.WitnessCtx
import Verif.Props.VerifyMem
/-
C86-C88 and C90 for payloads, key exchange sets and packets.
-/
namespace Wickr
open Asrt Spec

variable {E : Engine}

/-- `wickr_ecdsa_result_create_from_buffer`. -/
theorem C86_sig_parse (b : Bytes) :
    Computes (fun _ => True) isSig (ecdsaFromBuffer b) (hSigFromBytes b) :=
  Computes.of (sig_parse_vs b)

theorem C87_sig_parse (b : Bytes) :
    Tidy (fun _ => True) isSig (hSigFromBytes b) :=
  Tidy.of (sig_parse_vs b)

theorem C88_sig_parse (b : Bytes) :
    Discreet (fun _ => True) [] (hSigFromBytes b) :=
  Discreet.of (sig_parse_vs b) fun _ h => h

/-- `wickr_ecdsa_result_serialize`: with no memory for the padding the signature is written without it, see `C86_sig_serialize_bare`. -/
theorem C86_sig_serialize (a : Addr) (r : EcdsaResult) :
    ComputesUpTo (sigLoss r) (fun h => Has isSig h a r) isBuf (ecdsaSerialize r) (hSigSerialize (some a)) :=
  ComputesUpTo.of ((sig_serialize_vs a r).mono fun _ _ => givesL_le)

theorem C87_sig_serialize (a : Addr) (r : EcdsaResult) :
    Tidy (fun h => Has isSig h a r) isBuf (hSigSerialize (some a)) :=
  Tidy.ofL (sig_serialize_vs a r)

theorem C87_sig_serialize_sturdy (a : Addr) (r : EcdsaResult) :
    Sturdy (fun h => Has isSig h a r) (hSigSerialize (some a)) :=
  Sturdy.of (sig_serialize_vs a r) (fun h => h)

theorem C88_sig_serialize (a : Addr) (r : EcdsaResult) :
    Discreet (fun h => Has isSig h a r) [] (hSigSerialize (some a)) :=
  Discreet.of (sig_serialize_vs a r) fun _ h => h

/-- `wickr_payload_serialize`. -/
theorem C86_payload_serialize (a : Addr) (v : Payload) :
    Computes (fun h => Has isPayload h a v) isBuf (payloadSerialize v) (hPayloadSerialize (some a)) :=
  Computes.of (payload_serialize_vs a v)

theorem C87_payload_serialize (a : Addr) (v : Payload) :
    Tidy (fun h => Has isPayload h a v) isBuf (hPayloadSerialize (some a)) :=
  Tidy.of (payload_serialize_vs a v)

theorem C87_payload_serialize_sturdy (a : Addr) (v : Payload) :
    Sturdy (fun h => Has isPayload h a v) (hPayloadSerialize (some a)) :=
  Sturdy.of (payload_serialize_vs a v) (fun h => h)

theorem C88_payload_serialize (a : Addr) (v : Payload) :
    Discreet (fun h => Has isPayload h a v) [] (hPayloadSerialize (some a)) :=
  Discreet.of (payload_serialize_vs a v) fun _ h => h

/-- `wickr_payload_create_from_buffer`. -/
theorem C86_payload_parse (a : Addr) (b : Bytes) :
    Computes (fun h => Has isBuf h a b) isPayload (payloadFromBuffer b) (hPayloadFromBuffer (some a)) :=
  Computes.of (payload_parse_vs a b)

theorem C87_payload_parse (a : Addr) (b : Bytes) :
    Tidy (fun h => Has isBuf h a b) isPayload (hPayloadFromBuffer (some a)) :=
  Tidy.of (payload_parse_vs a b)

/-- The parts of the message are released by the protobuf library, which wipes nothing: see `C90_payload_parse_not_wiped`. -/
theorem C88_payload_parse_partial (a : Addr) (b : Bytes) :
    Discreet (fun h => Has isBuf h a b) (payloadParts b) (hPayloadFromBuffer (some a)) :=
  Discreet.of (payload_parse_vs a b) fun _ h => h

/-- `wickr_payload_encrypt`. -/
theorem C86_payload_encrypt (hE : E.Fits) (a p : Addr) (v : Payload) (k : CipherKey) (iv : Bytes) :
    Computes (fun h => Has isPayload h a v ∧ Has isCKey h p k) isCRes (payloadEncrypt E v k iv) (hPayloadEncrypt E (some a) (some p) iv) :=
  Computes.of (payload_encrypt_vs hE a p v k iv)

theorem C87_payload_encrypt (hE : E.Fits) (a p : Addr) (v : Payload) (k : CipherKey) (iv : Bytes) :
    Tidy (fun h => Has isPayload h a v ∧ Has isCKey h p k) isCRes (hPayloadEncrypt E (some a) (some p) iv) :=
  Tidy.of (payload_encrypt_vs hE a p v k iv)

theorem C88_payload_encrypt (hE : E.Fits) (a p : Addr) (v : Payload) (k : CipherKey) (iv : Bytes) :
    Discreet (fun h => Has isPayload h a v ∧ Has isCKey h p k) ((payloadSerialize v).toList.flatMap fun b => encryptPubs E b none k iv) (hPayloadEncrypt E (some a) (some p) iv) :=
  Discreet.of (payload_encrypt_vs hE a p v k iv) fun _ h => h

/-- `wickr_payload_create_from_cipher`. -/
theorem C86_payload_decrypt (hE : E.Fits) (a p : Addr) (r : CipherResult) (k : CipherKey) :
    Computes (fun h => Has isCRes h a r ∧ Has isCKey h p k) isPayload (payloadFromCipher E (some r) k) (hPayloadFromCipher E (some a) (some p)) :=
  Computes.of (payload_decrypt_vs hE a p r k)

theorem C87_payload_decrypt (hE : E.Fits) (a p : Addr) (r : CipherResult) (k : CipherKey) :
    Tidy (fun h => Has isCRes h a r ∧ Has isCKey h p k) isPayload (hPayloadFromCipher E (some a) (some p)) :=
  Tidy.of (payload_decrypt_vs hE a p r k)

/-- Only the deciphered parts that the protobuf library releases are not wiped. -/
theorem C88_payload_decrypt_partial (hE : E.Fits) (a p : Addr) (r : CipherResult) (k : CipherKey) :
    Discreet (fun h => Has isCRes h a r ∧ Has isCKey h p k) ((E.decrypt r none k true).toList.flatMap payloadParts) (hPayloadFromCipher E (some a) (some p)) :=
  Discreet.of (payload_decrypt_vs hE a p r k) fun _ h => h

/-- `wickr_key_exchange_set_serialize`. -/
theorem C86_set_serialize (a : Addr) (v : KeyExchangeSet) :
    Computes (fun h => Has isSet h a v) isBuf (exchangeSetSerialize v) (hSetSerialize (some a)) :=
  Computes.of (set_serialize_vs a v)

theorem C87_set_serialize (a : Addr) (v : KeyExchangeSet) :
    Tidy (fun h => Has isSet h a v) isBuf (hSetSerialize (some a)) :=
  Tidy.of (set_serialize_vs a v)

theorem C87_set_serialize_sturdy (a : Addr) (v : KeyExchangeSet) :
    Sturdy (fun h => Has isSet h a v) (hSetSerialize (some a)) :=
  Sturdy.of (set_serialize_vs a v) (fun h => h)

theorem C88_set_serialize (a : Addr) (v : KeyExchangeSet) :
    Discreet (fun h => Has isSet h a v) (exsData v.exchanges) (hSetSerialize (some a)) :=
  Discreet.of (set_serialize_vs a v) fun _ h => h

/-- `wickr_key_exchange_set_encrypt`. -/
theorem C86_set_encrypt (hE : E.Fits) (a p : Addr) (v : KeyExchangeSet) (k : CipherKey) (iv : Bytes) :
    Computes (fun h => Has isSet h a v ∧ Has isCKey h p k) isCRes (exchangeSetEncrypt E v k iv) (hSetEncrypt E (some a) (some p) iv) :=
  Computes.of (set_encrypt_vs hE a p v k iv)

theorem C87_set_encrypt (hE : E.Fits) (a p : Addr) (v : KeyExchangeSet) (k : CipherKey) (iv : Bytes) :
    Tidy (fun h => Has isSet h a v ∧ Has isCKey h p k) isCRes (hSetEncrypt E (some a) (some p) iv) :=
  Tidy.of (set_encrypt_vs hE a p v k iv)

theorem C88_set_encrypt (hE : E.Fits) (a p : Addr) (v : KeyExchangeSet) (k : CipherKey) (iv : Bytes) :
    Discreet (fun h => Has isSet h a v ∧ Has isCKey h p k) (exsData v.exchanges ++ (exchangeSetSerialize v).toList.flatMap fun b => encryptPubs E b none k iv) (hSetEncrypt E (some a) (some p) iv) :=
  Discreet.of (set_encrypt_vs hE a p v k iv) fun _ h => h

/-- `wickr_key_exchange_set_create_from_buffer`. -/
theorem C86_set_parse (hE : E.Fits) (a : Addr) (b : Bytes) :
    Computes (fun h => Has isBuf h a b) isSet (exchangeSetFromBuffer E b) (hSetFromBuffer E (some a)) :=
  Computes.of (set_parse_vs hE a b)

theorem C87_set_parse (hE : E.Fits) (a : Addr) (b : Bytes) :
    Tidy (fun h => Has isBuf h a b) isSet (hSetFromBuffer E (some a)) :=
  Tidy.of (set_parse_vs hE a b)

theorem C88_set_parse (hE : E.Fits) (a : Addr) (b : Bytes) :
    Discreet (fun h => Has isBuf h a b) (setParts E b) (hSetFromBuffer E (some a)) :=
  Discreet.of (set_parse_vs hE a b) fun _ h => h

/-- `wickr_key_exchange_set_create_from_cipher`. -/
theorem C86_set_decrypt (hE : E.Fits) (a p : Addr) (r : CipherResult) (k : CipherKey) :
    Computes (fun h => Has isCRes h a r ∧ Has isCKey h p k) isSet (exchangeSetFromCipher E r (some k)) (hSetFromCipher E (some a) (some p)) :=
  Computes.of (set_decrypt_vs hE a p r k)

theorem C87_set_decrypt (hE : E.Fits) (a p : Addr) (r : CipherResult) (k : CipherKey) :
    Tidy (fun h => Has isCRes h a r ∧ Has isCKey h p k) isSet (hSetFromCipher E (some a) (some p)) :=
  Tidy.of (set_decrypt_vs hE a p r k)

theorem C88_set_decrypt (hE : E.Fits) (a p : Addr) (r : CipherResult) (k : CipherKey) :
    Discreet (fun h => Has isCRes h a r ∧ Has isCKey h p k) ((E.decrypt r none k true).toList.flatMap (setParts E)) (hSetFromCipher E (some a) (some p)) :=
  Discreet.of (set_decrypt_vs hE a p r k) fun _ h => h

/-- `wickr_key_exchange_set_find` of a set all of whose slots before the one looked for are set: without memory the copy may lack parts
and may be leaked. -/
theorem C86_set_find (a p : Addr) (v : KeyExchangeSet) (s : Bytes) (r : Option KeyExchange)
    (hr : exchangeSetFind v s = Res.ofOption r) :
    ComputesUpTo exLoss (fun h => Has isSet h a v ∧ Has isBuf h p s) isEx r (hSetFind (some a) (some p)) :=
  ComputesUpTo.of (set_find_vs a p v s r hr)

theorem C88_set_find (a p : Addr) (v : KeyExchangeSet) (s : Bytes) (r : Option KeyExchange)
    (hr : exchangeSetFind v s = Res.ofOption r) :
    Discreet (fun h => Has isSet h a v ∧ Has isBuf h p s) (exsPublics v.exchanges) (hSetFind (some a) (some p)) :=
  Discreet.of (set_find_vs a p v s r hr) fun _ h => h

/-- `wickr_packet_create_with_components`, if header and payload can be written: see `C87_packet_make_not_sturdy` for the rest. -/
theorem C86_packet_make (hE : E.Fits) (a p q : Addr) (hd pl : CipherResult) (k : EcKey) (v : UInt8)
    (nonce : Bytes) (r : Option Msg) (hr : msgCreateWithComponents E hd pl k v nonce = Res.ofOption r) :
    Computes (fun h => Has isCRes h a hd ∧ Has isCRes h p pl ∧ Has isKey h q k) isPacket r (hPacketCreateWith E (some a) (some p) (some q) v nonce) :=
  Computes.of (packet_make_vs hE a p q hd pl k v nonce r hr)

theorem C87_packet_make (hE : E.Fits) (a p q : Addr) (hd pl : CipherResult) (k : EcKey) (v : UInt8)
    (nonce : Bytes) (r : Option Msg) (hr : msgCreateWithComponents E hd pl k v nonce = Res.ofOption r) :
    Tidy (fun h => Has isCRes h a hd ∧ Has isCRes h p pl ∧ Has isKey h q k) isPacket (hPacketCreateWith E (some a) (some p) (some q) v nonce) :=
  Tidy.of (packet_make_vs hE a p q hd pl k v nonce r hr)

theorem C88_packet_make (hE : E.Fits) (a p q : Addr) (hd pl : CipherResult) (k : EcKey) (v : UInt8)
    (nonce : Bytes) (r : Option Msg) (hr : msgCreateWithComponents E hd pl k v nonce = Res.ofOption r) :
    Discreet (fun h => Has isCRes h a hd ∧ Has isCRes h p pl ∧ Has isKey h q k) (packetPubs E hd pl k nonce) (hPacketCreateWith E (some a) (some p) (some q) v nonce) :=
  Discreet.of (packet_make_vs hE a p q hd pl k v nonce r hr) fun _ h => h

/-- `wickr_packet_create_from_buffer`, of bytes whose signature is of the kind that they name; for the others see
`C86_packet_parse_leaks`. -/
theorem C86_packet_parse_partial (a : Addr) (b : Bytes) (hk : SigKind b) :
    Computes (fun h => Has isBuf h a b) isPacket (msgFromBuffer b) (hPacketFromBuffer (some a)) :=
  Computes.of (packet_parse_vs a b hk)

theorem C87_packet_parse_partial (a : Addr) (b : Bytes) (hk : SigKind b) :
    Tidy (fun h => Has isBuf h a b) isPacket (hPacketFromBuffer (some a)) :=
  Tidy.of (packet_parse_vs a b hk)

theorem C88_packet_parse_partial (a : Addr) (b : Bytes) (hk : SigKind b) :
    Discreet (fun h => Has isBuf h a b) (packetParts b) (hPacketFromBuffer (some a)) :=
  Discreet.of (packet_parse_vs a b hk) fun _ h => h

/-- `wickr_packet_serialize`; for leaks without memory see `C87_packet_serialize_leaks`. -/
theorem C86_packet_serialize (a : Addr) (m : Msg) :
    Computes (fun h => Has isPacket h a m) isBuf (msgSerialize m) (hPacketSerialize (some a)) :=
  Computes.ofN (packet_serialize_vs a m)

theorem C87_packet_serialize_sturdy (a : Addr) (m : Msg) :
    Sturdy (fun h => Has isPacket h a m) (hPacketSerialize (some a)) :=
  Sturdy.of (packet_serialize_vs a m) (fun h => h)

theorem C88_packet_serialize (a : Addr) (m : Msg) :
    Discreet (fun h => Has isPacket h a m) (ecdsaSerialize m.sig).toList (hPacketSerialize (some a)) :=
  Discreet.of (packet_serialize_vs a m) fun _ h => h

/-! ### There are such objects -/

example : ∃ (s : St) (a : Addr), s.oom = false ∧ Has isSig s.heap a exSig := exists_has (mkSig_spec _ _ trivial) (by decide +kernel)
example : ∃ (s : St) (a b : Addr), s.oom = false ∧ Has isPayload s.heap a exPayload ∧ Has isCKey s.heap b exCKey := by
  obtain ⟨s, a, b, h1, h2, h3, -⟩ := run2_of (m := fun _ _ => Pure.pure ()) (fun _ _ => true) [] (mkPayload_spec _ _ trivial)
    (mkCKey_spec _ _ trivial) (by decide +kernel)
  exact ⟨s, a, b, h1, h2, h3⟩
example : ∃ (s : St) (a b : Addr), s.oom = false ∧ Has isSet s.heap a exSet ∧ Has isBuf s.heap b [11] := by
  obtain ⟨s, a, b, h1, h2, h3, -⟩ := run2_of (m := fun _ _ => Pure.pure ()) (fun _ _ => true) [] (mkSet_spec _ _ trivial)
    (litBuf_spec _ _ trivial [11] (by decide)) (by decide +kernel)
  exact ⟨s, a, b, h1, h2, h3⟩
example : exchangeSetFind exSet [11] = Res.ofOption (some exEx) := by decide +kernel
example : ∃ (s : St) (a b : Addr), s.oom = false ∧ Has isCRes s.heap a exCRes ∧ Has isCRes s.heap a exCRes ∧
    Has isKey s.heap b (exToyKey 5 5) := by
  obtain ⟨s, a, b, h1, h2, h3, -⟩ := run2_of (m := fun _ _ => Pure.pure ()) (fun _ _ => true) [] (mkCRes_spec _ _ trivial)
    (mkToyKey_spec _ _ trivial 5 5) (by decide +kernel)
  exact ⟨s, a, b, h1, h2, h2, h3⟩

/-- A packet made of the parts of the examples. -/
abbrev exMade : Msg := ((msgCreateWithComponents toyEngine exCRes exCRes (exToyKey 5 5) 4 [1, 2, 3]).toOption).getD exPacket

example : msgCreateWithComponents toyEngine exCRes exCRes (exToyKey 5 5) 4 [1, 2, 3] = Res.ofOption (some exMade) := by decide +kernel
example : (msgSerialize exMade).bind msgFromBuffer = some exMade := by decide +kernel
example : SigKind ((msgSerialize exMade).getD []) := by
  intro cv s h
  have e : packetSig ((msgSerialize exMade).getD []) = some (.p521, exMade.sig) := by decide +kernel
  cases e.symm.trans h
  exact ⟨by decide +kernel, by decide +kernel⟩
example : (payloadEncrypt toyEngine exPayload exCKey (List.replicate 12 1)).bind (fun r => payloadFromCipher toyEngine (some r) exCKey) =
    some exPayload := by decide +kernel
example : (exchangeSetEncrypt toyEngine ⟨exToyKey 5 5, exExs⟩ exCKey (List.replicate 12 1)).isSome = true := by decide +kernel
example : ((exchangeSetSerialize ⟨exToyKey 5 5, exExs⟩).bind (exchangeSetFromBuffer toyEngine)).isSome = true := by decide +kernel

/-! ### What does not hold -/

/-- The bytes of `exPayload`. -/
abbrev exPayloadBytes : Bytes := (payloadSerialize exPayload).getD []

/-- Reading a payload leaves the text of the message in released memory although everything succeeds: the protobuf library does not
wipe what it unpacked (payload.c:147). -/
theorem C90_payload_parse_not_wiped : ¬ ∀ a, DiscreetWithMemory (fun h => Has isBuf h a exPayloadBytes) [] (hPayloadFromBuffer (some a)) :=
  not_discreetWithMemory (m := hPayloadFromBuffer) (litBuf_spec _ _ trivial exPayloadBytes (by decide +kernel)) (fun _ _ h => h)
    (by decide +kernel)

/-- A sealed payload. -/
def mkSealedPayload : H Ptr := do
  let i ← litBuf (List.replicate 12 1)
  let b ← litBuf [155, 138, 139, 133, 137, 128, 145, 131, 147, 128, 137, 153, 130, 163, 128, 139]
  let t ← litBuf (List.replicate 16 141)
  hCResCreate .gcm i b t

abbrev exSealedPayload : CipherResult := ⟨.gcm, List.replicate 12 1, some [155, 138, 139, 133, 137, 128, 145, 131, 147, 128, 137, 153, 130, 163, 128, 139],
  some (List.replicate 16 141)⟩

theorem mkSealedPayload_spec (c : Rules) (f : Bool) (hc : c.crash) : Triple c f emp mkSealedPayload (fun r _ => made isCRes exSealedPayload r) := by
  unfold mkSealedPayload
  have ho : exSealedPayload.Ok := ⟨by decide, by decide, by rintro s ⟨⟩; decide⟩
  sgo

example : payloadEncrypt toyEngine exPayload exCKey (List.replicate 12 1) = some exSealedPayload := by decide +kernel

/-- The deciphered text is left there too, although `wickr_payload_create_from_cipher` wipes its own copy (payload.c:200). -/
theorem C90_payload_decrypt_not_wiped : ¬ ∀ a b, DiscreetWithMemory (fun h => Has isCRes h a exSealedPayload ∧ Has isCKey h b exCKey) []
    (hPayloadFromCipher toyEngine (some a) (some b)) :=
  not_discreetWithMemory2 (m := fun a b => hPayloadFromCipher toyEngine (some a) (some b)) (mkSealedPayload_spec _ _ trivial)
    (mkCKey_spec _ _ trivial) (fun _ _ _ h h' => ⟨h, h'⟩) (by decide +kernel)

/-- A serialized packet whose signature names another digest than its curve goes with. -/
def exOtherKind : Bytes := 4 :: 0 :: 9 :: 2 :: 140 :: (List.replicate 140 0 ++ [7])

set_option maxRecDepth 4000 in
/-- Its signature is leaked although memory suffices: protocol.c:356-360.  Anyone who can send a packet can do that. -/
theorem C86_packet_parse_leaks : ¬ ∀ a, Computes (fun h => Has isBuf h a exOtherKind) isPacket (msgFromBuffer exOtherKind)
    (hPacketFromBuffer (some a)) :=
  not_computes (m := hPacketFromBuffer) 2 (litBuf_spec _ _ trivial exOtherKind (by decide +kernel)) (fun _ _ h => h) (by decide +kernel)

theorem sigProbe (b : Addr) (v : Bytes) (hv : ¬ v.length < 143) : Reads (isBuf b v)
    (do let x ← readBuf (some b); Pure.pure (decide (x.length < 143))) false := by
  have hr : Reads (isBuf b v) (readBuf (some b)) v := Reads.owned fun x hx => readBuf_view (has_of hx)
  intro c f
  sread hr
  rw [decide_eq_false hv]
  exact Triple.ret fun _ h => Asrt.pure_star.2 ⟨⟨rfl, rfl⟩, h⟩

/-- With no memory for the padding a signature is written without it: ecdsa.c:70-73. -/
theorem C86_sig_serialize_bare : ¬ ∀ a, Computes (fun h => Has isSig h a exSig) isBuf (ecdsaSerialize exSig) (hSigSerialize (some a)) := by
  have e : ecdsaSerialize exSig = some ((ecdsaSerialize exSig).getD []) := by decide +kernel
  rw [e]
  exact not_exact (m := hSigSerialize) (probe := fun p => do let b ← readBuf p; Pure.pure (decide (b.length < 143))) [3]
    (mkSig_spec _ _ trivial) (fun _ _ h => h) (fun b => sigProbe b _ (by decide +kernel)) (by decide +kernel)

/-- Then the packet cannot be written, and what there was of its signature is leaked: protocol.c:396-398. -/
theorem C87_packet_serialize_leaks : ¬ ∀ a, Tidy (fun h => Has isPacket h a exPacket) isBuf (hPacketSerialize (some a)) :=
  not_tidy (m := hPacketSerialize) [6] 7 (mkPacket_spec _ _ trivial) (fun _ _ h => h) (by decide +kernel)

/-- With no memory for the payload in writing NULL is dereferenced: protocol.c:272-276. -/
theorem C87_packet_make_not_sturdy : ¬ ∀ a b, Sturdy (fun h => Has isCRes h a exCRes ∧ Has isCRes h a exCRes ∧
      Has isKey h b (exToyKey 5 5)) (hPacketCreateWith toyEngine (some a) (some a) (some b) 4 [1, 2, 3]) :=
  not_sturdy2 (m := fun a b => hPacketCreateWith toyEngine (some a) (some a) (some b) 4 [1, 2, 3]) [14] (mkCRes_spec _ _ trivial)
    (mkToyKey_spec _ _ trivial 5 5) (fun _ _ _ h h' => ⟨h, h, h'⟩) (by decide +kernel)

/-- With no memory for its metadata reading a payload writes through NULL: packet_meta.c:11-12. -/
theorem C87_payload_parse_not_sturdy : ¬ ∀ a, Sturdy (fun h => Has isBuf h a exPayloadBytes) (hPayloadFromBuffer (some a)) :=
  not_sturdy (m := hPayloadFromBuffer) [7] (litBuf_spec _ _ trivial exPayloadBytes (by decide +kernel)) (fun _ _ h => h) (by decide +kernel)

/-- The bytes of a set with one exchange. -/
abbrev exSetBytes : Bytes := (exchangeSetSerialize ⟨exToyKey 5 5, exExs⟩).getD []

/-- With no memory for an exchange reading a set writes through NULL: key_exchange.c:18-19. -/
theorem C87_set_parse_not_sturdy : ¬ ∀ a, Sturdy (fun h => Has isBuf h a exSetBytes) (hSetFromBuffer toyEngine (some a)) :=
  not_sturdy (m := hSetFromBuffer toyEngine) [23] (litBuf_spec _ _ trivial exSetBytes (by decide +kernel)) (fun _ _ h => h) (by decide +kernel)

/-- With no memory for the copy of an exchange searching a set leaks: `wickr_key_exchange_copy`. -/
theorem C87_set_find_leaks : ¬ ∀ a b, Tidy (fun h => Has isSet h a exSet ∧ Has isBuf h b [11]) isEx (hSetFind (some a) (some b)) :=
  not_tidy2 (m := fun a b => hSetFind (some a) (some b)) [21] 22 (mkSet_spec _ _ trivial) (litBuf_spec _ _ trivial [11] (by decide))
    (fun _ _ _ h h' => ⟨h, h'⟩) (by decide +kernel)

end Wickr
