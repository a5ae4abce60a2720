import Verif.Lemmas.SepMessage
import Verif.Lemmas.ViewSpecsStream
/-
The functions on payloads, key exchange sets and packets, ready for the properties.
-/
namespace Wickr
open Asrt Spec

variable {E : Engine}

theorem sig_parse_vs (b : Bytes) :
    ViewSpec (only []) (fun _ => True) (gives isSig (ecdsaFromBuffer b)) (hSigFromBytes b) :=
  ViewSpec.ofEmp fun f => hSigFromBytes_spec _ f trivial b

theorem sig_serialize_vs (a : Addr) (r : EcdsaResult) :
    ViewSpec (onlyStrict []) (fun h => Has isSig h a r) (givesL isBuf (sigLoss r) (ecdsaSerialize r)) (hSigSerialize (some a)) :=
  fun f h ha => hSigSerialize_view _ f h a r ha

theorem payload_serialize_vs (a : Addr) (v : Payload) :
    ViewSpec (onlyStrict []) (fun h => Has isPayload h a v) (gives isBuf (payloadSerialize v)) (hPayloadSerialize (some a)) :=
  fun f h ha => hPayloadSerialize_view _ f h a v ha

theorem payload_parse_vs (a : Addr) (b : Bytes) :
    ViewSpec (only (payloadParts b)) (fun h => Has isBuf h a b) (gives isPayload (payloadFromBuffer b)) (hPayloadFromBuffer (some a)) :=
  fun f h ha => hPayloadFromBuffer_view _ f trivial h a b (fun _ hx => hx) ha

theorem payload_encrypt_vs (hE : E.Fits) (a p : Addr) (v : Payload) (k : CipherKey) (iv : Bytes) :
    ViewSpec (only ((payloadSerialize v).toList.flatMap fun b => encryptPubs E b none k iv)) (fun h => Has isPayload h a v ∧ Has isCKey h p k) (gives isCRes (payloadEncrypt E v k iv)) (hPayloadEncrypt E (some a) (some p) iv) :=
  fun f h ha => hPayloadEncrypt_view hE _ f trivial h a p v k iv (fun b hb r hr x hx => by simp only [encryptPubs, List.mem_flatMap, Option.mem_toList]; exact ⟨b, hb, r, hr, hx⟩) ha.1 ha.2

theorem payload_decrypt_vs (hE : E.Fits) (a p : Addr) (r : CipherResult) (k : CipherKey) :
    ViewSpec (only ((E.decrypt r none k true).toList.flatMap payloadParts)) (fun h => Has isCRes h a r ∧ Has isCKey h p k) (gives isPayload (payloadFromCipher E (some r) k)) (hPayloadFromCipher E (some a) (some p)) :=
  fun f h ha => hPayloadFromCipher_view hE _ f trivial h a p r k (fun b hb x hx => List.mem_flatMap.2 ⟨b, Option.mem_toList.2 hb, hx⟩) ha.1 ha.2

theorem set_serialize_vs (a : Addr) (v : KeyExchangeSet) :
    ViewSpec (onlyStrict (exsData v.exchanges)) (fun h => Has isSet h a v) (gives isBuf (exchangeSetSerialize v)) (hSetSerialize (some a)) :=
  fun f h ha => hSetSerialize_view _ f h a v (fun _ hx => hx) ha

theorem set_encrypt_vs (hE : E.Fits) (a p : Addr) (v : KeyExchangeSet) (k : CipherKey) (iv : Bytes) :
    ViewSpec (only (exsData v.exchanges ++ (exchangeSetSerialize v).toList.flatMap fun b => encryptPubs E b none k iv)) (fun h => Has isSet h a v ∧ Has isCKey h p k) (gives isCRes (exchangeSetEncrypt E v k iv)) (hSetEncrypt E (some a) (some p) iv) :=
  fun f h ha => hSetEncrypt_view hE _ f trivial h a p v k iv (fun _ hx => List.mem_append_left _ hx) (fun b hb x hx => List.mem_append_right _ (List.mem_flatMap.2 ⟨b, Option.mem_toList.2 hb, hx⟩)) ha.1 ha.2

theorem set_parse_vs (hE : E.Fits) (a : Addr) (b : Bytes) :
    ViewSpec (only (setParts E b)) (fun h => Has isBuf h a b) (gives isSet (exchangeSetFromBuffer E b)) (hSetFromBuffer E (some a)) :=
  fun f h ha => hSetFromBuffer_view hE _ f trivial h a b (fun _ hx => hx) ha

theorem set_decrypt_vs (hE : E.Fits) (a p : Addr) (r : CipherResult) (k : CipherKey) :
    ViewSpec (only ((E.decrypt r none k true).toList.flatMap (setParts E))) (fun h => Has isCRes h a r ∧ Has isCKey h p k) (gives isSet (exchangeSetFromCipher E r (some k))) (hSetFromCipher E (some a) (some p)) :=
  fun f h ha => hSetFromCipher_view hE _ f trivial h a p r k (fun b hb x hx => List.mem_flatMap.2 ⟨b, Option.mem_toList.2 hb, hx⟩) ha.1 ha.2

theorem set_find_vs (a p : Addr) (v : KeyExchangeSet) (s : Bytes) (r : Option KeyExchange)
    (hr : exchangeSetFind v s = Res.ofOption r) :
    ViewSpec (only (exsPublics v.exchanges)) (fun h => Has isSet h a v ∧ Has isBuf h p s) (givesA isEx exLoss r) (hSetFind (some a) (some p)) :=
  fun f h ha => hSetFind_view _ f trivial h a p v s r (fun _ hx => hx) hr ha.1 ha.2

theorem packet_make_vs (hE : E.Fits) (a p q : Addr) (hd pl : CipherResult) (k : EcKey) (v : UInt8)
    (nonce : Bytes) (r : Option Msg) (hr : msgCreateWithComponents E hd pl k v nonce = Res.ofOption r) :
    ViewSpec (only (packetPubs E hd pl k nonce)) (fun h => Has isCRes h a hd ∧ Has isCRes h p pl ∧ Has isKey h q k) (gives isPacket r) (hPacketCreateWith E (some a) (some p) (some q) v nonce) :=
  fun f h ha => hPacketCreateWith_view hE _ f trivial h a p q hd pl k v nonce r hr (fun _ hx => hx) ha.1 ha.2.1 ha.2.2

theorem packet_parse_vs (a : Addr) (b : Bytes) (hk : SigKind b) :
    ViewSpec (only (packetParts b)) (fun h => Has isBuf h a b) (gives isPacket (msgFromBuffer b)) (hPacketFromBuffer (some a)) :=
  fun f h ha => hPacketFromBuffer_view _ f trivial h a b hk (fun _ hx => hx) ha

theorem packet_serialize_vs (a : Addr) (m : Msg) :
    ViewSpec (onlyStrict (ecdsaSerialize m.sig).toList) (fun h => Has isPacket h a m) (givesN isBuf (msgSerialize m)) (hPacketSerialize (some a)) :=
  fun f h ha => hPacketSerialize_view _ f h a m (fun x hx => by simp [hx]) ha

end Wickr
