import Verif.Lemmas.ViewSpecsMsg
import Verif.Lemmas.SepCtxMsg
/-
The functions that exchange keys and parse packets, as `ViewSpec`.
-/
namespace Wickr
open Asrt Spec

variable {E : Engine}

theorem kx_data_vs (hE : E.Fits) (a n x d : Addr) (k : Ptr) (s : Chain) (r : Node) (exKey : EcKey) (data : Bytes) (ci : Cipher)
    (psk : Option Bytes) (v : UInt8) (iv : Bytes) :
    ViewSpec (onlyLax (kxDataPubs E s r exKey data ci psk v iv))
      (fun h => Has isChain h a s ∧ Has isNode h n r ∧ Has isKey h x exKey ∧ Has isBuf h d data ∧ HasOpt isBuf h k psk)
      (givesN isEx (kxCreateWithData E s r exKey data ci psk v iv))
      (hKxCreateWithData E (some a) (some n) (some x) (some d) ci k v iv) :=
  fun f h ha => hKxCreateWithData_view hE _ f trivial trivial h a n x d k s r exKey data ci psk v iv
    (fun i hi => by simp [kxDataPubs, hi]) (by simp [kxDataPubs]) (fun y hy z hz => by simp [kxDataPubs, hy, hz])
    ha.1 ha.2.1 ha.2.2.1 ha.2.2.2.1 ha.2.2.2.2

theorem kx_key_vs (hE : E.Fits) (a n x d : Addr) (k : Ptr) (s : Chain) (r : Node) (exKey : EcKey) (pk : CipherKey)
    (psk : Option Bytes) (v : UInt8) (iv : Bytes) :
    ViewSpec (onlyLax (kxKeyPubs E s r exKey pk psk v iv))
      (fun h => Has isChain h a s ∧ Has isNode h n r ∧ Has isKey h x exKey ∧ Has isCKey h d pk ∧ HasOpt isBuf h k psk)
      (givesN isEx (kxCreateWithKey E s r exKey pk psk v iv))
      (hKxCreateWithKey E (some a) (some n) (some x) (some d) k v iv) :=
  fun f h ha => hKxCreateWithKey_view hE _ f trivial trivial h a n x d k s r exKey pk psk v iv
    (fun i hi => by simp [kxKeyPubs, hi]) (by simp [kxKeyPubs]) (fun y hy z hz => by simp [kxKeyPubs, hy, hz])
    ha.1 ha.2.1 ha.2.2.1 ha.2.2.2.1 ha.2.2.2.2

theorem kx_derive_data_vs (hE : E.Fits) (a n x y : Addr) (k : Ptr) (s : Chain) (r : Node) (exKey : EcKey) (ex : KeyExchange)
    (psk : Option Bytes) (v : UInt8) :
    ViewSpec (onlyLax (kxDerivePubs s r v))
      (fun h => Has isChain h a s ∧ Has isNode h n r ∧ Has isKey h x exKey ∧ Has isEx h y ex ∧ HasOpt isBuf h k psk)
      (givesN isBuf (kxDeriveData E s r exKey ex psk v))
      (hKxNodeData E (some a) (some n) (some x) (some y) k v) :=
  fun f h ha => hKxNodeData_view hE _ f trivial trivial h a n x y k s r exKey ex psk v
    (fun i hi => by simp [kxDerivePubs, hi]) (fun e he => by simp [kxDerivePubs, he])
    ha.1 ha.2.1 ha.2.2.1 ha.2.2.2.1 ha.2.2.2.2

theorem kx_derive_key_vs (hE : E.Fits) (a n x y : Addr) (k : Ptr) (s : Chain) (r : Node) (exKey : EcKey) (ex : KeyExchange)
    (psk : Option Bytes) (v : UInt8) :
    ViewSpec (onlyLax (kxDerivePubs s r v))
      (fun h => Has isChain h a s ∧ Has isNode h n r ∧ Has isKey h x exKey ∧ Has isEx h y ex ∧ HasOpt isBuf h k psk)
      (givesN isCKey (kxDeriveKey E s r exKey ex psk v))
      (hKxNodeKey E (some a) (some n) (some x) (some y) k v) :=
  fun f h ha => hKxNodeKey_view hE _ f trivial trivial h a n x y k s r exKey ex psk v
    (fun i hi => by simp [kxDerivePubs, hi]) (fun e he => by simp [kxDerivePubs, he])
    ha.1 ha.2.1 ha.2.2.1 ha.2.2.2.1 ha.2.2.2.2

theorem parse_vs (hE : E.Fits) (p a : Addr) (n : Ptr) (m : Msg) (i : Option Bytes) (s : Chain) (v : ParseResult)
    (hr : parseFromPacket E m i (genHeaderKey E) (some s) = .ok v) :
    ViewSpec (only (parsePubs E m.content s)) (fun h => Has isPacket h p m ∧ HasOpt isBuf h n i ∧ Has isChain h a s)
      (givesA isParse parseShort (some v)) (hParseFromPacket E (some p) n (some a)) :=
  fun f h ha => hParseFromPacket_view hE _ f trivial h p a n m i s v hr (fun _ h => h) ha.1 ha.2.1 ha.2.2

theorem decode_vs (hE : E.Fits) (p q d k x y : Addr) (m : Msg) (r : ParseResult) (dev : Bytes) (key : EcKey) (rc s : Chain)
    (z : Option DecodeResult) (hz : decodeFromParse E m.version r dev (some key) rc s = Res.ofOption z) :
    ViewSpec (onlyLax (decodePubs E m.version r dev key rc s))
      (fun h => Has isPacket h p m ∧ Has isParse h q r ∧ Has isBuf h d dev ∧ Has isKey h k key ∧ Has isChain h x rc ∧ Has isChain h y s)
      (givesA isDec decodeShort z) (hDecodeFromParse E (some p) (some q) (some d) (some k) (some x) (some y)) :=
  fun f h ha => hDecodeFromParse_view hE _ f trivial trivial h p q d k x y m r dev key rc s z hz
    (fun i hi => by simp [decodePubs, hi]) (by simp [decodePubs]) (fun v hv => by simp [decodePubs, hv])
    ha.1 ha.2.1 ha.2.2.1 ha.2.2.2.1 ha.2.2.2.2.1 ha.2.2.2.2.2

theorem read_vs (hE : E.Fits) (a q : Addr) (n : Ptr) (b : Bytes) (i : Option Bytes) (s : Chain) (z : Option CtxPacket) (hk : SigKind b)
    (hz : readPacket E b i (some s) = Res.ofOption z) :
    ViewSpec (only (readPubs E b i s)) (fun h => Has isBuf h a b ∧ HasOpt isBuf h n i ∧ Has isChain h q s)
      (givesA isCtxPacket readShort z) (hReadPacket E (some a) n (some q)) :=
  fun f h ha => hReadPacket_view hE _ f trivial h a q n b i s z hk hz (fun _ h => h) ha.1 ha.2.1 ha.2.2

theorem ctx_parse_vs (hE : E.Fits) (p a q : Addr) (x : Ctx) (b : Bytes) (s : Chain) (z : Option CtxPacket) (hk : SigKind b)
    (hz : ctxParse E x b (some s) = Res.ofOption z) :
    ViewSpec (only (readPubs E b (some x.chain.node.identifier) s)) (fun h => Has isCtx h p x ∧ Has isBuf h a b ∧ Has isChain h q s)
      (givesA isCtxPacket readShort z) (hCtxParse E (some p) (some a) (some q)) :=
  fun f h ha => hCtxParse_view hE _ f trivial h p a q x b s z hk hz (fun _ h => h) ha.1 ha.2.1 ha.2.2

theorem ctx_parse_no_decode_vs (hE : E.Fits) (a q : Addr) (b : Bytes) (s : Chain) (z : Option CtxPacket) (hk : SigKind b)
    (hz : ctxParseNoDecode E b (some s) = Res.ofOption z) :
    ViewSpec (only (readPubs E b none s)) (fun h => Has isBuf h a b ∧ Has isChain h q s)
      (givesA isCtxPacket readShort z) (hCtxParseNoDecode E (some a) (some q)) :=
  fun f h ha => hReadPacket_view hE _ f trivial h a q none b none s z hk hz (fun _ h => h) ha.1 trivial ha.2

theorem ctx_decode_vs (hE : E.Fits) (p q k : Addr) (x : Ctx) (m : CtxPacket) (key : EcKey) (z : Option DecodeResult)
    (hz : ctxDecode E x m (some key) = Res.ofOption z) :
    ViewSpec (onlyLax (decodePubs E m.packet.version m.parse x.dev.msgProtoId key x.chain m.sender))
      (fun h => Has isCtx h p x ∧ Has isCtxPacket h q m ∧ Has isKey h k key)
      (givesA isDec decodeShort z) (hCtxDecode E (some p) (some q) (some k)) :=
  fun f h ha => hCtxDecode_view hE _ f trivial trivial h p q k x m key z hz (fun _ h => h) ha.1 ha.2.1 ha.2.2

end Wickr
