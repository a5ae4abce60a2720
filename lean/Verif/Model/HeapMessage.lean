import Verif.Model.HeapPacket
import Verif.Model.HeapCtx
/-
Model of the rest of protocol.c and of the packets of wickr_ctx.c on the heap: key exchanges, making, parsing and decoding packets.

Simplifications
* structures on the stack (the set at protocol.c:635-637, the receiver at 763-768) are passed as the pointers they hold;
* the function that makes header keys is the one the library passes (`hHeaderKey`);
* as in the value model the random values of a packet are collected in `MsgRand`.
-/
namespace Wickr

/-! ### Key exchanges -/

/-- protocol.c:10-31 `__wickr_key_exchange_get_kdf_info`; `rchain` and `dev` are the chain and the device of the receiver. -/
def hKxInfo (sender rchain dev : Ptr) (v : UInt8) : H Ptr :=
  match sender with
  | none => pure none
  | some _ =>
    if v = 2 then hBufCopy dev
    else if v = 3 ∨ v = 4 then do
      let r ← field sender 0
      let k ← field r 1
      let q ← field k 0
      let sb ← readBuf q
      let r ← field rchain 0
      let k ← field r 1
      let q ← field k 0
      let rb ← readBuf q
      let db ← readOpt dev
      hConcatMulti [some sb, some rb, db]
    else pure none

/-- protocol.c:45-57: the function that derives the key. -/
def kxAlgo (v : UInt8) : Option KdfAlgo :=
  if v = 2 ∨ v = 3 then some hkdfSha256 else if v = 4 then some hkdfSha512 else none

/-- protocol.c:72-80: the parameters are made; what they would consist of is released without being wiped when they cannot be. -/
def hKxMetaMake (a : KdfAlgo) (salt info : Ptr) : H Ptr :=
  onNull (hKdfMetaCreate a salt info)
    (do
      let _ ← hBufDestroy salt
      let _ ← hBufDestroy info
      pure none)
    fun m => pure m

/-- protocol.c:33-81 `__wickr_key_exchange_get_kdf_meta` of a receiver with an ephemeral key, which the callers have tested. -/
def hKxMeta (sender rchain dev psk : Ptr) (v : UInt8) : H Ptr :=
  match kxAlgo v with
  | none => pure none
  | some a =>
    onNull (hKxInfo sender rchain dev v) (pure none) fun info =>
      match psk with
      | none => hKxMetaMake a none info
      | some _ => onNull (hBufCopy psk) (do let _ ← hBufDestroy info; pure none) fun salt => hKxMetaMake a salt info

/-- protocol.c:95-120: the data are enciphered for the key `peer`; the copy of the key and the parameters do not outlive it. -/
def hKxSeal (E : Engine) (sender rchain dev peer exKey data : Ptr) (ci : Cipher) (psk : Ptr) (v : UInt8) (iv : Bytes) : H Ptr :=
  onNull (hKeyCopy exKey) (pure none) fun k =>
    onNull (hEcdhCreate k ci) (do let _ ← hKeyDestroy k; pure none) fun ctx =>
      onNull (hKxMeta sender rchain dev psk v) (do let _ ← hEcdhDestroy ctx; pure none) fun m => do
        let r ← hEcdhCipher E ctx data peer m iv
        let _ ← hKdfMetaDestroy m
        let _ ← hEcdhDestroy ctx
        pure r

/-- protocol.c:83-139 `wickr_key_exchange_create_with_data`; `iv` is the random IV. -/
def hKxCreateWithData (E : Engine) (sender recv exKey data : Ptr) (ci : Cipher) (psk : Ptr) (v : UInt8) (iv : Bytes) : H Ptr :=
  match sender, recv, exKey with
  | some _, some _, some _ => do
    let eph ← field recv 2
    match eph with
    | none => pure none
    | some _ => do
      let rchain ← field recv 1
      let dev ← field recv 0
      let peer ← field eph 0
      onNull (hKxSeal E sender rchain dev peer exKey data ci psk v iv) (pure none) fun r => do
        let node ← field rchain 1
        let i ← field node 0
        onNull (hBufCopy i) (do let _ ← hCResDestroy r; pure none) fun q => do
          let .num n ← scal eph | undefined
          onNull (hExCreate q n r)
            (do
              let _ ← hCResDestroy r
              let _ ← hBufDestroy q
              pure none)
            fun x => pure x
  | _, _, _ => pure none

/-- protocol.c:141-166 `wickr_key_exchange_create_with_packet_key`. -/
def hKxCreateWithKey (E : Engine) (sender recv exKey pk psk : Ptr) (v : UInt8) (iv : Bytes) : H Ptr :=
  match sender, recv, pk, exKey with
  | some _, some _, some _, some _ =>
    onNull (hCKeySerialize pk) (pure none) fun b => do
      let .cipher c ← scal pk | undefined
      let r ← hKxCreateWithData E sender recv exKey b (exchangeCipherMatchingCipher c) psk v iv
      let _ ← hBufDestroyZero b
      pure r
  | _, _, _, _ => pure none

/-- protocol.c:193-237 `wickr_key_exchange_derive_data` for the receiver with this chain, device and ephemeral key. -/
def hKxDeriveData (E : Engine) (sender rchain dev own exKey x psk : Ptr) (v : UInt8) : H Ptr :=
  match sender, x with
  | some _, some _ =>
    onNull (hKeyCopy own) (pure none) fun k => do
      let ct ← field x 1
      let .cipher ci ← scal ct | undefined
      onNull (hEcdhCreate k ci) (do let _ ← hKeyDestroy k; pure none) fun ctx =>
        onNull (hKxMeta sender rchain dev psk v) (do let _ ← hEcdhDestroy ctx; pure none) fun m => do
          let ct ← field x 1
          let r ← hEcdhDecipher E ctx ct exKey m
          let _ ← hEcdhDestroy ctx
          let _ ← hKdfMetaDestroy m
          pure r
  | _, _ => pure none

/-- protocol.c:169-191 `wickr_key_exchange_derive_packet_key` for the receiver with these parts. -/
def hKxDeriveKey (E : Engine) (sender rchain dev own exKey x psk : Ptr) (v : UInt8) : H Ptr :=
  match sender, x with
  | some _, some _ => do
    let b ← hKxDeriveData E sender rchain dev own exKey x psk v
    let k ← hCKeyFromBuffer b
    let _ ← hBufDestroyZero b
    pure k
  | _, _ => pure none

/-- protocol.c:193-237 `wickr_key_exchange_derive_data` for a node. -/
def hKxNodeData (E : Engine) (sender recv exKey x psk : Ptr) (v : UInt8) : H Ptr :=
  match recv with
  | none => pure none
  | some _ => do
    let eph ← field recv 2
    match eph with
    | none => pure none
    | some _ => do
      let own ← field eph 0
      let rchain ← field recv 1
      let dev ← field recv 0
      hKxDeriveData E sender rchain dev own exKey x psk v

/-- protocol.c:169-191 `wickr_key_exchange_derive_packet_key` for a node. -/
def hKxNodeKey (E : Engine) (sender recv exKey x psk : Ptr) (v : UInt8) : H Ptr :=
  match sender, recv, x with
  | some _, some _, some _ => do
    let b ← hKxNodeData E sender recv exKey x psk v
    let k ← hCKeyFromBuffer b
    let _ ← hBufDestroyZero b
    pure k
  | _, _, _ => pure none

/-! ### Making packets -/

/-- protocol.c:577-585: the recipients from index `i` on. -/
def hRecipientsFrom (E : Engine) (p : Ptr) (i : Nat) : Nat → H Bool
  | 0 => pure true
  | k + 1 => do
    let n ← hArrSlot p i
    let ok ← hNodeVerify E n
    if ok then hRecipientsFrom E p (i + 1) k else pure false

/-- protocol.c:573-588 `__wickr_recipients_validate`. -/
def hRecipientsValidate (E : Engine) (p : Ptr) : H Bool := do
  let n ← hArrCount p
  hRecipientsFrom E p 0 n

/-- protocol.c:616-633: the exchanges from index `i` on; whether the array could be made is not tested before (614), an exchange
cannot be put into an array that is NULL. -/
def hKxsCreate (E : Engine) (p sender exKey pk exs : Ptr) (v : UInt8) (iv : Nat → Bytes) (i : Nat) : Nat → H Bool
  | 0 => pure true
  | k + 1 => do
    let n ← hArrSlot p i
    let x ← hKxCreateWithKey E sender n exKey pk none v (iv i)
    match x with
    | none => do
      let _ ← hExsDestroy exs
      pure false
    | some _ => do
      let ok ← hArrSet hExCopy hExDestroy exs i x false
      if ok then hKxsCreate E p sender exKey pk exs v iv (i + 1) k
      else do
        let _ ← hExDestroy x
        let _ ← hExsDestroy exs
        pure false

/-- protocol.c:614-640: the sealed set of exchanges. -/
def hMsgHeader (E : Engine) (hk pk exKey p sender : Ptr) (v : UInt8) (rnd : MsgRand) : H Ptr := do
  let n ← hArrCount p
  let exs ← hArrNew n
  let ok ← hKxsCreate E p sender exKey pk exs v rnd.exIv 0 n
  if ok then do
    let r ← hSetSeal E exKey exs hk rnd.hdrIv
    let _ ← hExsDestroy exs
    pure r
  else pure none

/-- protocol.c:614-657: what happens once the recipients are accepted. -/
def hMsgMake (E : Engine) (hk pk exKey payload p sender : Ptr) (v : UInt8) (rnd : MsgRand) : H Ptr :=
  onNull (hMsgHeader E hk pk exKey p sender v rnd) (pure none) fun h =>
    onNull (hPayloadEncrypt E payload pk rnd.payIv) (do let _ ← hCResDestroy h; pure none) fun c => do
      let node ← field sender 1
      let key ← field node 1
      let r ← hPacketCreateWith E h c key v rnd.nonce
      let _ ← hCResDestroy h
      let _ ← hCResDestroy c
      pure r

/-- protocol.c:591-658 `wickr_packet_create_from_components`. -/
def hMsgCreate (E : Engine) (hk pk exKey payload p sender : Ptr) (v : UInt8) (rnd : MsgRand) : H Ptr :=
  match pk, hk, payload, p, sender with
  | some _, some _, some _, some _, some _ => do
    let n ← hArrCount p
    if n = 0 then pure none
    else do
      let ok ← hRecipientsValidate E p
      if ok then hMsgMake E hk pk exKey payload p sender v rnd else pure none
  | _, _, _, _, _ => pure none

/-! ### Parsing packets -/

/-- protocol.c:474-477 `wickr_parse_result_create_failure`. -/
def hParseFailure (s : SigStatus) (e : DecodeErr) : H Ptr := hParseCreate none none none s e

/-- protocol.c:696-712: the set of exchanges in the message `x`. -/
def hParseHeader (E : Engine) (x sender : Ptr) : H Ptr := do
  let hb ← hPart x 0
  onNull (hCResFromBytes hb) (pure none) fun r => do
    let .cipher ci ← scal r | undefined
    let k ← hHeaderKey E ci sender
    let set ← hSetFromCipher E r k
    let _ ← hCKeyDestroy k
    let _ ← hCResDestroy r
    pure set

/-- protocol.c:725-745: the end of parsing. -/
def hParseFinish (x set ex : Ptr) : H Ptr := do
  let pb ← hPart x 1
  let c ← hCResFromBytes pb
  let _ ← hFreeUnpacked x
  match c with
  | none => do
    let _ ← hExDestroy ex
    let _ ← hSetDestroy set
    hParseFailure .valid .corruptPacket
  | some _ =>
    onNull (hParseCreate set ex c .valid .success)
      (do
        let _ ← hExDestroy ex
        let _ ← hSetDestroy set
        let _ ← hCResDestroy c
        pure none)
      fun r => pure r

/-- protocol.c:696-745: parsing the message `x`. -/
def hParseContent (E : Engine) (x nodeId sender : Ptr) : H Ptr :=
  onNull (hParseHeader E x sender)
    (do
      let _ ← hFreeUnpacked x
      hParseFailure .valid .corruptPacket)
    fun set =>
      match nodeId with
      | none => hParseFinish x set none
      | some _ =>
        onNull (hSetFind set nodeId)
          (do
            let _ ← hSetDestroy set
            let _ ← hFreeUnpacked x
            hParseFailure .valid .nodeNotFound)
          fun ex => hParseFinish x set ex

/-- protocol.c:661-746 `wickr_parse_result_from_packet`. -/
def hParseFromPacket (E : Engine) (pkt nodeId sender : Ptr) : H Ptr :=
  match pkt, sender with
  | some _, some _ => do
    let node ← field sender 1
    let key ← field node 1
    let .curve kc ← scal key | undefined
    let sig ← field pkt 1
    let .sig sc _ ← scal sig | undefined
    if kc.id ≠ sc.id then hParseFailure .invalid .invalidInput
    else do
      let ct ← field pkt 0
      let ok ← hVerify E sig key ct
      if ok then do
        let b ← readBuf ct
        match (fieldsDec b).bind PPacket.unpack with
        | none => hParseFailure .valid .corruptPacket
        | some m =>
          onNull (hUnpack m.parts) (hParseFailure .valid .corruptPacket) fun x => hParseContent E x nodeId sender
      else hParseFailure .invalid .macInvalid
  | _, _ => hParseFailure .unknown .invalidInput

/-- protocol.c:749-799 `wickr_decode_result_from_parse_result`. -/
def hDecodeFromParse (E : Engine) (pkt parse dev own rchain sender : Ptr) : H Ptr :=
  match parse, own with
  | some _, some _ => do
    let .parse e st ← scal parse | undefined
    if e ≠ .success ∨ st ≠ .valid then pure none
    else do
      let set ← field parse 0
      let spub ← field set 0
      let x ← field parse 2
      let .ver v ← scal pkt | undefined
      onNull (hKxDeriveKey E sender rchain dev own spub x none v) (hDecCreate .keyExchangeFailed none none) fun k => do
        let c ← field parse 1
        onNull (hPayloadFromCipher E c k)
          (do
            let _ ← hCKeyDestroy k
            hDecCreate .keyExchangeFailed none none)
          fun d =>
            onNull (hDecCreate .success d k)
              (do
                let _ ← hCKeyDestroy k
                let _ ← hPayloadDestroy d
                pure none)
              fun r => pure r
  | _, _ => pure none

/-! ### wickr_ctx.c -/

/-- wickr_ctx.c:719-736 `wickr_ctx_packet_create`.  Fields: `packet`, `sender`, `parse_result`. -/
def hCtxPacketCreate (pkt sender parse : Ptr) : H Ptr :=
  match pkt, parse, sender with
  | some _, some _, some _ =>
    onNull (alloc (.obj .plain [none, none, none])) (pure none) fun p => do
      store p (.obj .plain [pkt, sender, parse])
      pure p
  | _, _, _ => pure none

/-- wickr_ctx.c:738-749 `wickr_ctx_packet_destroy`. -/
def hCtxPacketDestroy (p : Ptr) : H Ptr :=
  match p with
  | none => pure none
  | some _ => do
    destroyField hPacketDestroy p 0
    destroyField hChainDestroy p 1
    destroyField hParseDestroy p 2
    free p
    pure none

/-- wickr_ctx.c:751-786 `wickr_ctx_encode_packet`; `pk`, `pub` and `pri` are the keys drawn at lines 758 and 765. -/
def hCtxEncode (E : Engine) (p payload nodes : Ptr) (pk : CipherKey) (cv : Curve) (pub pri : Bytes) (rnd : MsgRand) : H Ptr :=
  match p, payload, nodes with
  | some _, some _, some _ =>
    onNull (hRandCKey pk) (pure none) fun k =>
      onNull (hRandKey cv pub pri) (do let _ ← hCKeyDestroy k; pure none) fun x => do
        let hk ← field p 3
        let chain ← field p 1
        let .ver v ← scal p | undefined
        let m ← hMsgCreate E hk k x payload nodes chain v rnd
        let _ ← hKeyDestroy x
        onNull (hEncCreate k m)
          (do
            let _ ← hCKeyDestroy k
            let _ ← hPacketDestroy m
            pure none)
          fun r => pure r
  | _, _, _ => pure none

/-- wickr_ctx.c:788-828 `__wickr_ctx_read_packet`, which is `wickr_ctx_stateless_parse_packet` (830-833). -/
def hReadPacket (E : Engine) (buf nodeId sender : Ptr) : H Ptr :=
  match buf with
  | none => pure none
  | some _ =>
    onNull (hPacketFromBuffer buf) (pure none) fun pkt =>
      onNull (hParseFromPacket E pkt nodeId sender) (do let _ ← hPacketDestroy pkt; pure none) fun r =>
        onNull (hChainCopy sender)
          (do
            let _ ← hPacketDestroy pkt
            let _ ← hParseDestroy r
            pure none)
          fun ch =>
            onNull (hCtxPacketCreate pkt ch r)
              (do
                let _ ← hChainDestroy ch
                let _ ← hPacketDestroy pkt
                let _ ← hParseDestroy r
                pure none)
              fun c => pure c

/-- wickr_ctx.c:835-838 `wickr_ctx_parse_packet`. -/
def hCtxParse (E : Engine) (p buf sender : Ptr) : H Ptr := do
  let chain ← field p 1
  let node ← field chain 1
  let i ← field node 0
  hReadPacket E buf i sender

/-- wickr_ctx.c:840-843 `wickr_ctx_parse_packet_no_decode`. -/
def hCtxParseNoDecode (E : Engine) (buf sender : Ptr) : H Ptr := hReadPacket E buf none sender

/-- wickr_ctx.c:845-852 `wickr_ctx_decode_packet`. -/
def hCtxDecode (E : Engine) (p pkt own : Ptr) : H Ptr :=
  match p, pkt with
  | some _, some _ => do
    let parse ← field pkt 2
    match parse with
    | none => pure none
    | some _ => do
      let m ← field pkt 0
      let di ← field p 0
      let dev ← field di 2
      let chain ← field p 1
      let sender ← field pkt 1
      hDecodeFromParse E m parse dev own chain sender
  | _, _ => pure none

end Wickr
