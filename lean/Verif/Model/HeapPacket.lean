import Verif.Model.HeapStream
import Verif.Model.HeapArr
import Verif.Model.Message
/-
Model of ecdsa.c, payload.c, key_exchange.c and the packet format of protocol.c on the heap: what writing and reading these
objects allocates and releases, beyond what HeapMsg and HeapArr have.
-/
namespace Wickr

/-! ### ecdsa.c -/

/-- ecdsa.c:22-49 `wickr_ecdsa_result_create_from_buffer` of bytes that are read in place. -/
def hSigFromBytes (b : Bytes) : H Ptr :=
  match ecdsaFromBuffer b with
  | none => pure none
  | some s => onNull (hBufCreate s.sig) (pure none) fun q => hSigCreate s.curve s.digest q

/-- buffer.c:27-59 `wickr_buffer_create_empty_zero`. -/
def hZeroBuf (n : Nat) : H Ptr :=
  match zeroBuf n with
  | none => pure none
  | some b => hOut b

/-- ecdsa.c:51-77 `wickr_ecdsa_result_serialize`: when the padding cannot be made the signature is written without it (70-73). -/
def hSigSerialize (p : Ptr) : H Ptr :=
  match p with
  | none => pure none
  | some _ => do
    let r ← readSig p
    if r.curve.sigSize < r.sig.length + 2 then pure none
    else do
      let hdr : UInt8 := (r.curve.id <<< 4) ||| r.digest.id
      let pad := UInt8.ofNat (r.curve.sigSize - r.sig.length - 2)
      let z ← hZeroBuf pad.toNat
      let zb ← readOpt z
      let o ← hConcatMulti [some [hdr], some [pad], zb, some r.sig]
      let _ ← hBufDestroy z
      pure o

/-! ### payload.c -/

/-- payload.c:65-107 `wickr_payload_serialize`; the protobuf structures are on the stack. -/
def hPayloadSerialize (p : Ptr) : H Ptr :=
  match p with
  | none => pure none
  | some _ => do
    let i ← field p 0
    let .info ttl bor ct ← scal i | undefined
    let t ← field i 0
    let tb ← readBuf t
    let d ← field p 1
    let db ← readBuf d
    hPack (payloadToProto ⟨⟨ttl, bor, tb, ct⟩, db⟩).pack

/-- payload.c:121-162: making a payload of the message `x`; `wickr_buffer_create` of a field is what `hFromProto` is. -/
def hPayloadFromProto (x : Ptr) (m : PPayload) : H Ptr := do
  let tb ← hPart x 0
  onNull (hFromProto tb) (do let _ ← hFreeUnpacked x; pure none) fun t =>
    onNull (hInfoCreate m.hdr.eph.ttl (m.hdr.eph.bor.getD 0) t (m.hdr.contentType.getD 0).toUInt16)
      (do
        let _ ← hBufDestroy t
        let _ ← hFreeUnpacked x
        pure none)
      fun i => do
        let bb ← hPart x 1
        let d ← hFromProto bb
        let _ ← hFreeUnpacked x
        match d with
        | none => do
          let _ ← hInfoDestroy i
          pure none
        | some _ =>
          onNull (hPayloadCreate i d)
            (do
              let _ ← hInfoDestroy i
              let _ ← hBufDestroyZero d
              pure none)
            fun r => pure r

/-- payload.c:109-163 `wickr_payload_create_from_buffer`: the unpacked message, which holds the text, is not wiped. -/
def hPayloadFromBuffer (p : Ptr) : H Ptr :=
  match p with
  | none => pure none
  | some _ => do
    let b ← readBuf p
    match (fieldsDec b).bind PPayload.unpack with
    | none => pure none
    | some m => onNull (hUnpack m.parts) (pure none) fun x => hPayloadFromProto x m

/-- payload.c:166-182 `wickr_payload_encrypt`; `iv` is the random IV. -/
def hPayloadEncrypt (E : Engine) (p key : Ptr) (iv : Bytes) : H Ptr :=
  match p, key with
  | some _, some _ =>
    onNull (hPayloadSerialize p) (pure none) fun b => do
      let r ← hEncrypt E b none key iv
      let _ ← hBufDestroyZero b
      pure r
  | _, _ => pure none

/-- payload.c:185-203 `wickr_payload_create_from_cipher`. -/
def hPayloadFromCipher (E : Engine) (r key : Ptr) : H Ptr :=
  match r, key with
  | some _, some _ =>
    onNull (hDecrypt E r none key true) (pure none) fun d => do
      let p ← hPayloadFromBuffer d
      let _ ← hBufDestroyZero d
      pure p
  | _, _ => pure none

/-! ### key_exchange.c: writing -/

/-- key_exchange.c:66-74 `__wickr_key_exchange_proto_free`. -/
def hExProtoFree (x : Ptr) : H Unit :=
  match x with
  | none => pure ()
  | some _ => do
    let q ← field x 0
    free q
    free x

/-- key_exchange.c:77-111 `__wickr_key_exchange_to_proto`.  The structure owns its data (field 0); its identifier points into the
exchange. -/
def hExToProto (p : Ptr) : H Ptr :=
  match p with
  | none => pure none
  | some _ =>
    onNull (alloc (.obj .plain [none])) (pure none) fun x => do
      let c ← field p 1
      onNull (hCResSerialize c) (do free x; pure none) fun d =>
        onNull (hToProto d)
          (do
            free x
            let _ ← hBufDestroy d
            pure none)
          fun q => do
            let _ ← hBufDestroy d
            store x (.obj .plain [q])
            pure x

/-- key_exchange.c:262-264: releasing the structures of an array. -/
def hExProtosFreeAll : List Ptr → H Unit
  | [] => pure ()
  | x :: xs => do
    hExProtoFree x
    hExProtosFreeAll xs

/-- key_exchange.c:255-267 `__wickr_key_exchange_proto_array_destroy`. -/
def hExProtosFree (arr : Ptr) : H Unit :=
  match arr with
  | none => pure ()
  | some _ => do
    let (_, xs) ← loadObj arr
    hExProtosFreeAll xs
    free arr

/-- key_exchange.c:345-361: filling in the array of structures from index `i` on; an unset slot and a structure that cannot be
made are treated alike. -/
def hExProtosFill (exs arr : Ptr) (i : Nat) : Nat → H Bool
  | 0 => pure true
  | k + 1 => do
    let e ← hArrSlot exs i
    let x ← hExToProto e
    match x with
    | none => do
      hExProtosFree arr
      pure false
    | some _ => do
      setField arr i x
      hExProtosFill exs arr (i + 1) k

/-- key_exchange.c:330-376 `__wickr_key_exchange_set_to_proto`: no array is made for 0 exchanges (memory.c:20-22).  The structure
owns the array (field 0); the sender's key is pointed to. -/
def hSetToProto (exs : Ptr) : H Ptr := do
  let n ← hArrCount exs
  if n = 0 then pure none
  else
    onNull (alloc (.obj .plain (List.replicate n none))) (pure none) fun arr => do
      let ok ← hExProtosFill exs arr 0 n
      if ok then
        onNull (alloc (.obj .plain [none])) (do hExProtosFree arr; pure none) fun x => do
          store x (.obj .plain [arr])
          pure x
      else pure none

/-- key_exchange.c:269-277 `__wickr_key_exchange_set_proto_free`. -/
def hSetProtoFree (x : Ptr) : H Unit :=
  match x with
  | none => pure ()
  | some _ => do
    let arr ← field x 0
    hExProtosFree arr
    free x

/-- What is packed: the identifiers are read through the exchanges, the data through the structures. -/
def hExProtosRead (exs arr : Ptr) (i : Nat) : Nat → H (List PExchange)
  | 0 => pure []
  | k + 1 => do
    let e ← hArrSlot exs i
    let .num n ← scal e | undefined
    let s ← field e 0
    let sb ← readBuf s
    let x ← field arr i
    let q ← field x 0
    let d ← loadBytes q
    let ms ← hExProtosRead exs arr (i + 1) k
    pure (⟨sb, n, d⟩ :: ms)

/-- key_exchange.c:378-403 `wickr_key_exchange_set_serialize` of a set with these parts. -/
def hSetWrite (key exs : Ptr) : H Ptr :=
  onNull (hSetToProto exs) (pure none) fun x => do
    let pub ← field key 0
    let pb ← readBuf pub
    let n ← hArrCount exs
    let arr ← field x 0
    let ms ← hExProtosRead exs arr 0 n
    let o ← hPack (PExchangeSet.pack ⟨pb, ms⟩)
    hSetProtoFree x
    pure o

/-- key_exchange.c:378-403 `wickr_key_exchange_set_serialize`. -/
def hSetSerialize (p : Ptr) : H Ptr :=
  match p with
  | none => pure none
  | some _ => do
    let key ← field p 0
    let exs ← field p 1
    hSetWrite key exs

/-- key_exchange.c:426-444 `wickr_key_exchange_set_encrypt` of a set with these parts; `iv` is the random IV. -/
def hSetSeal (E : Engine) (key exs hk : Ptr) (iv : Bytes) : H Ptr :=
  match hk with
  | none => pure none
  | some _ =>
    onNull (hSetWrite key exs) (pure none) fun b => do
      let r ← hEncrypt E b none hk iv
      let _ ← hBufDestroyZero b
      pure r

/-- key_exchange.c:426-444 `wickr_key_exchange_set_encrypt`. -/
def hSetEncrypt (E : Engine) (p hk : Ptr) (iv : Bytes) : H Ptr :=
  match p with
  | none => pure none
  | some _ => do
    let key ← field p 0
    let exs ← field p 1
    hSetSeal E key exs hk iv

/-! ### key_exchange.c: reading -/

/-- key_exchange.c:113-144 `__wickr_key_exchange_create_with_proto`: the identifier is field `j` of the message `x`, the data
field `j + 1`; an empty field is NULL. -/
def hExFromProto (x : Ptr) (j : Nat) (n : UInt64) : H Ptr := do
  let d ← hPart x (j + 1)
  let i ← hPart x j
  if d = [] ∨ i = [] then pure none
  else do
    let b ← hFromProto d
    let c ← hCResFromBuffer b
    let _ ← hBufDestroy b
    match c with
    | none => pure none
    | some _ =>
      onNull (hFromProto i) (do let _ ← hCResDestroy c; pure none) fun s =>
        onNull (hExCreate s n c)
          (do
            let _ ← hBufDestroy s
            let _ ← hCResDestroy c
            pure none)
          fun r => pure r

/-- key_exchange.c:296-311: the exchanges from index `i` on. -/
def hExsFromProto (x exs : Ptr) (i : Nat) : List PExchange → H Bool
  | [] => pure true
  | m :: ms => do
    let e ← hExFromProto x (1 + 2 * i) m.keyId
    match e with
    | none => do
      let _ ← hExsDestroy exs
      pure false
    | some _ => do
      let ok ← hArrSet hExCopy hExDestroy exs i e false
      if ok then hExsFromProto x exs (i + 1) ms
      else do
        let _ ← hExDestroy e
        let _ ← hExsDestroy exs
        pure false

/-- key_exchange.c:278-328 `__wickr_key_exchange_set_create_with_proto`. -/
def hSetFromProto (E : Engine) (x : Ptr) (m : PExchangeSet) : H Ptr :=
  if m.exchanges.length = 0 ∨ m.exchanges.length > 2147483647 ∨ m.senderPub = [] then pure none
  else
    onNull (hArrNew m.exchanges.length) (pure none) fun exs => do
      let ok ← hExsFromProto x exs 0 m.exchanges
      if ok then do
        let kb ← hPart x 0
        onNull (hImportBytes E kb false) (do let _ ← hExsDestroy exs; pure none) fun k =>
          onNull (hSetCreate k exs)
            (do
              let _ ← hExsDestroy exs
              let _ ← hKeyDestroy k
              pure none)
            fun r => pure r
      else pure none

/-- key_exchange.c:405-424 `wickr_key_exchange_set_create_from_buffer`. -/
def hSetFromBuffer (E : Engine) (p : Ptr) : H Ptr :=
  match p with
  | none => pure none
  | some _ => do
    let b ← readBuf p
    match (fieldsDec b).bind PExchangeSet.unpack with
    | none => pure none
    | some m =>
      onNull (hUnpack m.parts) (pure none) fun x => do
        let r ← hSetFromProto E x m
        let _ ← hFreeUnpacked x
        pure r

/-- key_exchange.c:446-464 `wickr_key_exchange_set_create_from_cipher`. -/
def hSetFromCipher (E : Engine) (r hk : Ptr) : H Ptr :=
  match r, hk with
  | some _, some _ =>
    onNull (hDecrypt E r none hk true) (pure none) fun d => do
      let s ← hSetFromBuffer E d
      let _ ← hBufDestroyZero d
      pure s
  | _, _ => pure none

/-- key_exchange.c:203-208: the search from index `i` on; an unset slot is dereferenced. -/
def hExsFind (exs s : Ptr) (i : Nat) : Nat → H Ptr
  | 0 => pure none
  | k + 1 => do
    let e ← hArrSlot exs i
    let q ← field e 0
    let eq ← hIsEqual s q
    if eq then hExCopy e else hExsFind exs s (i + 1) k

/-- key_exchange.c:196-211 `wickr_key_exchange_set_find`. -/
def hSetFind (p s : Ptr) : H Ptr :=
  match p, s with
  | some _, some _ => do
    let exs ← field p 1
    let n ← hArrCount exs
    hExsFind exs s 0 n
  | _, _ => pure none

/-! ### protocol.c: packets -/

/-- protocol.c:258-310 `wickr_packet_create_with_components`: whether the payload could be written is not tested (275-276).
`nonce` is the signing nonce. -/
def hPacketCreateWith (E : Engine) (header payload key : Ptr) (v : UInt8) (nonce : Bytes) : H Ptr :=
  match payload, key with
  | some _, some _ =>
    onNull (hCResSerialize header) (pure none) fun hb => do
      let pb ← hCResSerialize payload
      let hd ← readBuf hb
      let pd ← readBuf pb
      onNull (hPack (PPacket.pack ⟨hd, pd⟩))
        (do
          let _ ← hBufDestroy hb
          let _ ← hBufDestroy pb
          pure none)
        fun o => do
          let _ ← hBufDestroy hb
          let _ ← hBufDestroy pb
          let .curve cv ← scal key | undefined
          onNull (hSign E key o (digestMatchingCurve cv) nonce) (do let _ ← hBufDestroy o; pure none) fun s =>
            onNull (hPacketCreate v o s)
              (do
                let _ ← hBufDestroy o
                let _ ← hSigDestroy s
                pure none)
              fun r => pure r
  | _, _ => pure none

/-- protocol.c:354-379: the end of `wickr_packet_create_from_buffer`: a signature of another kind is not released (356-360). -/
def hPacketTake (b : Bytes) (v : UInt8) (cv : Curve) (s : Ptr) : H Ptr :=
  match s with
  | none => pure none
  | some _ => do
    let .sig scv d ← scal s | undefined
    if d.id ≠ (digestMatchingCurve cv).id ∨ scv.id ≠ cv.id then pure none
    else
      match copySection b 2 (b.length - cv.sigSize - 2) with
      | none => do
        let _ ← hSigDestroy s
        pure none
      | some ct =>
        onNull (hBufCreate ct) (do let _ ← hSigDestroy s; pure none) fun q =>
          onNull (hPacketCreate v q s)
            (do
              let _ ← hSigDestroy s
              let _ ← hBufDestroy q
              pure none)
            fun r => pure r

/-- protocol.c:312-380 `wickr_packet_create_from_buffer`. -/
def hPacketFromBuffer (p : Ptr) : H Ptr :=
  match p with
  | none => pure none
  | some _ => do
    let b ← readBuf p
    if b.length ≤ 2 then pure none
    else match b with
      | v :: b1 :: _ =>
        if v > 4 ∨ v < 2 then pure none
        else match Curve.find (msgSigType v b1) with
          | none => pure none
          | some cv =>
            if b.length ≤ 2 + cv.sigSize then pure none
            else do
              let s ← hSigFromBytes ((b.drop (b.length - cv.sigSize)).take cv.sigSize)
              hPacketTake b v cv s
      | _ => pure none

/-- protocol.c:382-410 `wickr_packet_serialize`: a written signature of another length is not released (396-398). -/
def hPacketSerialize (p : Ptr) : H Ptr :=
  match p with
  | none => pure none
  | some _ => do
    let .ver v ← scal p | undefined
    let s ← field p 1
    let .sig cv _ ← scal s | undefined
    onNull (hSigSerialize s) (pure none) fun sd => do
      let sb ← readBuf sd
      if sb.length ≠ cv.sigSize then pure none
      else do
        let q ← field p 0
        let ct ← readBuf q
        let o ← hConcatMulti [some [v], some [cv.id], some ct, some sb]
        let _ ← hBufDestroy sd
        pure o

end Wickr
