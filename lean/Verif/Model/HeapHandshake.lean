import Verif.Model.HeapTransport
import Verif.Model.HeapStream
import Verif.Model.HeapArr
/-
Model of transport_handshake.c, transport_handshake_priv.c and transport_root_key_priv.c on the heap.

A handshake is one block; fields: `local_identity`, `remote_identity`, `packet_list`, `local_ephemeral_key`, `root_key`,
`pending_identity_verify_packet`.

Simplifications: engine, callback, user pointer and protocol version are not part of the block (the version is always 1).  Structures
made for packing and unpacked messages are as in HeapProto and HeapUnpack; which member of a union is set is known where the
structure is made.  The callback is not run: `wickr_transport_handshake_process` returns the copy of the chain it hands to it, which from
then on belongs to the application.  Random values are arguments.  Where a failing function releases several objects, marks the handshake
as failed and returns, the order is that of the first such place.
-/
namespace Wickr

/-! ### Root keys in messages -/

/-- transport_root_key_priv.c:7-36 `wickr_transport_root_key_to_proto`: the structure owns the bytes of the secret (field 0). -/
def hRootToProto (p : Ptr) : H Ptr :=
  match p with
  | none => pure none
  | some _ =>
    onNull (alloc (.obj .plain [none])) (pure none) fun x => do
      let s ← field p 0
      onNull (hToProto s) (do free x; pure none) fun q => do
        store x (.obj .plain [q])
        pure x

/-- What is packed. -/
def hRootProtoRead (p x : Ptr) : H PTransportRootKey := do
  let q ← field x 0
  let s ← loadBytes q
  let .root ci a b ← scal p | undefined
  pure ⟨some s, some ci.id.toUInt32, some a, some b⟩

/-- transport_root_key_priv.c:69-77 `wickr_transport_root_key_proto_free`: the secret is not wiped. -/
def hRootProtoFree (x : Ptr) : H Unit :=
  match x with
  | none => pure ()
  | some _ => do
    let q ← field x 0
    free q
    free x

/-- stream.proto `HandshakeV1ResponseData`: the fields of bytes. -/
def PResponseData.parts (m : PResponseData) : List Bytes := [optBytes (m.rootKey.bind (·.secret))]

/-- transport_root_key_priv.c:38-67 `wickr_transport_root_key_from_proto`; `x` is the unpacked message. -/
def hRootFromProto (x : Ptr) (m : PTransportRootKey) : H Ptr :=
  match m.secret, m.cipherId, m.ppeSend, m.ppeRecv with
  | some _, some c, some a, some b => do
    let sb ← hPart x 0
    onNull (hFromProto sb) (pure none) fun s =>
      match Cipher.find c.toUInt8 with
      | none => do
        let _ ← hBufDestroyZero s
        pure none
      | some ci => onNull (hTRootCreate s ci a b) (do let _ ← hBufDestroyZero s; pure none) fun r => pure r
  | _, _, _, _ => pure none

/-! ### Handshake messages -/

/-- transport_handshake_priv.c:42-47 `wickr_proto_handshake_seed_free`.  Fields: `id_chain`, `ephemeral_pubkey`. -/
def hSeedFree (x : Ptr) : H Unit := do
  let c ← field x 0
  hChainProtoFree c
  let e ← field x 1
  free e
  free x

/-- transport_handshake_priv.c:9-40 `wickr_proto_handshake_seed_create`: if one of the parts is missing, the other is not released
(29-37). -/
def hSeedCreate (chain eph : Ptr) : H Ptr :=
  match chain with
  | none => pure none
  | some _ =>
    onNull (alloc (.obj .plain [none, none])) (pure none) fun x => do
      let c ← hChainToProto chain false
      onNull (hToProto eph) (do free x; pure none) fun e =>
        match c with
        | none => do
          free x
          pure none
        | some _ => do
          store x (.obj .plain [c, e])
          pure x

/-- What is packed. -/
def hSeedRead (chain x : Ptr) (needsRemote : Bool) : H PHandshake := do
  let c ← field x 0
  let cm ← hChainProtoRead chain c false
  let e ← field x 1
  let eb ← loadBytes e
  pure (.seed ⟨some cm, some eb, some needsRemote⟩)

/-- transport_handshake_priv.c:150-160 `wickr_proto_handshake_response_free`.  Fields: `id_chain`, `ephemeral_pubkey`,
`encrypted_response_data`. -/
def hResponseFree (x : Ptr) : H Unit :=
  match x with
  | none => pure ()
  | some _ => do
    let c ← field x 0
    hChainProtoFree c
    let e ← field x 1
    free e
    let d ← field x 2
    free d
    free x

/-- transport_handshake_priv.c:133-147: the bytes of a response; if one of them is missing, what was made before is not
released. -/
def hResponseFill (x c eph enc : Ptr) : H Ptr :=
  onNull (hToProto eph) (do free x; pure none) fun e =>
    onNull (hToProto enc) (do free x; pure none) fun d => do
      store x (.obj .plain [c, e, d])
      pure x

/-- transport_handshake_priv.c:110-148 `wickr_proto_handshake_response_create`. -/
def hResponseCreate (eph enc chain : Ptr) : H Ptr :=
  match eph, enc with
  | some _, some _ =>
    onNull (alloc (.obj .plain [none, none, none])) (pure none) fun x =>
      match chain with
      | none => hResponseFill x none eph enc
      | some _ => onNull (hChainToProto chain false) (do free x; pure none) fun c => hResponseFill x c eph enc
  | _, _ => pure none

/-- What is packed. -/
def hResponseRead (chain x : Ptr) : H PHandshake := do
  let c ← field x 0
  let e ← field x 1
  let eb ← loadBytes e
  let d ← field x 2
  let db ← loadBytes d
  match c with
  | none => pure (.response ⟨some eb, some db, none⟩)
  | some _ => do
    let cm ← hChainProtoRead chain c false
    pure (.response ⟨some eb, some db, some cm⟩)

/-- transport_handshake_priv.c:162-200 `wickr_proto_handshake_create_with_seed`, `wickr_proto_handshake_create_with_response`. -/
def hWrap (x : Ptr) : H Ptr :=
  match x with
  | none => pure none
  | some _ =>
    onNull (alloc (.obj .plain [none])) (pure none) fun w => do
      store w (.obj .plain [x])
      pure w

/-- transport_handshake_priv.c:202-219 `wickr_proto_handshake_free`, of a message with a seed or a response. -/
def hUnwrap (inner : Ptr → H Unit) (w : Ptr) : H Unit :=
  match w with
  | none => pure ()
  | some _ => do
    let x ← field w 0
    inner x
    free w

/-- transport_handshake_priv.c:258-280 `wickr_proto_handshake_to_packet` (221-238); `read` is what is packed. -/
def hToPacket (read : H PHandshake) : H Ptr := do
  let m ← read
  onNull (hPack m.pack) (pure none) fun b =>
    onNull (hTPktCreate (metaInitHandshake 1 macNone) b) (do let _ ← hBufDestroy b; pure none) fun p => pure p

/-- stream.proto `HandshakeV1.Seed`, `HandshakeV1.Response`, `HandshakeV1`: the fields of bytes. -/
def PHandshake.parts : PHandshake → List Bytes
  | .unset => []
  | .seed s => chainParts s.idChain ++ [optBytes s.ephPub]
  | .response r => chainParts r.idChain ++ [optBytes r.ephPub, optBytes r.encData]

/-- transport_handshake_priv.c:240-256 `wickr_proto_handshake_from_packet`: the message, and where it was unpacked. -/
def hFromPacket (p : Ptr) : H (Option (PHandshake × Ptr)) := do
  let .tpkt hdr ← scal p | undefined
  match hdr.body with
  | .data _ => pure none
  | .handshake _ _ => do
    let q ← field p 0
    let b ← readBuf q
    match (fieldsDec b).bind PHandshake.unpack with
    | none => pure none
    | some m => do
      let x ← hUnpack m.parts
      match x with
      | none => pure none
      | some _ => pure (some (m, x))

/-! ### The keys -/

/-- transport_handshake.c:18-35 `wickr_transport_handshake_res_create`. -/
def hResCreate (l r : Ptr) : H Ptr :=
  match l, r with
  | some _, some _ =>
    onNull (alloc (.obj .plain [none, none])) (pure none) fun x => do
      store x (.obj .plain [l, r])
      pure x
  | _, _ => pure none

/-- transport_handshake.c:63-74 `wickr_transport_handshake_res_destroy`. -/
def hResDestroy (p : Ptr) : H Ptr :=
  match p with
  | none => pure none
  | some _ => do
    destroyField hSKeyDestroy p 0
    destroyField hSKeyDestroy p 1
    free p
    pure none

/-- transport_handshake.c:46-60: a result is made of two copies, which are released if it cannot be. -/
def hResJoin (l r : Ptr) : H Ptr :=
  onNull (hResCreate l r)
    (do
      let _ ← hSKeyDestroy l
      let _ ← hSKeyDestroy r
      pure none)
    fun x => pure x

/-- transport_handshake.c:37-61 `wickr_transport_handshake_res_copy`. -/
def hResCopy (p : Ptr) : H Ptr :=
  match p with
  | none => pure none
  | some _ => do
    let l ← field p 0
    let lc ← hSKeyCopy l
    let r ← field p 1
    let rc ← hSKeyCopy r
    hResJoin lc rc

/-! ### Handshakes -/

/-- transport_handshake.c:213-228 `wickr_transport_handshake_destroy`. -/
def hHsDestroy (p : Ptr) : H Ptr :=
  match p with
  | none => pure none
  | some _ => do
    destroyField hChainDestroy p 0
    destroyField hChainDestroy p 1
    destroyField (fun l => hArrDestroy hBufDestroy l true) p 2
    destroyField hKeyDestroy p 3
    destroyField hTRootDestroy p 4
    destroyField hTPktDestroy p 5
    free p
    pure none

/-- A handshake that is marked as failed. -/
def hHsFail (p : Ptr) : H Unit := do
  let .hs _ i evo ← scal p | undefined
  setScal p (.hs .failed i evo)

/-- `handshake->status = …`. -/
def hHsStatus (p : Ptr) (s : HsStatus) : H Unit := do
  let .hs _ i evo ← scal p | undefined
  setScal p (.hs s i evo)

/-- A packet is recorded; whether that worked is not tested (transport_handshake.c:243, 381, 510). -/
def hHsRecord (p pkt : Ptr) (i : Nat) : H Unit := do
  let l ← field p 2
  let n ← field pkt 2
  let _ ← hArrSet hBufCopy hBufDestroy l i n true
  pure ()

/-- transport_handshake.c:230-246 `__wickr_transport_handshake_build_signed_packet`: a packet that cannot be signed is not
released. -/
def hBuildSigned (E : Engine) (p : Ptr) (read : H PHandshake) (nonce : Bytes) (i : Nat) : H Ptr :=
  onNull (hToPacket read) (do hHsFail p; pure none) fun q => do
    let self ← field p 0
    let ok ← hTPktSign E q self nonce
    if ok then do
      hHsRecord p q i
      pure q
    else do
      hHsFail p
      pure none

/-- transport_handshake.c:283-299: the packet with a seed. -/
def hHsSendSeed (E : Engine) (p seed : Ptr) (needsRemote : Bool) (nonce : Bytes) : H Ptr :=
  onNull (hWrap seed)
    (do
      hSeedFree seed
      hHsFail p
      pure none)
    fun w => do
      let self ← field p 0
      let q ← hBuildSigned E p (do let s ← field w 0; hSeedRead self s needsRemote) nonce 0
      hUnwrap hSeedFree w
      onNull (pure q) (do hHsFail p; pure none) fun q => pure q

/-- transport_handshake.c:248-300 `wickr_transport_handshake_start`. -/
def hHsStart (E : Engine) (p : Ptr) (r : HsRand) : H Ptr :=
  match p with
  | none => pure none
  | some _ => do
    let .hs st _ evo ← scal p | undefined
    if st ≠ .unknown then do
      hHsFail p
      pure none
    else do
      setScal p (.hs .inProgress true evo)
      let k ← hRandKey r.eph.curve r.eph.pub (optBytes r.eph.pri)
      setField p 3 k
      match k with
      | none => do
        hHsFail p
        pure none
      | some _ => do
        let remote ← field p 1
        let self ← field p 0
        let e ← field p 3
        let pub ← field e 0
        onNull (hSeedCreate self pub) (do hHsFail p; pure none) fun seed =>
          hHsSendSeed E p seed remote.isNone r.nonce

/-- transport_handshake.c:342-356: parameters whose info is the hash of `info`; if they cannot be made, the hash is not
released. -/
def hHsKdfHash (E : Engine) (info : Ptr) : H Ptr := do
  let hash ← hDigest E info none .sha512
  let _ ← hBufDestroy info
  onNull (pure hash) (pure none) fun hash => hKdfMetaCreate hkdfSha512 none hash

/-- transport_handshake.c:302-357 `__wickr_transport_handshake_kdf_meta_gen`. -/
def hHsKdfMeta (E : Engine) (p own peer : Ptr) : H Ptr := do
  let self ← field p 0
  onNull (hChainSerialize self false) (pure none) fun l => do
    let remote ← field p 1
    onNull (hChainSerialize remote false) (do let _ ← hBufDestroy l; pure none) fun r => do
      let .hs _ i _ ← scal p | undefined
      let lb ← readBuf l
      let rb ← readBuf r
      let oq ← field own 0
      let ob ← readBuf oq
      let pq ← field peer 0
      let pb ← readBuf pq
      let info ← hConcatMulti (if i then [some lb, some rb, some ob, some pb] else [some rb, some lb, some pb, some ob])
      let _ ← hBufDestroy l
      let _ ← hBufDestroy r
      onNull (pure info) (pure none) fun info => hHsKdfHash E info

/-- transport_handshake.c:364: the chain that came with the packet, at the start of the unpacked message `x`. -/
def hReadIdentity (E : Engine) (x : Ptr) (m : Option PChain) : H Ptr :=
  match m with
  | none => pure none
  | some cm => hChainFromProto E x 0 cm

/-- transport_handshake.c:372-373. -/
def hHsCheck (E : Engine) (p pkt : Ptr) : H Bool := do
  let remote ← field p 1
  hTPktVerify E pkt remote

/-- transport_handshake.c:358-375 `__wickr_transport_handshake_process_remote_identity`. -/
def hHsRemoteIdentity (E : Engine) (p pkt x : Ptr) (m : Option PChain) : H Bool := do
  let remote ← field p 1
  match remote with
  | some _ => hHsCheck E p pkt
  | none => do
    let c ← hReadIdentity E x m
    setField p 1 c
    hHsStatus p .pendingVerification
    match c with
    | none => pure false
    | some _ => hHsCheck E p pkt

/-- A field of bytes of a message, put into a buffer for `op` (transport_handshake.c:404-407, 436-439). -/
def hViaBuf (b : Bytes) (op : Ptr → H Ptr) : H Ptr := do
  let d ← hFromProto b
  let r ← op d
  let _ ← hBufDestroy d
  pure r

/-- transport_handshake.c:404-447: what the response is opened with: the cipher result, a context with a copy of the own key, and the
key of the other side. -/
def hRespKeys (E : Engine) (p x : Ptr) : H (Option (Ptr × Ptr × Ptr)) := do
  let db ← hPart x 7
  let enc ← hViaBuf db hCResFromBuffer
  match enc with
  | none => pure none
  | some _ => do
    let e ← field p 3
    let own ← hKeyCopy e
    match own with
    | none => do
      let _ ← hCResDestroy enc
      pure none
    | some _ => do
      let .cipher ci ← scal enc | undefined
      let ctx ← hEcdhCreate own ci
      match ctx with
      | none => do
        let _ ← hKeyDestroy own
        let _ ← hCResDestroy enc
        pure none
      | some _ => do
        let eb ← hPart x 6
        let peer ← hViaBuf eb (hImport E · false)
        match peer with
        | none => do
          let _ ← hEcdhDestroy ctx
          let _ ← hCResDestroy enc
          pure none
        | some _ => pure (some (enc, ctx, peer))

/-- transport_handshake.c:485-494: reading the root key; a message without one is not released. -/
def hRespRoot (b : Ptr) : H Ptr := do
  let bs ← readBuf b
  match (fieldsDec bs).bind PResponseData.unpack with
  | none => do
    let _ ← hBufDestroyZero b
    pure none
  | some m => do
    let x ← hUnpack m.parts
    let _ ← hBufDestroyZero b
    match x with
    | none => pure none
    | some _ =>
      match m.rootKey with
      | none => pure none
      | some km => do
        let r ← hRootFromProto x km
        let _ ← hFreeUnpacked x
        pure r

/-- transport_handshake.c:460-494: decrypting the response and reading the root key. -/
def hRespOpen (E : Engine) (p enc ctx peer : Ptr) : H Ptr := do
  let own ← field p 3
  onNull (hHsKdfMeta E p own peer)
    (do
      let _ ← hKeyDestroy peer
      let _ ← hEcdhDestroy ctx
      let _ ← hCResDestroy enc
      pure none)
    fun km => do
      let b ← hEcdhDecipher E ctx enc peer km
      let _ ← hKeyDestroy peer
      let _ ← hKdfMetaDestroy km
      let _ ← hEcdhDestroy ctx
      let _ ← hCResDestroy enc
      onNull (pure b) (pure none) fun b => hRespRoot b

/-- transport_handshake.c:493-503: the root key goes into the handshake. -/
def hRespDone (p rk : Ptr) : H Unit :=
  match rk with
  | none => hHsFail p
  | some _ => do
    setField p 4 rk
    let .hs st _ _ ← scal p | undefined
    if st = .inProgress then hHsStatus p .pendingFinalization else pure ()

/-- transport_handshake.c:404-503: what is done with a response that is complete. -/
def hRespHandle (E : Engine) (p pkt x : Ptr) (r : PResponse) : H Unit := do
  let ks ← hRespKeys E p x
  match ks with
  | none => do
    hHsFail p
    let _ ← hFreeUnpacked x
    pure ()
  | some (enc, ctx, peer) => do
    let ok ← hHsRemoteIdentity E p pkt x r.idChain
    if ok then do
      let _ ← hFreeUnpacked x
      let rk ← hRespOpen E p enc ctx peer
      hRespDone p rk
    else do
      let _ ← hEcdhDestroy ctx
      let _ ← hCResDestroy enc
      let _ ← hFreeUnpacked x
      let _ ← hKeyDestroy peer
      hHsFail p

/-- transport_handshake.c:377-504 `__wickr_transport_handshake_process_response`. -/
def hProcessResponse (E : Engine) (p pkt : Ptr) : H Unit := do
  hHsRecord p pkt 1
  let m ← hFromPacket pkt
  match m with
  | none => hHsFail p
  | some (.seed _, _) => undefined
  | some (.unset, x) => do
    hHsFail p
    let _ ← hFreeUnpacked x
    pure ()
  | some (.response r, x) => do
    let remote ← field p 1
    if r.encData.isNone ∨ r.ephPub.isNone ∨ (remote.isNone ∧ r.idChain.isNone) then do
      hHsFail p
      let _ ← hFreeUnpacked x
      pure ()
    else hRespHandle E p pkt x r

/-- transport_handshake.c:566-577 with transport_handshake_priv.c:49-108: the root key, serialized.  The bytes of the secret in the
structures are not wiped. -/
def hRespData (rk : Ptr) : H Ptr :=
  onNull (hRootToProto rk) (pure none) fun x =>
    onNull (hWrap x) (do hRootProtoFree x; pure none) fun w => do
      let x ← field w 0
      let m ← hRootProtoRead rk x
      let b ← hPack (PResponseData.pack ⟨some m⟩)
      hUnwrap hRootProtoFree w
      pure b

/-- transport_handshake.c:587-609: the encrypted root key; the serialized root key is not wiped. -/
def hRespSeal (E : Engine) (p ctx data peer : Ptr) (iv : Bytes) : H Ptr := do
  let own ← field ctx 0
  let km ← hHsKdfMeta E p own peer
  let res ← hEcdhCipher E ctx data peer km iv
  let _ ← hKdfMetaDestroy km
  let _ ← hBufDestroy data
  let _ ← hKeyDestroy peer
  onNull (pure res) (pure none) fun res => do
    let b ← hCResSerialize res
    let _ ← hCResDestroy res
    pure b

/-- transport_handshake.c:566-618: the response, without its wrapper; `x` is the unpacked seed. -/
def hRespMake (E : Engine) (p ctx peer x : Ptr) (iv : Bytes) (required : Bool) : H Ptr := do
  let rk ← field p 4
  onNull (hRespData rk)
    (do
      let _ ← hFreeUnpacked x
      let _ ← hEcdhDestroy ctx
      let _ ← hKeyDestroy peer
      pure none)
    fun data =>
      onNull (hRespSeal E p ctx data peer iv)
        (do
          let _ ← hFreeUnpacked x
          let _ ← hEcdhDestroy ctx
          pure none)
        fun b => do
          let self ← field p 0
          let own ← field ctx 0
          let pub ← field own 0
          let r ← hResponseCreate pub b (if required then self else none)
          let _ ← hFreeUnpacked x
          let _ ← hEcdhDestroy ctx
          let _ ← hBufDestroy b
          pure r

/-- transport_handshake.c:634-640: without an identity to be verified, the handshake can be finalized. -/
def hHsReplied (p q : Ptr) : H Ptr := do
  let .hs st _ _ ← scal p | undefined
  if st = .unknown then do
    hHsStatus p .pendingFinalization
    pure q
  else pure q

/-- transport_handshake.c:620-640: the packet with a response. -/
def hHsSendResponse (E : Engine) (p resp : Ptr) (nonce : Bytes) : H Ptr :=
  onNull (hWrap resp)
    (do
      hResponseFree resp
      hHsFail p
      pure none)
    fun w => do
      let self ← field p 0
      let q ← hBuildSigned E p (do let s ← field w 0; hResponseRead self s) nonce 1
      hUnwrap hResponseFree w
      onNull (pure q) (do hHsFail p; pure none) fun q => hHsReplied p q

/-- transport_handshake.c:546-640: what is done with a seed that is authentic; without a root key, `ctx` and `peer` are not released
(560-564). -/
def hSeedHandle (E : Engine) (p peer x : Ptr) (r : HsRand) (required : Bool) : H Ptr := do
  let .curve cv ← scal peer | undefined
  onNull (hEcdhNew cv defaultCipher r.eph.pub (optBytes r.eph.pri))
    (do
      let _ ← hFreeUnpacked x
      let _ ← hKeyDestroy peer
      hHsFail p
      pure none)
    fun ctx => do
      let .hs _ _ evo ← scal p | undefined
      let rk ← hTRootRandom r.secret defaultCipher evo evo
      setField p 4 rk
      match rk with
      | none => do
        let _ ← hFreeUnpacked x
        hHsFail p
        pure none
      | some _ => onNull (hRespMake E p ctx peer x r.iv required) (do hHsFail p; pure none) fun resp =>
          hHsSendResponse E p resp r.nonce

/-- transport_handshake.c:521-544: the signature is checked and the key of the other side read. -/
def hSeedCheck (E : Engine) (p pkt x : Ptr) (s : PSeed) : H Ptr := do
  let ok ← hHsRemoteIdentity E p pkt x s.idChain
  if ok then do
    let eb ← hPart x 6
    onNull (hFromProto eb) (pure none) fun kd => do
      let k ← hImport E kd false
      let _ ← hBufDestroy kd
      pure k
  else pure none

/-- transport_handshake.c:506-641 `__wickr_transport_handshake_process_initial`. -/
def hProcessInitial (E : Engine) (p pkt : Ptr) (r : HsRand) : H Ptr := do
  hHsRecord p pkt 0
  let m ← hFromPacket pkt
  match m with
  | none => do
    hHsFail p
    pure none
  | some (.response _, _) => undefined
  | some (.unset, x) => do
    let _ ← hFreeUnpacked x
    hHsFail p
    pure none
  | some (.seed s, x) =>
    match s.ephPub, s.identityRequired with
    | some _, some required =>
      onNull (hSeedCheck E p pkt x s)
        (do
          let _ ← hFreeUnpacked x
          hHsFail p
          pure none)
        fun peer => hSeedHandle E p peer x r required
    | _, _ => do
      let _ ← hFreeUnpacked x
      hHsFail p
      pure none

/-- transport_handshake.c:711-737: what is done after the packet: the packet to send, and the chain that is handed to the callback.
If the chain cannot be copied nobody is asked (726). -/
def hProcessEnd (p q : Ptr) : H (Ptr × Ptr) := do
  let .hs st _ _ ← scal p | undefined
  match st with
  | .failed => pure (none, none)
  | .pendingVerification => do
    setField p 5 q
    let c ← field p 1
    let copy ← hChainCopy c
    pure (none, copy)
  | _ => pure (q, none)

/-- transport_handshake.c:687-738 `wickr_transport_handshake_process` (643-659). -/
def hHsProcess (E : Engine) (p pkt : Ptr) (r : HsRand) : H (Ptr × Ptr) :=
  match p with
  | none => pure (none, none)
  | some _ =>
    match pkt with
    | none => do
      hHsFail p
      pure (none, none)
    | some _ => do
      let .tpkt hdr ← scal pkt | undefined
      let version := match hdr.body with | .handshake v _ => v | .data seq => seq.toUInt8
      if version ≠ hsVersion then do
        hHsFail p
        pure (none, none)
      else do
        let .hs st _ _ ← scal p | undefined
        match st with
        | .unknown => do
          let q ← hProcessInitial E p pkt r
          hProcessEnd p q
        | .inProgress => do
          hProcessResponse E p pkt
          hProcessEnd p none
        | _ => do
          hHsFail p
          pure (none, none)

/-- transport_handshake.c:661-685 `wickr_transport_handshake_verify_identity`. -/
def hHsVerify (p : Ptr) (valid : Bool) : H Ptr :=
  match p with
  | none => pure none
  | some _ => do
    let .hs st _ _ ← scal p | undefined
    if !valid ∨ st ≠ .pendingVerification then do
      hHsFail p
      destroyField hTRootDestroy p 4
      pure none
    else do
      let rk ← field p 4
      hHsStatus p (if rk.isSome then .pendingFinalization else .inProgress)
      let q ← field p 5
      setField p 5 none
      pure q

/-- transport_handshake.c:780-800: the result of a handshake. -/
def hHsResult (p sk rk : Ptr) : H Ptr := do
  let .hs _ i _ ← scal p | undefined
  onNull (if i then hResCreate sk rk else hResCreate rk sk)
    (do
      let _ ← hSKeyDestroy sk
      let _ ← hSKeyDestroy rk
      hHsFail p
      pure none)
    fun r => do
      hHsStatus p .complete
      pure r

/-- transport_handshake.c:751-764: the hash of the two packets. -/
def hHsTranscript (E : Engine) (p : Ptr) : H Ptr := do
  let l ← field p 2
  let x ← hArrFetch hBufCopy l 0 false
  let y ← hArrFetch hBufCopy l 1 false
  onNull (hConcatPtr x y) (pure none) fun t => do
    let hash ← hDigest E t none .sha512
    let _ ← hBufDestroy t
    pure hash

/-- transport_handshake.c:740-801 `wickr_transport_handshake_finalize`. -/
def hHsFinalize (E : Engine) (p : Ptr) : H Ptr :=
  match p with
  | none => pure none
  | some _ => do
    let .hs st _ _ ← scal p | undefined
    let root ← field p 4
    match root with
    | none => do
      hHsFail p
      pure none
    | some _ =>
      if st ≠ .pendingFinalization then do
        hHsFail p
        pure none
      else onNull (hHsTranscript E p) (do hHsFail p; pure none) fun hash => do
        let hb ← readBuf hash
        let sk ← hTRootDerive E root hb senderInfo .encode
        let rk ← hTRootDerive E root hb receiverInfo .decode
        let _ ← hBufDestroy hash
        hHsResult p sk rk

/-- transport_handshake.c:203-210: the copies go into the new handshake. -/
def hHsFill (p x rk pp e : Ptr) : H Ptr := do
  let .hs st i evo ← scal p | undefined
  let l ← field x 0
  let r ← field x 1
  let ps ← field x 2
  store x (.obj (.hs st i evo) [l, r, ps, e, rk, pp])
  pure x

/-- transport_handshake.c:178-210: the rest of the copy. -/
def hHsCopyRest (p x : Ptr) : H Ptr := do
  let rk ← field p 4
  let rkc ← hTRootCopy rk
  if rk.isSome ∧ rkc.isNone then do
    let _ ← hHsDestroy x
    pure none
  else do
    let pp ← field p 5
    let ppc ← hTPktCopy pp
    if pp.isSome ∧ ppc.isNone then do
      let _ ← hTRootDestroy rkc
      let _ ← hHsDestroy x
      pure none
    else do
      let e ← field p 3
      let ec ← hKeyCopy e
      if e.isSome ∧ ec.isNone then do
        let _ ← hTRootDestroy rkc
        let _ ← hHsDestroy x
        let _ ← hTPktDestroy ppc
        pure none
      else hHsFill p x rkc ppc ec

/-- transport_handshake.c:86-114: a handshake around a packet list. -/
def hHsWith (self remote l : Ptr) (evo : UInt32) : H Ptr :=
  match self, l with
  | some _, some _ =>
    if evo = 0 then pure none
    else onNull (alloc (.obj .plain [none, none, none, none, none, none])) (pure none) fun p => do
      store p (.obj (.hs .unknown false evo) [self, remote, l, none, none, none])
      pure p
  | _, _ => pure none

/-- transport_handshake.c:116-143 `wickr_transport_handshake_create`, with a callback. -/
def hHsCreate (self remote : Ptr) (evo : UInt32) : H Ptr :=
  onNull (hArrNew 2) (pure none) fun l =>
    onNull (hHsWith self remote l evo) (do let _ ← hArrDestroy hBufDestroy l true; pure none) fun p => pure p

/-- What is released if a handshake cannot be copied (transport_handshake.c:155-162, 172-175). -/
def hHsCopyUndo (l r ps : Ptr) : H Ptr := do
  let _ ← hChainDestroy l
  let _ ← hChainDestroy r
  let _ ← hArrDestroy hBufDestroy ps true
  pure none

/-- transport_handshake.c:145-211 `wickr_transport_handshake_copy`. -/
def hHsCopy (p : Ptr) : H Ptr :=
  match p with
  | none => pure none
  | some _ => do
    let l ← field p 0
    let lc ← hChainCopy l
    let r ← field p 1
    let rc ← hChainCopy r
    let ps ← field p 2
    let pc ← hArrCopy hBufCopy hBufDestroy ps true
    if lc.isNone ∨ (rc.isNone ∧ r.isSome) ∨ pc.isNone then hHsCopyUndo lc rc pc
    else do
      let .hs _ _ evo ← scal p | undefined
      onNull (hHsWith lc rc pc evo) (hHsCopyUndo lc rc pc) fun x => hHsCopyRest p x

end Wickr
