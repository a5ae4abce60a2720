import Verif.Model.TransportCtx
import Verif.Model.HeapStream
import Verif.Model.HeapHandshake
/-
Model of transport_ctx.c in memory.

A context is a block with the fields `rx_stream`, `tx_stream`, `local_identity`, `remote_identity` and `pending_handshake`, and with
status, `evo_count` and `err` besides.  The callbacks become what is handed to the application, in the order in which they are invoked;
what they hand over belongs to the application from then on.  As in `TransportCtx` what the application does inside
`on_identity_verify` and inside `on_state(ACTIVE)` is given by `HTEnv`.
-/
namespace Wickr

/-- An invocation of a callback (transport_ctx.h:61-66): a status, or a block that now belongs to the application. -/
inductive TSeen where
  | state (s : TStatus)
  | tx (a : Addr)
  | rx (a : Addr)
  | ask (a : Addr)
deriving Repr, DecidableEq

/-- What a call draws from outside, see `TEnv`; the buffers sent inside `on_state(ACTIVE)` are the application's. -/
structure HTEnv where
  hs : HsRand
  seed : Bytes
  junk : UInt64
  answers : List Bool
  onActive : List Ptr

/-- transport_ctx.c:14-22 `__wickr_transport_ctx_update_status`. -/
def hTUpdate (p : Ptr) (s : TStatus) : H (List TSeen) :=
  match p with
  | none => pure []
  | some _ => do
    let .tctx st evo err ← scal p | undefined
    if st = s then pure []
    else do
      setScal p (.tctx s evo err)
      pure [.state s]

/-- transport_ctx.c:24-30 `__wickr_transport_ctx_set_error`. -/
def hTError (p : Ptr) (e : TErr) : H (List TSeen) :=
  match p with
  | none => pure []
  | some _ => do
    let .tctx st evo _ ← scal p | undefined
    setScal p (.tctx st evo e)
    hTUpdate p .error

/-- transport_ctx.c:32-63 `wickr_transport_ctx_create`. -/
def hTCreate (self remote : Ptr) (evo : UInt32) : H Ptr :=
  match self with
  | none => pure none
  | some _ =>
    if evo ≠ 0 ∧ evo > ppeMax then pure none
    else onNull (alloc (.obj .plain [none, none, none, none, none])) (pure none) fun p => do
      store p (.obj (.tctx .fresh (if evo = 0 then ppeDefault else evo) .noError) [none, none, self, remote, none])
      pure p

/-- transport_ctx.c:101-121: the last part of `wickr_transport_ctx_copy`.  `err` and `pending_handshake` stay zero. -/
def hTCopyOf (p l r tx rx : Ptr) : H Ptr :=
  onNull (alloc (.obj .plain [none, none, none, none, none]))
    (do
      let _ ← hChainDestroy l
      let _ ← hChainDestroy r
      let _ ← hSCtxDestroy tx
      let _ ← hSCtxDestroy rx
      pure none)
    fun q => do
      let .tctx st evo _ ← scal p | undefined
      store q (.obj (.tctx st evo .noError) [rx, tx, l, r, none])
      pure q

/-- transport_ctx.c:65-122 `wickr_transport_ctx_copy`. -/
def hTCopy (p : Ptr) : H Ptr :=
  match p with
  | none => pure none
  | some _ => do
    let s ← field p 2
    onNull (hChainCopy s) (pure none) fun l => do
      let s ← field p 3
      onNull (hChainCopy s) (do let _ ← hChainDestroy l; pure none) fun r => do
        let s ← field p 1
        let tx ← hSCtxCopy s
        if tx.isNone ∧ s.isSome then do
          let _ ← hChainDestroy l
          let _ ← hChainDestroy r
          pure none
        else do
          let s ← field p 0
          let rx ← hSCtxCopy s
          if rx.isNone ∧ s.isSome then do
            let _ ← hChainDestroy l
            let _ ← hChainDestroy r
            let _ ← hSCtxDestroy tx
            pure none
          else hTCopyOf p l r tx rx

/-- transport_ctx.c:124-138 `wickr_transport_ctx_destroy`. -/
def hTDestroy (p : Ptr) : H Ptr :=
  match p with
  | none => pure none
  | some _ => do
    destroyField hChainDestroy p 2
    destroyField hChainDestroy p 3
    destroyField hSCtxDestroy p 1
    destroyField hSCtxDestroy p 0
    destroyField hHsDestroy p 4
    free p
    pure none

/-- transport_ctx.c:164: `pkt->meta.body_meta.data.sequence_number`, see `pktSeq`. -/
def hdrSeq (m : PktMeta) (junk : UInt64) : UInt64 :=
  match m.body with
  | .data s => s
  | .handshake _ _ => junk

/-- transport_ctx.c:436: `packet->meta.body_type == TRANSPORT_PAYLOAD_TYPE_HANDSHAKE`. -/
def hdrIsHandshake (m : PktMeta) : Bool :=
  match m.body with
  | .handshake _ _ => true
  | .data _ => false

/-- transport_ctx.c:140-169 `__wickr_transport_ctx_decode_pkt` (see `pktSeq` for the sequence number of a handshake packet). -/
def hTDecode (E : Engine) (p pkt : Ptr) (junk : UInt64) : H Ptr := do
  let body ← field pkt 0
  onNull (hCResFromBuffer body) (pure none) fun cr => do
    let .tpkt hdr ← scal pkt | undefined
    if hdr.mac ≠ macAuthCipher then do
      let _ ← hCResDestroy cr
      pure none
    else onNull (hMetaSerialize hdr) (do let _ ← hCResDestroy cr; pure none) fun aad => do
      let rx ← field p 0
      let out ← hSDecode E rx cr aad (hdrSeq hdr junk)
      let _ ← hCResDestroy cr
      let _ ← hBufDestroy aad
      pure out

/-- transport_ctx.c:194-207: the end of `__wickr_transport_ctx_encode_pkt`. -/
def hTPack (m : PktMeta) (cr : Ptr) : H Ptr := do
  let sb ← hCResSerialize cr
  let _ ← hCResDestroy cr
  match sb with
  | none => pure none
  | some _ => onNull (hTPktCreate m sb) (do let _ ← hBufDestroy sb; pure none) fun q => pure q

/-- transport_ctx.c:170-208 `__wickr_transport_ctx_encode_pkt`; line 176 dereferences the send stream. -/
def hTEncode (E : Engine) (p data : Ptr) : H Ptr := do
  let tx ← field p 1
  let .stream last _ _ ← scal tx | undefined
  let m := metaInitData (last + 1) macAuthCipher
  onNull (hMetaSerialize m) (pure none) fun aad => do
    let tx ← field p 1
    let cr ← hSEncode E tx data aad (last + 1)
    let _ ← hBufDestroy aad
    match cr with
    | none => pure none
    | some _ => hTPack m cr

/-- transport_ctx.c:358-367 (and 267-275, 331-341, 398-406): a packet is serialized and released. -/
def hTEmit (q : Ptr) : H Ptr := do
  let o ← hTPktSerialize q
  let _ ← hTPktDestroy q
  pure o

/-- transport_ctx.c:344-368 `wickr_transport_ctx_process_tx_buffer`. -/
def hTSend (E : Engine) (p b : Ptr) : H (List TSeen) :=
  match b with
  | none => hTError p .badTxState
  | some _ => do
    let .tctx st _ _ ← scal p | undefined
    if st ≠ .active then hTError p .badTxState
    else do
      let q ← hTEncode E p b
      match q with
      | none => hTError p .packetEncodeFailed
      | some _ => do
        let o ← hTEmit q
        match o with
        | none => hTError p .packetSerializationFailed
        | some a => pure [.tx a]

/-- The application calls `process_tx_buffer` for every element. -/
def hTSends (E : Engine) (p : Ptr) : List Ptr → H (List TSeen)
  | [] => pure []
  | b :: bs => do
    let x ← hTSend E p b
    let y ← hTSends E p bs
    pure (x ++ y)

/-- transport_ctx.c:245: the status becomes ACTIVE; the reaction runs if the callback is invoked. -/
def hTActivate (E : Engine) (p : Ptr) (onActive : List Ptr) : H (List TSeen) := do
  let .tctx st evo err ← scal p | undefined
  if st = .active then pure []
  else do
    setScal p (.tctx .active evo err)
    let y ← hTSends E p onActive
    pure (.state .active :: y)

/-- transport_ctx.c:239-245: the new streams replace the old ones. -/
def hTInstall (E : Engine) (p rx tx : Ptr) (onActive : List Ptr) : H (List TSeen) := do
  destroyField hSCtxDestroy p 0
  destroyField hSCtxDestroy p 1
  setField p 0 rx
  setField p 1 tx
  hTActivate E p onActive

/-- transport_ctx.c:220-247: from keys to streams. -/
def hTStreams (E : Engine) (p res : Ptr) (e : HTEnv) : H (List TSeen) := do
  let lk ← field res 0
  let tk ← hSKeyCopy lk
  let tx ← hSCtxCreate tk .encode e.seed
  match tx with
  | none => do
    let _ ← hSKeyDestroy tk
    pure []
  | some _ => do
    let rk ← field res 1
    let kk ← hSKeyCopy rk
    let rx ← hSCtxCreate kk .decode []
    let _ ← hResDestroy res
    match rx with
    | none => do
      let _ ← hSCtxDestroy tx
      let _ ← hSKeyDestroy kk
      pure []
    | some _ => hTInstall E p rx tx e.onActive

/-- transport_ctx.c:210-248 `__wickr_transport_ctx_finalize_handshake`; no caller looks at the result. -/
def hTFinalize (E : Engine) (p : Ptr) (e : HTEnv) : H (List TSeen) := do
  let h ← field p 4
  let res ← hHsFinalize E h
  match res with
  | none => pure []
  | some _ => do
    destroyField hHsDestroy p 4
    hTStreams E p res e

/-- transport_handshake.c:803-806 `wickr_transport_handshake_get_status` of the pending handshake. -/
def hTPendingStatus (p : Ptr) : H HsStatus := do
  let h ← field p 4
  match h with
  | none => pure .unknown
  | some _ => do
    let .hs st _ _ ← scal h | undefined
    pure st

/-- transport_ctx.c:257-259, 388-390. -/
def hTFinalizeIfReady (E : Engine) (p : Ptr) (e : HTEnv) : H (List TSeen) := do
  let st ← hTPendingStatus p
  if st = .pendingFinalization then hTFinalize E p e else pure []

/-- transport_ctx.c:261-276 and 392-407: report failure, or send the packet if there is one. -/
def hTVolley (p q : Ptr) (failure volleyFailure : TErr) : H (List TSeen) := do
  let st ← hTPendingStatus p
  if st = .failed then hTError p failure
  else match q with
    | none => pure []
    | some _ => do
      let o ← hTEmit q
      match o with
      | none => hTError p volleyFailure
      | some a => pure [.tx a]

/-- transport_ctx.c:250-278 `__wickr_transport_validate_identity_complete`. -/
def hTAnswer (E : Engine) (p : Ptr) (valid : Bool) (e : HTEnv) : H (List TSeen) := do
  let h ← field p 4
  let q ← hHsVerify h valid
  let x ← hTFinalizeIfReady E p e
  let y ← hTVolley p q .handshakeFailed .handshakeVolleyFailed
  pure (x ++ y)

/-- The decisions made inside `on_identity_verify`. -/
def hTAnswers (E : Engine) (p : Ptr) (e : HTEnv) : List Bool → H (List TSeen)
  | [] => pure []
  | b :: bs => do
    let x ← hTAnswer E p b e
    let y ← hTAnswers E p e bs
    pure (x ++ y)

/-- transport_ctx.c:288-306 `__wickr_transport_ctx_create_handshake`. -/
def hTCreateHandshake (p : Ptr) : H Ptr := do
  let s ← field p 2
  let l ← hChainCopy s
  let s ← field p 3
  let r ← hChainCopy s
  let .tctx _ evo _ ← scal p | undefined
  onNull (hHsCreate l r evo)
    (do
      let _ ← hChainDestroy l
      let _ ← hChainDestroy r
      pure none)
    fun h => pure h

/-- transport_ctx.c:326-328, 335-337. -/
def hTAbandon (p : Ptr) (e : TErr) : H (List TSeen) := do
  destroyField hHsDestroy p 4
  hTError p e

/-- transport_ctx.c:308-342 `wickr_transport_ctx_start`.  Line 315 overwrites the pointer to a pending handshake. -/
def hTStart (E : Engine) (p : Ptr) (r : HsRand) : H (List TSeen) :=
  match p with
  | none => pure []
  | some _ => do
    let .tctx st _ _ ← scal p | undefined
    if st ≠ .fresh then hTError p .badStartStatus
    else do
      let h ← hTCreateHandshake p
      setField p 4 h
      match h with
      | none => hTError p .createHandshakeFailed
      | some _ => do
        let q ← hHsStart E h r
        let hs ← hTPendingStatus p
        match q with
        | none => hTAbandon p .startHandshakeFailed
        | some _ =>
          if hs = .failed then hTAbandon p .startHandshakeFailed
          else do
            let o ← hTEmit q
            match o with
            | none => hTAbandon p .packetSerializationFailed
            | some a => do
              let x ← hTUpdate p .initialHandshake
              pure (x ++ [.tx a])

/-- transport_handshake.c:731, transport_ctx.c:280-286: the question, if there is one, and what the application answers on the spot.
(`process` does nothing with the handshake after the callback returns, so the answers may as well come after it.) -/
def hTAsk (E : Engine) (p ask : Ptr) (e : HTEnv) : H (List TSeen) :=
  match ask with
  | none => pure []
  | some a => do
    let x ← hTAnswers E p e e.answers
    pure (.ask a :: x)

/-- transport_ctx.c:385-408. -/
def hTProcessWith (E : Engine) (p pkt h : Ptr) (e : HTEnv) : H (List TSeen) := do
  let q ← hHsProcess E h pkt e.hs
  let x ← hTAsk E p q.2 e
  let y ← hTFinalizeIfReady E p e
  let z ← hTVolley p q.1 .processHandshakeFailed .packetSerializationFailed
  pure (x ++ (y ++ z))

/-- transport_ctx.c:370-409 `__wickr_transport_ctx_process_handshake_packet`. -/
def hTProcessHs (E : Engine) (p pkt : Ptr) (e : HTEnv) : H (List TSeen) := do
  let h ← field p 4
  match h with
  | some _ => hTProcessWith E p pkt h e
  | none => do
    let h ← hTCreateHandshake p
    match h with
    | none => hTError p .createHandshakeFailed
    | some _ => do
      setField p 4 h
      hTProcessWith E p pkt h e

/-- transport_ctx.c:439-443, 452-454. -/
def hTData (E : Engine) (p pkt : Ptr) (e : HTEnv) : H (List TSeen) := do
  let o ← hTDecode E p pkt e.junk
  match o with
  | none => hTError p .packetDecodeFailed
  | some a => pure [.rx a]

/-- transport_ctx.c:416-455 `wickr_transport_ctx_process_rx_buffer`.  (The callback at line 453 comes after the packet is released, here
its place in the list of callbacks is the same.) -/
def hTRecv (E : Engine) (p b : Ptr) (e : HTEnv) : H (List TSeen) :=
  match b with
  | none => hTError p .invalidRxData
  | some _ => do
    let .tctx st _ _ ← scal p | undefined
    if st = .error then hTUpdate p .error
    else do
      let pkt ← hTPktFromBuffer b
      match pkt with
      | none => hTError p .invalidRxData
      | some _ => do
        let h ← field p 4
        let .tpkt hdr ← scal pkt | undefined
        let rx ← field p 0
        let x ← (if (h.isSome || st == .fresh) && hdrIsHandshake hdr then hTProcessHs E p pkt e
          else match rx with
            | some _ => hTData E p pkt e
            | none => hTError p .badRxState)
        let _ ← hTPktDestroy pkt
        pure x

end Wickr
