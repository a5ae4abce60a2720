import Verif.Model.Handshake
/-
Model of transport_ctx.c.

The four callbacks become events, in the order in which they are invoked.  Two of them are invoked
while a function still has work to do, so what the application does inside them matters; `TEnv`
describes it: the identity decisions made inside `on_identity_verify` and the buffers handed to
`process_tx_buffer` inside `on_state(ACTIVE)`.  Other calls from inside callbacks are not modelled
(a call made inside the last callback of a function is the same as the call made right after).
NULL contexts are not modelled: all functions ignore them.
-/
namespace Wickr

/-- transport_ctx.h:53-58 `wickr_transport_status`; `fresh` is `TRANSPORT_STATUS_NONE`. -/
inductive TStatus where
  | fresh
  | initialHandshake
  | active
  | error
deriving Repr, DecidableEq

/-- transport_error.h:59-73 `wickr_transport_error`. -/
inductive TErr where
  | noError
  | handshakeFailed
  | createHandshakeFailed
  | startHandshakeFailed
  | processHandshakeFailed
  | handshakeVolleyFailed
  | badStartStatus
  | badRxState
  | badTxState
  | packetEncodeFailed
  | packetDecodeFailed
  | packetSerializationFailed
  | invalidRxData
deriving Repr, DecidableEq

/-- private/transport_priv.h:29-41 `struct wickr_transport_ctx` without engine, callbacks and user
pointer. -/
structure TCtx where
  rx : Option StreamCtx
  tx : Option StreamCtx
  self : Chain
  remote : Option Chain
  status : TStatus
  evo : UInt32
  pending : Option Handshake
  err : TErr
deriving Repr, DecidableEq

/-- An invocation of a callback (transport_ctx.h:61-66). -/
inductive TEv where
  | state (s : TStatus)
  | tx (data : Bytes)
  | rx (data : Bytes)
  | ask (identity : Chain)
deriving Repr, DecidableEq

/-- What a call draws from outside: the handshake's randomness, the IV seed of the send stream, the
bytes of the union `body_meta` that a parsed handshake header leaves undefined, and the application's
reactions inside `on_identity_verify` and `on_state(ACTIVE)`. -/
structure TEnv where
  hs : HsRand
  seed : Bytes
  junk : UInt64
  answers : List Bool
  onActive : List Bytes

/-- stream_key.h: `PACKET_PER_EVO_DEFAULT`. -/
def ppeDefault : UInt32 := 512

/-- transport_ctx.c:14-22 `__wickr_transport_ctx_update_status`. -/
def tUpdate (c : TCtx) (s : TStatus) : TCtx × List TEv :=
  if c.status = s then (c, []) else ({ c with status := s }, [.state s])

/-- transport_ctx.c:24-30 `__wickr_transport_ctx_set_error`. -/
def tError (c : TCtx) (e : TErr) : TCtx × List TEv := tUpdate { c with err := e } .error

/-- transport_ctx.c:32-63 `wickr_transport_ctx_create`. -/
def tCreate (self : Chain) (remote : Option Chain) (evo : UInt32) : Option TCtx :=
  if evo ≠ 0 ∧ evo > ppeMax then none
  else some ⟨none, none, self, remote, .fresh, if evo = 0 then ppeDefault else evo, none, .noError⟩

/-- transport_ctx.c:65-122 `wickr_transport_ctx_copy`: no copy without a remote identity; the error
code and the pending handshake are not copied. -/
def tCopy (c : TCtx) : Option TCtx :=
  (chainCopy c.self).bind fun l => (c.remote.bind chainCopy).bind fun r =>
    (copyOpt streamCtxCopy c.tx).bind fun tx => (copyOpt streamCtxCopy c.rx).map fun rx =>
      ⟨rx, tx, l, some r, c.status, c.evo, none, .noError⟩

/-- transport_ctx.c:164: `pkt->meta.body_meta.data.sequence_number`.  For a handshake packet this
reads the other member of the union: its version byte and bytes that were never written. -/
def pktSeq (p : Packet) (junk : UInt64) : UInt64 :=
  match p.hdr.body with
  | .data s => s
  | .handshake _ _ => junk

/-- transport_ctx.c:140-169 `__wickr_transport_ctx_decode_pkt`. -/
def tDecode (E : Engine) (s : StreamCtx) (p : Packet) (junk : UInt64) : StreamCtx × Option Bytes :=
  match cipherResultFromBuffer p.body with
  | none => (s, none)
  | some r =>
    if p.hdr.mac ≠ macAuthCipher then (s, none)
    else streamDecode E s r (some (pktMetaSerialize p.hdr)) (pktSeq p junk)

/-- transport_ctx.c:170-208 `__wickr_transport_ctx_encode_pkt`. -/
def tEncode (E : Engine) (s : StreamCtx) (data : Bytes) : StreamCtx × Option Packet :=
  let next := s.lastSeq + 1
  let m := metaInitData next macAuthCipher
  let x := streamEncode E s data (some (pktMetaSerialize m)) next
  (x.1, (x.2.bind cipherResultSerialize).map (pktCreate m))

/-- transport_ctx.c:344-368 `wickr_transport_ctx_process_tx_buffer`; line 176 dereferences the send
stream. -/
def tSend (E : Engine) (c : TCtx) (b : Option Bytes) : Res (TCtx × List TEv) :=
  match b with
  | none => .ok (tError c .badTxState)
  | some b =>
    if c.status ≠ .active then .ok (tError c .badTxState)
    else match c.tx with
      | none => .ub
      | some s =>
        let x := tEncode E s b
        let c := { c with tx := some x.1 }
        match x.2 with
        | none => .ok (tError c .packetEncodeFailed)
        | some p => match pktSerialize p with
          | none => .ok (tError c .packetSerializationFailed)
          | some out => .ok (c, [.tx out])

/-- The application calls `process_tx_buffer` for every element. -/
def tSends (E : Engine) (c : TCtx) : List Bytes → Res (TCtx × List TEv)
  | [] => .ok (c, [])
  | b :: bs => (tSend E c (some b)).bind fun x => (tSends E x.1 bs).bind fun y => .ok (y.1, x.2 ++ y.2)

/-- transport_ctx.c:245: the status becomes ACTIVE; the reaction runs if the callback is invoked. -/
def tActivate (E : Engine) (c : TCtx) (onActive : List Bytes) : Res (TCtx × List TEv) :=
  if c.status = .active then .ok (c, [])
  else (tSends E { c with status := .active } onActive).bind fun y => .ok (y.1, .state .active :: y.2)

/-- transport_ctx.c:210-248 `__wickr_transport_ctx_finalize_handshake`; no caller looks at the
result. -/
def tFinalize (E : Engine) (c : TCtx) (e : TEnv) : Res (TCtx × List TEv) :=
  match c.pending with
  | none => .ok (c, [])
  | some h =>
    match hsFinalize E h with
    | (h, none) => .ok ({ c with pending := some h }, [])
    | (_, some ks) =>
      match (streamKeyCopy ks.localKey).bind (streamCtxCreate · .encode e.seed) with
      | none => .ok ({ c with pending := none }, [])
      | some tx =>
        match (streamKeyCopy ks.remoteKey).bind (streamCtxCreate · .decode []) with
        | none => .ok ({ c with pending := none }, [])
        | some rx => tActivate E { c with pending := none, rx := some rx, tx := some tx } e.onActive

/-- transport_handshake.c:803-806 `wickr_transport_handshake_get_status` of the pending handshake. -/
def tPendingStatus (c : TCtx) : HsStatus :=
  match c.pending with
  | none => .unknown
  | some h => h.status

/-- transport_ctx.c:257-259, 388-390. -/
def tFinalizeIfReady (E : Engine) (c : TCtx) (e : TEnv) : Res (TCtx × List TEv) :=
  if tPendingStatus c = .pendingFinalization then tFinalize E c e else .ok (c, [])

/-- transport_ctx.c:261-276 and 392-407: report failure, or send the packet if there is one. -/
def tVolley (c : TCtx) (q : Option Packet) (failure volleyFailure : TErr) : TCtx × List TEv :=
  if tPendingStatus c = .failed then tError c failure
  else match q with
    | none => (c, [])
    | some q => match pktSerialize q with
      | none => tError c volleyFailure
      | some b => (c, [.tx b])

/-- transport_ctx.c:250-278 `__wickr_transport_validate_identity_complete`. -/
def tAnswer (E : Engine) (c : TCtx) (valid : Bool) (e : TEnv) : Res (TCtx × List TEv) :=
  match c.pending with
  | none => .ok (c, [])
  | some h =>
    let v := hsVerify h valid
    (tFinalizeIfReady E { c with pending := some v.1 } e).bind fun x =>
      let y := tVolley x.1 v.2 .handshakeFailed .handshakeVolleyFailed
      .ok (y.1, x.2 ++ y.2)

/-- The decisions made inside `on_identity_verify`. -/
def tAnswers (E : Engine) (c : TCtx) (e : TEnv) : List Bool → Res (TCtx × List TEv)
  | [] => .ok (c, [])
  | b :: bs => (tAnswer E c b e).bind fun x => (tAnswers E x.1 e bs).bind fun y => .ok (y.1, x.2 ++ y.2)

/-- transport_ctx.c:288-306 `__wickr_transport_ctx_create_handshake`: a remote identity that cannot be
copied is passed on as NULL. -/
def tCreateHandshake (c : TCtx) : Option Handshake :=
  (chainCopy c.self).bind fun l => hsCreate l (c.remote.bind chainCopy) c.evo

/-- transport_ctx.c:308-342 `wickr_transport_ctx_start`. -/
def tStart (E : Engine) (c : TCtx) (r : HsRand) : TCtx × List TEv :=
  if c.status ≠ .fresh then tError c .badStartStatus
  else match tCreateHandshake c with
    | none => tError { c with pending := none } .createHandshakeFailed
    | some h =>
      match hsStart E h r with
      | (_, none) => tError { c with pending := none } .startHandshakeFailed
      | (h, some q) =>
        if h.status = .failed then tError { c with pending := none } .startHandshakeFailed
        else match pktSerialize q with
          | none => tError { c with pending := none } .packetSerializationFailed
          | some b =>
            let x := tUpdate { c with pending := some h } .initialHandshake
            (x.1, x.2 ++ [.tx b])

/-- transport_handshake.c:731, transport_ctx.c:280-286: the question, if there is one, and what the
application answers on the spot. -/
def tAsk (E : Engine) (c : TCtx) (ask : Option Chain) (e : TEnv) : Res (TCtx × List TEv) :=
  match ask with
  | none => .ok (c, [])
  | some ch => (tAnswers E c e e.answers).bind fun x => .ok (x.1, .ask ch :: x.2)

/-- transport_ctx.c:370-409 `__wickr_transport_ctx_process_handshake_packet`. -/
def tProcessHs (E : Engine) (c : TCtx) (p : Packet) (e : TEnv) : Res (TCtx × List TEv) :=
  match (match c.pending with | some h => some h | none => tCreateHandshake c) with
  | none => .ok (tError c .createHandshakeFailed)
  | some h =>
    (hsProcess E h (some p) e.hs).bind fun (h, out) =>
      (tAsk E { c with pending := some h } out.ask e).bind fun x =>
        (tFinalizeIfReady E x.1 e).bind fun y =>
          let z := tVolley y.1 out.send .processHandshakeFailed .packetSerializationFailed
          .ok (z.1, x.2 ++ (y.2 ++ z.2))

/-- transport_ctx.c:411-414 `__wickr_transport_ctx_can_process_handshake`
(`IDENTITY_CHAIN_STATUS_UNKNOWN` has the value of `TRANSPORT_STATUS_NONE`). -/
def tCanHandshake (c : TCtx) : Bool := c.pending.isSome || c.status == .fresh

/-- transport_packet.h:36-40: is it `TRANSPORT_PAYLOAD_TYPE_HANDSHAKE`? -/
def isHandshakePkt (p : Packet) : Bool :=
  match p.hdr.body with
  | .handshake _ _ => true
  | .data _ => false

/-- transport_ctx.c:416-455 `wickr_transport_ctx_process_rx_buffer`. -/
def tRecv (E : Engine) (c : TCtx) (b : Option Bytes) (e : TEnv) : Res (TCtx × List TEv) :=
  match b with
  | none => .ok (tError c .invalidRxData)
  | some b =>
    if c.status = .error then .ok (tUpdate c .error)
    else match pktFromBuffer b with
      | none => .ok (tError c .invalidRxData)
      | some p =>
        if tCanHandshake c && isHandshakePkt p then tProcessHs E c p e
        else match c.rx with
          | none => .ok (tError c .badRxState)
          | some s =>
            let x := tDecode E s p e.junk
            let c := { c with rx := some x.1 }
            match x.2 with
            | none => .ok (tError c .packetDecodeFailed)
            | some d => .ok (c, [.rx d])

/-- One call of the application on a transport context; `copy` continues with the copy when there is
one (transport_ctx.c:65, 308, 344, 416 and the decision callback 250). -/
inductive TOp where
  | start (r : HsRand)
  | send (b : Option Bytes)
  | recv (b : Option Bytes) (e : TEnv)
  | answer (valid : Bool) (e : TEnv)
  | copy

def TOp.step (E : Engine) (c : TCtx) : TOp → Res (TCtx × List TEv)
  | .start r => .ok (tStart E c r)
  | .send b => tSend E c b
  | .recv b e => tRecv E c b e
  | .answer v e => tAnswer E c v e
  | .copy => .ok ((tCopy c).getD c, [])

/-- A history from left to right: final context and all callback invocations. -/
def tRun (E : Engine) (c : TCtx) : List TOp → Res (TCtx × List TEv)
  | [] => .ok (c, [])
  | op :: ops => (op.step E c).bind fun x => (tRun E x.1 ops).bind fun y => .ok (y.1, x.2 ++ y.2)

end Wickr
