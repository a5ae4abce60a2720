import Verif.Model.Engine
import Verif.Model.Proto
/-
Model of stream_key.c, stream_key_priv.c, stream_iv.c and stream_ctx.c.
-/
namespace Wickr

/-! ### Stream keys -/

/-- stream_key.h `wickr_stream_key_t`. -/
structure StreamKey where
  cipherKey : CipherKey
  evoKey : Bytes
  ppe : UInt32
  userData : Option Bytes
deriving Repr, DecidableEq

/-- stream_key.h: `PACKET_PER_EVO_MIN`. -/
def ppeMin : UInt32 := 1
/-- stream_key.h: `PACKET_PER_EVO_MAX`. -/
def ppeMax : UInt32 := 32768

/-- stream_key.c:17-37 `wickr_stream_key_create_user_data` (non-NULL keys). -/
def streamKeyCreate (ck : CipherKey) (evo : Bytes) (ppe : UInt32) (ud : Option Bytes) : Option StreamKey :=
  if ppe < ppeMin ∨ ppe > ppeMax then none else some ⟨ck, evo, ppe, ud⟩

/-- stream_key.c:64-103 `wickr_stream_key_copy`. -/
def streamKeyCopy (k : StreamKey) : Option StreamKey :=
  (cipherKeyCopy k.cipherKey).bind fun ck => (dup k.evoKey).bind fun e =>
    (dupOpt k.userData).bind fun u => streamKeyCreate ck e k.ppe u

/-- stream_key_priv.c:15-58 `wickr_stream_key_to_proto`. -/
def streamKeyToProto (k : StreamKey) : Option PStreamKey :=
  (cipherKeySerialize k.cipherKey).map fun b => ⟨some b, some k.evoKey, some k.ppe, k.userData⟩

/-- stream_key.c:105-130 `wickr_stream_key_serialize`: line 113 tests `key` again instead of
`proto_key`, so when the conversion fails `get_packed_size` dereferences NULL. -/
def streamKeySerialize (k : StreamKey) : Res Bytes :=
  match streamKeyToProto k with
  | none => .ub
  | some p => Res.ofOption (protoPack p.pack)

/-- stream_key_priv.c:60-107 `wickr_stream_key_create_from_proto`. -/
def streamKeyFromProto (p : PStreamKey) : Option StreamKey :=
  match p.cipherKey, p.evoKey, p.ppe with
  | some cb, some eb, some ppe =>
    ((dup cb).bind cipherKeyFromBuffer).bind fun ck => (dup eb).bind fun e =>
      (dupOpt p.userData).bind fun u => streamKeyCreate ck e ppe u
  | _, _, _ => none

/-- stream_key.c:132-148 `wickr_stream_key_create_from_buffer`. -/
def streamKeyFromBuffer (b : Bytes) : Option StreamKey :=
  ((fieldsDec b).bind PStreamKey.unpack).bind streamKeyFromProto

/-! ### IV factory -/

/-- stream_iv.h `wickr_stream_iv_t`. -/
structure StreamIv where
  cipher : Cipher
  seed : Bytes
  count : UInt64
deriving Repr, DecidableEq

/-- stream_iv.c:12-34 `wickr_stream_iv_create`; `seed` is the 64 random bytes of line 15. -/
def streamIvCreate (cipher : Cipher) (seed : Bytes) : StreamIv := ⟨cipher, seed, 0⟩

/-- stream_iv.c:36-61 `wickr_stream_iv_copy`. -/
def streamIvCopy (i : StreamIv) : Option StreamIv := (dup i.seed).map fun s => { i with seed := s }

/-- stream_iv.c:74-91 `wickr_stream_iv_generate`: HMAC of the counter under the seed, cut to the IV
length (the counter in host byte order, little endian here; the HMAC is longer than every IV). -/
def streamIvGenerate (E : Engine) (i : StreamIv) : Option (Bytes × StreamIv) :=
  (E.hmac (le64 i.count) i.seed .sha512).map fun h =>
    (h.take i.cipher.ivLen, { i with count := i.count + 1 })

/-! ### Stream contexts -/

/-- stream_ctx.h:41 `wickr_stream_direction`. -/
inductive Dir where
  | encode
  | decode
deriving Repr, DecidableEq

/-- stream_ctx.h:68-75 `wickr_stream_ctx_t` without the engine; `ref` is the `size_t` counter. -/
structure StreamCtx where
  key : StreamKey
  iv : Option StreamIv
  lastSeq : UInt64
  dir : Dir
  ref : UInt64
deriving Repr, DecidableEq

/-- stream_ctx.c:7-37 `wickr_stream_ctx_create` (`seed` as in `streamIvCreate`). -/
def streamCtxCreate (k : StreamKey) (d : Dir) (seed : Bytes) : Option StreamCtx :=
  if !k.cipherKey.cipher.isAuth then none
  else some ⟨k, if d = .encode then some (streamIvCreate k.cipherKey.cipher seed) else none, 0, d, 1⟩

/-- stream_ctx.c:39-74 `wickr_stream_ctx_copy`. -/
def streamCtxCopy (c : StreamCtx) : Option StreamCtx :=
  match streamKeyCopy c.key with
  | none => none
  | some k =>
    let iv := c.iv.bind streamIvCopy
    if iv.isNone ∧ c.dir = .encode then none else some ⟨k, iv, c.lastSeq, c.dir, 1⟩

/-- stream_ctx.c:96-132 `__wickr_stream_key_create_with_evo_buffer`. -/
def streamKeyFromEvo (old : StreamKey) (evo : Bytes) : Option StreamKey :=
  (copySection evo 0 32).bind fun ck => (copySection evo 32 32).bind fun ek =>
    (cipherKeyCreate old.cipherKey.cipher ck).bind fun ck => streamKeyCreate ck ek old.ppe none

/-- stream_ctx.c:157-178: the evolution loop, `n` being `seq_evo - curr_evo`.  The first component
counts the HMAC computations. -/
def evolveLoop (E : Engine) : Nat → StreamKey → Nat × Option StreamKey
  | 0, k => (0, some k)
  | n + 1, k =>
    match (E.hmac k.cipherKey.key k.evoKey .sha512).bind (streamKeyFromEvo k) with
    | none => (1, none)
    | some k' => let r := evolveLoop E n k'; (r.1 + 1, r.2)

/-- stream_ctx.c:134-184 `__wickr_stream_ctx_evolove_key_material`: number of HMAC computations and
the key afterwards (NULL for `false`). -/
def streamEvolve (E : Engine) (c : StreamCtx) (seq : UInt64) : Nat × Option StreamKey :=
  let curr := c.lastSeq / c.key.ppe.toUInt64
  let target := seq / c.key.ppe.toUInt64
  if target < curr then (0, none)
  else if target = curr then (0, some c.key)
  else match streamKeyCopy c.key with
    | none => (0, none)
    | some k => evolveLoop E (target - curr).toNat k

/-- stream_ctx.c:186-209 `wickr_stream_ctx_encode` (non-NULL data): the context afterwards and the
result. -/
def streamEncode (E : Engine) (c : StreamCtx) (data : Bytes) (aad : Option Bytes) (seq : UInt64) :
    StreamCtx × Option CipherResult :=
  if seq ≤ c.lastSeq ∨ c.dir ≠ .encode then (c, none)
  else match c.iv.bind (streamIvGenerate E) with
    | none => (c, none)
    | some (iv, f) =>
      match (streamEvolve E { c with iv := some f } seq).2 with
      | none => ({ c with iv := some f }, none)
      | some k => ({ c with iv := some f, key := k, lastSeq := seq }, E.encrypt data aad k.cipherKey iv)

/-- stream_ctx.c:211-226 `wickr_stream_ctx_decode` (non-NULL data). -/
def streamDecode (E : Engine) (c : StreamCtx) (data : CipherResult) (aad : Option Bytes) (seq : UInt64) :
    StreamCtx × Option Bytes :=
  if seq ≤ c.lastSeq ∨ c.dir ≠ .decode then (c, none)
  else match (streamEvolve E c seq).2 with
    | none => (c, none)
    | some k => ({ c with key := k, lastSeq := seq }, E.decrypt data aad k.cipherKey true)

/-- The HMAC computations `wickr_stream_ctx_decode` performs before the packet's tag is checked
(stream_ctx.c:213-219). -/
def streamDecodeWork (E : Engine) (c : StreamCtx) (seq : UInt64) : Nat :=
  if seq ≤ c.lastSeq ∨ c.dir ≠ .decode then 0 else (streamEvolve E c seq).1

/-- stream_ctx.c:85-94 `wickr_stream_ctx_ref_up`. -/
def streamRefUp (c : StreamCtx) : StreamCtx × Bool :=
  if c.ref = 0xFFFFFFFFFFFFFFFF then (c, false) else ({ c with ref := c.ref + 1 }, true)

/-- stream_ctx.c:76-83, 228-242 `wickr_stream_ctx_destroy`: `none` when the context is released. -/
def streamDestroy (c : StreamCtx) : Option StreamCtx :=
  let c := if c.ref ≠ 0 then { c with ref := c.ref - 1 } else c
  if c.ref = 0 then none else some c

end Wickr
