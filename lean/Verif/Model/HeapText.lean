import Verif.Model.HeapFun
import Verif.Model.Fingerprint
import Verif.Model.EcdsaRaw
/-
Texts and fingerprints on the heap: util.c, b32.c, fingerprint.c, the fingerprint functions of identity.c; and the functions of
openssl_suite.c that compare HMACs and convert signatures.

Each program follows its C function allocation by allocation and release by release.  The text of a buffer is worked out by the
functions of the value model and written at once; as there, `char` is signed.  There is one type of fingerprint, so that it is not
stored.
-/
namespace Wickr

/-- `memcpy` into a block of bytes from `off` on; beyond the block is undefined. -/
def writeAt (p : Ptr) (off : Nat) (b : Bytes) : H Unit := do
  let d ← loadBytes p
  match memWrite d off b with
  | .ok m => store p (.bytes m)
  | _ => undefined

/-- Reading a buffer and the whole block it points to. -/
def readText (p : Ptr) : H CBuf := do
  let o ← loadObj p
  match o with
  | (.len n, [q]) => do
    let b ← loadBytes q
    pure ⟨b, n⟩
  | _ => undefined

/-! ### util.c -/

/-- util.c:191-212 `getHexStringFromData`. -/
def hHex (p : Ptr) : H Ptr :=
  match p with
  | none => pure none
  | some _ => do
    let b ← readBuf p
    onNull (hBufNew (b.length * 2 + 1) false) (pure none) fun r => do
      let q ← field r 0
      fill q (hexText b ++ [0])
      setScal r (.len (b.length * 2))
      pure r

/-- util.c:223-250 `getDataFromHexString`. -/
def hUnhex (p : Ptr) : H Ptr :=
  match p with
  | none => pure none
  | some _ => do
    let t ← readText p
    match strlen t.mem with
    | .ok n =>
      onNull (hBufNew (n / 2) false) (pure none) fun r => do
        let q ← field r 0
        fill q (hexPairs t.mem)
        pure r
    | _ => undefined

/-- util.c:36-88 `getBase64FromData`. -/
def hBase64 (p : Ptr) : H Ptr :=
  match p with
  | none => pure none
  | some _ => do
    let b ← readBuf p
    if b.length = 0 then pure none
    else
      onNull (hBufNew (((b.length + 2) / 3) * 4 + 1) false) (pure none) fun r => do
        let q ← field r 0
        fill q (b64Text b ++ [0])
        let m ← loadBytes q
        match strlen m with
        | .ok n => do
          setScal r (.len n)
          pure r
        | _ => undefined

/-- util.c:90-174 `getDataFromBase64`. -/
def hUnbase64 (p : Ptr) : H Ptr :=
  match p with
  | none => pure none
  | some _ => do
    let t ← readText p
    match strlen t.mem with
    | .ok n0 =>
      let n := if n0 > t.length then t.length else n0
      onNull (hBufNew n true) (pure none) fun r => do
        let q ← field r 0
        let d ← loadBytes q
        match b64Loop t.mem n 0 0 d with
        | .ok s =>
          match b64Finish s with
          | .ok out => do
            writeAt q 0 out
            setScal r (.len s.j)
            pure r
          | .null => do
            let _ ← hBufDestroy r
            pure none
          | .ub => undefined
        | .null => do
          let _ ← hBufDestroy r
          pure none
        | .ub => undefined
    | _ => undefined

/-! ### b32.c -/

/-- b32.c:223-247 `base32_encode`. -/
def hBase32 (p : Ptr) : H Ptr :=
  match p with
  | none => pure none
  | some _ => do
    let b ← readBuf p
    onNull (hBufNew (b32EncodeLength (UInt64.ofNat b.length)).toNat true) (pure none) fun r => do
      let q ← field r 0
      match b32EncodeAll b with
      | none => do
        let _ ← hBufDestroy r
        pure none
      | some o => do
        writeAt q 0 o
        let m ← loadBytes q
        match b32EncodeMap m with
        | none => do
          let _ ← hBufDestroy r
          pure none
        | some t => do
          writeAt q 0 t
          pure r

/-- b32.c:262-291: the digits have been copied, and are mapped in place. -/
def hUnbase32With (u : Ptr) : H Ptr := do
  let b ← readBuf u
  match b32Unmap b with
  | none => do
    let _ ← hBufDestroy u
    pure none
  | some v => do
    let d ← field u 0
    writeAt d 0 v
    let len := b32DecodeLength (UInt64.ofNat v.length)
    if len = 0 then do
      let _ ← hBufDestroy u
      pure none
    else
      onNull (hBufNew (len + 1).toNat true) (do let _ ← hBufDestroy u; pure none) fun r => do
        setScal r (.len len.toNat)
        match b32DecodeAll v with
        | none => do
          let _ ← hBufDestroy r
          let _ ← hBufDestroy u
          pure none
        | some o => do
          let q ← field r 0
          writeAt q 0 o
          let _ ← hBufDestroy u
          pure r

/-- b32.c:249-292 `base32_decode`. -/
def hUnbase32 (p : Ptr) : H Ptr :=
  match p with
  | none => pure none
  | some _ => onNull (hBufCopy p) (pure none) hUnbase32With

/-! ### fingerprint.c -/

/-- eckey.c:46-68 `wickr_ec_key_get_pubdata_fixed_len`. -/
def hPubFixed (p : Ptr) : H Ptr := do
  let .curve cv ← scal p | undefined
  let q ← field p 0
  let b ← readBuf q
  if b.length = cv.maxPub then hBufCopy q
  else if b.length > cv.maxPub then pure none
  else
    onNull (hBufNew cv.maxPub true) (pure none) fun r => do
      let d ← field r 0
      writeAt d 0 b
      pure r

/-- fingerprint.c:122-138 `wickr_fingerprint_create`. -/
def hFpCreate (data : Ptr) : H Ptr :=
  match data with
  | none => pure none
  | some _ =>
    onNull (alloc (.obj .plain [none])) (pure none) fun p => do
      store p (.obj .plain [data])
      pure p

/-- fingerprint.c:140-159 `wickr_fingerprint_copy`. -/
def hFpCopy (p : Ptr) : H Ptr :=
  match p with
  | none => pure none
  | some _ => do
    let q ← field p 0
    onNull (hBufCopy q) (pure none) fun d =>
      onNull (hFpCreate d) (do let _ ← hBufDestroy d; pure none) fun r => pure r

/-- fingerprint.c:161-170 `wickr_fingerprint_destroy`. -/
def hFpDestroy (p : Ptr) : H Ptr :=
  match p with
  | none => pure none
  | some _ => do
    destroyField hBufDestroy p 0
    free p
    pure none

/-- fingerprint.c:6-27 `__wickr_fingerprint_sha512_create`. -/
def hFpSha (E : Engine) (input : Ptr) : H Ptr :=
  match input with
  | none => pure none
  | some _ =>
    onNull (hDigest E input none .sha512) (pure none) fun d =>
      onNull (hFpCreate d) (do let _ ← hBufDestroy d; pure none) fun r => pure r

/-- fingerprint.c:29-43 `__wickr_fingerprint_sha512_encode`; the parts are read first. -/
def hFpEncode (E : Engine) (pub identifier : Ptr) : H Ptr :=
  match pub, identifier with
  | some _, some _ => do
    let x ← readBuf identifier
    let y ← readBuf pub
    let cb ← hConcat (some x) (some y)
    let r ← hFpSha E cb
    let _ ← hBufDestroy cb
    pure r
  | _, _ => pure none

/-- fingerprint.c:88-107 `wickr_fingerprint_gen`. -/
def hFpGen (E : Engine) (key identifier : Ptr) : H Ptr :=
  match key, identifier with
  | some _, some _ =>
    onNull (hPubFixed key) (pure none) fun d => do
      let r ← hFpEncode E d identifier
      let _ ← hBufDestroy d
      pure r
  | _, _ => pure none

/-- fingerprint.c:57-74: the loop over two fingerprints. -/
def hFpOrder (f1 f2 : Bytes) : Bytes → Bytes → H Ptr
  | a :: as, b :: bs =>
    if a = b then hFpOrder f1 f2 as bs
    else if a > b then hConcat (some f1) (some f2) else hConcat (some f2) (some f1)
  | _, _ => pure none

/-- fingerprint.c:45-86 `__wickr_fingerprint_sha512_combine`; also `wickr_fingerprint_gen_bilateral` (109-120). -/
def hFpCombine (E : Engine) (f1 f2 : Ptr) : H Ptr :=
  match f1, f2 with
  | some _, some _ => do
    let p ← field f1 0
    let q ← field f2 0
    let x ← readBuf p
    let y ← readBuf q
    if x.length ≠ y.length then pure none
    else
      onNull (hFpOrder x y x y) (pure none) fun cb => do
        let r ← hFpSha E cb
        let _ ← hBufDestroy cb
        pure r
  | _, _ => pure none

/-- identity.c:163-172 `wickr_identity_get_fingerprint`. -/
def hIdentityFp (E : Engine) (p : Ptr) : H Ptr :=
  match p with
  | none => pure none
  | some _ => do
    let k ← field p 1
    let i ← field p 0
    hFpGen E k i

/-- identity.c:174-210 `wickr_identity_get_bilateral_fingerprint`. -/
def hBilateralFp (E : Engine) (p q : Ptr) : H Ptr :=
  match p, q with
  | some _, some _ =>
    onNull (hIdentityFp E p) (pure none) fun a =>
      onNull (hIdentityFp E q) (do let _ ← hFpDestroy a; pure none) fun b => do
        let r ← hFpCombine E a b
        let _ ← hFpDestroy b
        let _ ← hFpDestroy a
        pure r
  | _, _ => pure none

/-- fingerprint.c:183-193: a text is cut in half; the text is not tested. -/
def hFpShort (t : Ptr) (short : Bool) : H Ptr :=
  if short then do
    let .len n ← scal t | undefined
    let q ← field t 0
    writeAt q (n / 2) [0]
    setScal t (.len (n / 2))
    pure t
  else pure t

/-- fingerprint.c:196-199 `wickr_fingerprint_get_b32` with `__wickr_fingerprint_encode_for_output_mode` (174-194). -/
def hFpB32 (p : Ptr) (short : Bool) : H Ptr :=
  match p with
  | none => pure none
  | some _ => do
    let d ← field p 0
    let t ← hBase32 d
    hFpShort t short

/-- fingerprint.c:201-204 `wickr_fingerprint_get_hex`. -/
def hFpHex (p : Ptr) (short : Bool) : H Ptr :=
  match p with
  | none => pure none
  | some _ => do
    let d ← field p 0
    let t ← hHex d
    hFpShort t short

/-! ### openssl_suite.c -/

/-- openssl_suite.c:1207-1222 `openssl_hmac_verify`.  `CRYPTO_memcmp`, which gives 0 for equal bytes only, is taken as `memcmp`. -/
def hHmacVerify (E : Engine) (data key : Ptr) (d : Digest) (expected : Ptr) : H Bool := do
  let h ← hHmac E data key d
  match expected, h with
  | some _, some _ => do
    let x ← readBuf h
    let y ← readBuf expected
    let _ ← hBufDestroyZero h
    pure (bufIsEqual (some x) (some y) none)
  | _, _ => pure false

/-- openssl_suite.c:973-1003 `openssl_ecdsa_to_raw`. -/
def hToRaw (D : DerSig) (p : Ptr) : H Ptr :=
  match p with
  | none => pure none
  | some _ => do
    let x ← readSig p
    match D.d2i x.sig with
    | none => pure none
    | some (r, s) =>
      onNull (hBufNew x.curve.rawSize true) (pure none) fun o => do
        let q ← field o 0
        writeAt q 0 (bnToBin x.curve.rawSize r s)
        pure o

/-- openssl_suite.c:1005-1091 `openssl_ecdsa_from_raw`; the structure of the result is not tested (ecdsa.c:7-19). -/
def hFromRaw (D : DerSig) (c : Curve) (d : Digest) (p : Ptr) : H Ptr :=
  match p with
  | none => pure none
  | some _ => do
    let raw ← readBuf p
    if raw.length ≠ c.rawSize then pure none
    else
      let r := beToNat (raw.take (raw.length / 2))
      let s := beToNat ((raw.drop (raw.length / 2)).take (raw.length / 2))
      onNull (hBufNew (D.i2d r s).length true) (pure none) fun o => do
        let q ← field o 0
        writeAt q 0 (D.i2d r s)
        onNull (hSigCreate c d o) (do let _ ← hBufDestroy o; pure none) fun x => pure x

end Wickr
