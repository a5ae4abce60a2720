import Verif.Model.HeapKeyFun
import Verif.Model.HeapText
import Verif.Model.FileCrypt
/-
The file functions on the heap: openssl_suite.c and openssl_file_suite.c, under an allocator that may fail.

Files are as in the value model (`Model/FileCrypt.lean`).  OpenSSL's own objects are not modelled, nor are failures of OpenSSL
other than those in `V`.  Buffers on the stack are values, and
objects are read at once.  `junk` is what is in the output buffer when it is allocated, `fresh`
what is in the buffer of the tag.  A header that is cut off is not written to its block.  What is in a file when NULL is
dereferenced is not noted.
-/
namespace Wickr

/-- openssl_suite.c:1296-1302, 1466-1470: OpenSSL writes its output into the buffer `p`, and `fwrite` reads it from there; if
there is none `p` may be NULL. -/
def hThrough (p : Ptr) (out : Bytes) : H Bytes :=
  if out = [] then pure []
  else do
    writeAt p 0 out
    let b ← loadBytes p
    pure (b.take out.length)

/-- openssl_suite.c:1293-1320: the encryption loop. -/
def hEncLoop (V : Evp) (acc : Nat → Option Nat) (buf : Ptr) : (fuel : Nat) → V.Enc → (input : Bytes) → OutFile →
    H (Option V.Enc × OutFile)
  | 0, _, _, o => pure (none, o)
  | fuel + 1, st, input, o =>
    let chunk := input.take chunkSize
    match V.encUpdate st chunk with
    | none => pure (none, o)
    | some (st', out) => do
      let b ← hThrough buf out
      let w := fwrite acc o b
      if !w.2 then pure (none, w.1)
      else if chunk.length < chunkSize then pure (some st', w.1)
      else hEncLoop V acc buf fuel st' (input.drop chunkSize) w.1

/-- openssl_suite.c:1347-1362, 1490-1505: everything is released. -/
def hFileDone (x : Bool × OutFile) (s r buf : Ptr) : H (Bool × OutFile) := do
  let _ ← hBufDestroy s
  let _ ← hCResDestroy r
  free buf
  pure x

/-- openssl_suite.c:1322-1330: the tag is written into its buffer. -/
def hEncTag (V : Evp) (c : Cipher) (r : Ptr) (st : V.Enc) : H Unit :=
  match c with
  | .gcm => do
    let t ← field r 2
    let q ← field t 0
    fill q (V.encTag st)
  | .ctr => pure ()

/-- openssl_suite.c:1322-1345: the tag, then the header is written again; if it cannot be serialized it is not. -/
def hEncFinish (V : Evp) (acc : Nat → Option Nat) (c : Cipher) (r buf : Ptr) (st : V.Enc) (o : OutFile) : H (Bool × OutFile) := do
  hEncTag V c r st
  let s ← hCResSerialize r
  match s with
  | none => hFileDone (true, o) none r buf
  | some _ => do
    let b ← readBuf s
    let w := fwrite acc o.rewind b
    hFileDone (w.2, w.1) s r buf

/-- openssl_suite.c:1287-1345: the output buffer is not tested. -/
def hEncBody (V : Evp) (acc : Nat → Option Nat) (key : Ptr) (c : Cipher) (r : Ptr) (junk : Bytes) (i : InFile) (o : OutFile) :
    H (Bool × OutFile) := do
  let k ← readCKey key
  let t ← readCRes r
  let buf ← alloc (.bytes junk)
  let x ← hEncLoop V acc buf (i.bytes.length / chunkSize + 1) (V.encInit c k.key t.iv) i.bytes o
  match x with
  | (none, o) => hFileDone (false, o) none r buf
  | (some st, o) => hEncFinish V acc c r buf st o

/-- openssl_suite.c:1252-1275: the key is looked at, the tag is made again. -/
def hEncRest (V : Evp) (acc : Nat → Option Nat) (key : Ptr) (c : Cipher) (r : Ptr) (junk : Bytes) (i : InFile) (o : OutFile) :
    H (Bool × OutFile) := do
  let k ← readCKey key
  if k.key.length ≠ c.keyLen then hFileDone (false, o) none r none
  else if c.isAuth then do
    destroyField hBufDestroy r 2
    let t ← hBufNew c.tagLen true
    setField r 2 t
    match t with
    | none => hFileDone (false, o) none r none
    | some _ => hEncBody V acc key c r junk i o
  else hEncBody V acc key c r junk i o

/-- openssl_suite.c:1225-1363 `openssl_encrypt_file`.  If there is no cipher result, the IV and the tag are not released. -/
def hEncryptFile (V : Evp) (acc : Nat → Option Nat) (key : Ptr) (iv fresh junk : Bytes) (i : InFile) (o : OutFile) :
    H (Bool × OutFile) :=
  match key with
  | none => pure (false, o)
  | some _ => do
    let o := o.rewind
    let ⟨c, _⟩ ← readCKey key
    let ivf ← hRandom iv
    let tag ← hOut fresh
    let r ← hCResCreate c ivf none tag
    let s ← hCResSerialize r
    match s with
    | none => hFileDone (false, o) none r none
    | some _ => do
      let b ← readBuf s
      let w := fwrite acc o b
      if !w.2 then hFileDone (false, w.1) s r none
      else do
        let _ ← hBufDestroy s
        hEncRest V acc key c r junk i w.1

/-- openssl_suite.c:1463-1488: the decryption loop. -/
def hDecLoop (V : Evp) (acc : Nat → Option Nat) (buf : Ptr) : (fuel : Nat) → V.Dec → (input : Bytes) → OutFile → H (Bool × OutFile)
  | 0, _, _, o => pure (false, o)
  | fuel + 1, st, input, o =>
    let chunk := input.take chunkSize
    match V.decUpdate st chunk with
    | none => pure (false, o)
    | some (st', out) => do
      let b ← hThrough buf out
      let w := fwrite acc o b
      if !w.2 then pure (false, w.1)
      else if chunk.length < chunkSize then pure (V.decFinal st', w.1)
      else hDecLoop V acc buf fuel st' (input.drop chunkSize) w.1

/-- openssl_suite.c:1404-1505: the header has been copied into the buffer `cb`.  The cipher result is dereferenced untested
(1408), and the output buffer is not tested either (1460); it is released as it is. -/
def hDecBody (V : Evp) (acc : Nat → Option Nat) (key cb : Ptr) (junk body : Bytes) (o : OutFile) : H (Bool × OutFile) := do
  let r ← hCResFromBuffer cb
  let t ← readCRes r
  let k ← readCKey key
  if k.key.length ≠ t.cipher.keyLen then hFileDone (false, o) cb r none
  else do
    let buf ← alloc (.bytes junk)
    let x ← hDecLoop V acc buf (body.length / chunkSize + 1) (V.decInit t.cipher k.key t.iv t.tag) body o
    hFileDone x cb r buf

/-- openssl_suite.c:1366-1506 `openssl_decrypt_file`. -/
def hDecryptFile (V : Evp) (acc : Nat → Option Nat) (key : Ptr) (junk : Bytes) (i : InFile) (o : OutFile) (onlyAuth : Bool) :
    H (Bool × OutFile) :=
  match key with
  | none => pure (false, o)
  | some _ =>
    match i.bytes with
    | [] => pure (false, o)
    | m :: rest =>
      match Cipher.find m with
      | none => pure (false, o)
      | some mode =>
        if onlyAuth && !mode.isAuth then pure (false, o)
        else
          let need := mode.ivLen + mode.tagLen
          let hdr := rest.take need
          onNull (alloc (.raw (1 + need))) (pure (false, o)) fun p =>
            if hdr.length ≠ need then do
              free p
              pure (false, o)
            else do
              fill p (m :: hdr)
              let b ← loadBytes p
              let cb ← hBufCreate b
              free p
              hDecBody V acc key cb junk (rest.drop need) o

/-- openssl_suite.c:667-721 `openssl_sha2_file`. -/
def hSha2File (V : Evp) (i : InFile) (d : Digest) : H Ptr :=
  onNull (hBufNew d.size true) (pure none) fun p =>
    match mdLoop V i.err (i.bytes.length / chunkSize + 1) (V.mdInit d) i.bytes with
    | none => do
      let _ ← hBufDestroy p
      pure none
    | some st => do
      let q ← field p 0
      fill q (V.mdFinal st)
      pure p

/-! ### Paths -/

/-- openssl_file_suite.c:184-193 `freeFileOperation`: `fs` is the state of the file system afterwards. -/
def hFreeOp (op : Ptr) (x : Bool × Fs × List Fs) : H (Bool × Fs × List Fs) := do
  let t ← field op 0
  free t
  free op
  pure x

/-- openssl_file_suite.c:67-143 and the common part of 195-215 and 217-235, as in `fileOp`.  The temporary file exists when the
structure is allocated (119); it is not removed if there is no memory for it. -/
def hFileOp (v : Env) (work : InFile → OutFile → H (Bool × OutFile)) (src dst : Bytes) (fs : Fs) : H (Bool × Fs × List Fs) :=
  match fs src with
  | none => pure (false, fs, [])
  | some _ =>
    if !v.openOk then pure (false, fs, [])
    else
      let tmp := tempPath dst
      onNull (alloc (.bytes (tmp ++ [0]))) (pure (false, fs, [])) fun t =>
        if !v.createOk then do
          free t
          pure (false, fs, [])
        else
          let created := fs.set tmp (some [])
          onNull (alloc (.obj .plain [t])) (do free t; pure (false, created, [fs])) fun op => do
            let input := v.reads ((created src).getD [])
            let during := v.between.map fun c => created.set tmp (some c)
            let (ok, o) ← work input ⟨[], 0, 0⟩
            let done := created.set tmp (some o.data)
            if ok then
              let m := moveTemp v tmp dst o.data done
              hFreeOp op (m.1, freeOp v tmp (m.2.headD done), m.2 ++ done :: during ++ [created, fs])
            else hFreeOp op (false, freeOp v tmp done, done :: during ++ [created, fs])

/-- openssl_file_suite.c:195-215 `openssl_aes256_file_encrypt`. -/
def hFileEncrypt (V : Evp) (v : Env) (key : Ptr) (iv fresh junk src dst : Bytes) (fs : Fs) : H (Bool × Fs × List Fs) :=
  match key with
  | none => pure (false, fs, [])
  | some _ => hFileOp v (hEncryptFile V v.accept key iv fresh junk) src dst fs

/-- openssl_file_suite.c:217-235 `openssl_aes256_file_decrypt`. -/
def hFileDecrypt (V : Evp) (v : Env) (key : Ptr) (junk src dst : Bytes) (onlyAuth : Bool) (fs : Fs) : H (Bool × Fs × List Fs) :=
  match key with
  | none => pure (false, fs, [])
  | some _ => hFileOp v (fun i o => hDecryptFile V v.accept key junk i o onlyAuth) src dst fs

end Wickr
