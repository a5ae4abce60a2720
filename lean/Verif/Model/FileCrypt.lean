import Verif.Model.OpenSsl
/-
Model of the file functions of openssl_suite.c and of openssl_file_suite.c.

Simplifications
* a file being read is the byte sequence `fread` will deliver, and whether it ends because of an error;
* `fwrite` accepts as many bytes as the environment lets it; what it accepted is in the file at once,
  except that closing a file may lose data (`Env.flush`);
* a file system maps paths to contents: no directories, links or permissions; whether files can
  be opened, created, renamed and removed is up to the environment;
* `malloc` and the initialisation of OpenSSL contexts do not fail;
* the EVP `Final` functions produce no bytes for GCM and CTR.
-/
namespace Wickr

/-- Incremental encryption, decryption and hashing as provided by OpenSSL's EVP functions. -/
structure Evp where
  Enc : Type
  encInit : Cipher → (key iv : Bytes) → Enc
  encUpdate : Enc → Bytes → Option (Enc × Bytes)
  encTag : Enc → Bytes
  Dec : Type
  decInit : Cipher → (key iv : Bytes) → (tag : Option Bytes) → Dec
  decUpdate : Dec → Bytes → Option (Dec × Bytes)
  decFinal : Dec → Bool
  Md : Type
  mdInit : Digest → Md
  mdUpdate : Md → Bytes → Md
  mdFinal : Md → Bytes

/-- A `FILE *` open for reading: the bytes still to come and whether a read error follows them. -/
structure InFile where
  bytes : Bytes
  err : Bool
deriving Repr, DecidableEq

/-- A `FILE *` open for writing: content, position, number of `fwrite` calls so far. -/
structure OutFile where
  data : Bytes
  pos : Nat
  calls : Nat
deriving Repr, DecidableEq

/-- `fwrite(b, 1, len, o)`: the `n`-th call accepts at most `acc n` bytes (everything for `none`).  The
answer tells whether all were accepted. -/
def fwrite (acc : Nat → Option Nat) (o : OutFile) (b : Bytes) : OutFile × Bool :=
  let w := match acc o.calls with
    | none => b
    | some k => b.take k
  (⟨o.data.take o.pos ++ w ++ o.data.drop (o.pos + w.length), o.pos + w.length, o.calls + 1⟩,
    decide (w.length = b.length))

/-- `rewind` -/
def OutFile.rewind (o : OutFile) : OutFile := { o with pos := 0 }

/-- The chunk size of the loops (openssl_suite.c:685, 1289, 1459). -/
def chunkSize : Nat := 4096

/-- openssl_suite.c:1293-1320: the encryption loop.  The result is the context after the last update,
if nothing failed.  `fuel` bounds the number of rounds; `encLoop_eq` shows that the amount used below
is never exhausted. -/
def encLoop (V : Evp) (acc : Nat → Option Nat) : (fuel : Nat) → V.Enc → (input : Bytes) → OutFile → Option V.Enc × OutFile
  | 0, _, _, o => (none, o)
  | fuel + 1, st, input, o =>
    let chunk := input.take chunkSize
    match V.encUpdate st chunk with
    | none => (none, o)
    | some (st', out) =>
      let w := fwrite acc o out
      if !w.2 then (none, w.1)
      else if chunk.length < chunkSize then (some st', w.1)
      else encLoop V acc fuel st' (input.drop chunkSize) w.1

/-- openssl_suite.c:1225-1363 `openssl_encrypt_file`: the answer and the output file.  `iv` is the
random IV (1237), `fresh` the uninitialised memory the tag buffer of 1238 consists of.  A read error is
treated like the end of the file. -/
def encryptFile (V : Evp) (acc : Nat → Option Nat) (key : CipherKey) (iv fresh : Bytes) (i : InFile) (o : OutFile) :
    Bool × OutFile :=
  let o := o.rewind
  let tag := if 0 < key.cipher.tagLen then some fresh else none
  match (cipherResultCreate key.cipher iv none tag).bind fun r => (cipherResultSerialize r).map fun s => (r, s) with
  | none => (false, o)
  | some (r, s) =>
    let w := fwrite acc o s
    if !w.2 then (false, w.1)
    else if key.key.length ≠ key.cipher.keyLen then (false, w.1)
    else
      match encLoop V acc (i.bytes.length / chunkSize + 1) (V.encInit key.cipher key.key iv) i.bytes w.1 with
      | (none, o) => (false, o)
      | (some st, o) =>
        let r := match key.cipher with
          | .gcm => { r with tag := some (V.encTag st) }
          | .ctr => r
        match cipherResultSerialize r with
        | none => (true, o)
        | some s =>
          let w := fwrite acc o.rewind s
          (w.2, w.1)

/-- openssl_suite.c:1463-1488: the decryption loop. -/
def decLoop (V : Evp) (acc : Nat → Option Nat) : (fuel : Nat) → V.Dec → (input : Bytes) → OutFile → Bool × OutFile
  | 0, _, _, o => (false, o)
  | fuel + 1, st, input, o =>
    let chunk := input.take chunkSize
    match V.decUpdate st chunk with
    | none => (false, o)
    | some (st', out) =>
      let w := fwrite acc o out
      if !w.2 then (false, w.1)
      else if chunk.length < chunkSize then (V.decFinal st', w.1)
      else decLoop V acc fuel st' (input.drop chunkSize) w.1

/-- openssl_suite.c:1366-1506 `openssl_decrypt_file`.  Line 1408 dereferences the parsed header without
a NULL test.  The key's cipher is not looked at.  The output file is not rewound. -/
def decryptFile (V : Evp) (acc : Nat → Option Nat) (key : CipherKey) (i : InFile) (o : OutFile) (onlyAuth : Bool) :
    Res (Bool × OutFile) :=
  match i.bytes with
  | [] => .ok (false, o)
  | m :: rest =>
    match Cipher.find m with
    | none => .ok (false, o)
    | some mode =>
      if onlyAuth && !mode.isAuth then .ok (false, o)
      else
        let need := mode.ivLen + mode.tagLen
        let hdr := rest.take need
        if hdr.length ≠ need then .ok (false, o)
        else
          match cipherResultFromBuffer (m :: hdr) with
          | none => .ub
          | some r =>
            if key.key.length ≠ r.cipher.keyLen then .ok (false, o)
            else
              let body := rest.drop need
              .ok (decLoop V acc (body.length / chunkSize + 1) (V.decInit r.cipher key.key r.iv r.tag) body o)

/-- openssl_suite.c:685-716: the hashing loop; `none` on a read error.  `err` is reported by `ferror` as
soon as the bytes before the error are used up. -/
def mdLoop (V : Evp) (err : Bool) : (fuel : Nat) → V.Md → (input : Bytes) → Option V.Md
  | 0, _, _ => none
  | fuel + 1, st, input =>
    let chunk := input.take chunkSize
    if chunk.length < chunkSize && err then none
    else
      let st' := V.mdUpdate st chunk
      if chunk.length < chunkSize then some st' else mdLoop V err fuel st' (input.drop chunkSize)

/-- openssl_suite.c:667-721 `openssl_sha2_file`. -/
def sha2File (V : Evp) (i : InFile) (d : Digest) : Option Bytes :=
  (mdLoop V i.err (i.bytes.length / chunkSize + 1) (V.mdInit d) i.bytes).map V.mdFinal

/-! ### Paths -/

/-- Which files there are, and what is in them.  Paths are C strings. -/
abbrev Fs := Bytes → Option Bytes

def Fs.set (fs : Fs) (p : Bytes) (v : Option Bytes) : Fs := fun q => if q = p then v else fs q

/-- What the environment decides during one operation. -/
structure Env where
  /-- opening the source for reading works (if it exists) -/
  openOk : Bool
  /-- reading the source fails after so many bytes -/
  readErr : Option Nat
  /-- the temporary file can be created -/
  createOk : Bool
  /-- the bytes the `n`-th `fwrite` accepts (`none`: all) -/
  accept : Nat → Option Nat
  /-- what is in the temporary file at the moments in between -/
  between : List Bytes
  /-- what is in the temporary file after it was closed (the result of `fclose` is ignored) -/
  flush : Bytes → Bytes
  renameOk : Bool
  removeOk : Bool

/-- openssl_file_suite.c:96-102: destination and `.temp`. -/
def tempPath (dst : Bytes) : Bytes := dst ++ [46, 116, 101, 109, 112]

/-- What reading a file of this content delivers. -/
def Env.reads (v : Env) (content : Bytes) : InFile :=
  match v.readErr with
  | none => ⟨content, false⟩
  | some n => ⟨content.take n, true⟩

/-- openssl_file_suite.c:184-193 `freeFileOperation`: the temporary file is removed in any case. -/
def freeOp (v : Env) (tmp : Bytes) (fs : Fs) : Fs := if v.removeOk then fs.set tmp none else fs

/-- openssl_file_suite.c:160-182 `aesFileOpMoveTempToDestination`: both files are closed, then the
temporary file is renamed.  The states of the file system, the last one first. -/
def moveTemp (v : Env) (tmp dst : Bytes) (written : Bytes) (fs : Fs) : Bool × List Fs :=
  let closed := fs.set tmp (some (v.flush written))
  if v.renameOk then (true, [(closed.set dst (closed tmp)).set tmp none, closed])
  else (false, [closed])

/-- openssl_file_suite.c:67-143 and the common part of 195-215 and 217-235: `work` is
`openssl_encrypt_file` or `openssl_decrypt_file`.  Result: the answer, the last state of the file
system, and all the states before it. -/
def fileOp (v : Env) (work : InFile → OutFile → Res (Bool × OutFile)) (src dst : Bytes) (fs : Fs) :
    Res (Bool × Fs × List Fs) :=
  match fs src with
  | none => .ok (false, fs, [])
  | some _ =>
    if !v.openOk then .ok (false, fs, [])
    else if !v.createOk then .ok (false, fs, [])
    else
      let tmp := tempPath dst
      let created := fs.set tmp (some [])
      let input := v.reads ((created src).getD [])
      let during := v.between.map fun c => created.set tmp (some c)
      (work input ⟨[], 0, 0⟩).bind fun (ok, o) =>
        let done := created.set tmp (some o.data)
        if ok then
          let m := moveTemp v tmp dst o.data done
          .ok (m.1, freeOp v tmp (m.2.headD done), m.2 ++ done :: during ++ [created, fs])
        else .ok (false, freeOp v tmp done, done :: during ++ [created, fs])

/-- openssl_file_suite.c:195-215 `openssl_aes256_file_encrypt`. -/
def fileEncrypt (V : Evp) (v : Env) (key : CipherKey) (iv fresh src dst : Bytes) (fs : Fs) :
    Res (Bool × Fs × List Fs) :=
  fileOp v (fun i o => .ok (encryptFile V v.accept key iv fresh i o)) src dst fs

/-- openssl_file_suite.c:217-235 `openssl_aes256_file_decrypt`. -/
def fileDecrypt (V : Evp) (v : Env) (key : CipherKey) (src dst : Bytes) (onlyAuth : Bool) (fs : Fs) :
    Res (Bool × Fs × List Fs) :=
  fileOp v (fun i o => decryptFile V v.accept key i o onlyAuth) src dst fs

end Wickr
