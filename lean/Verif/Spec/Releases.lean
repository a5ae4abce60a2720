import Verif.Spec.Repr
import Verif.Model.HeapKeyFun
/-
The values that functions release without wiping them.
-/
namespace Wickr

/-- The public key that an import makes. -/
abbrev importPubs (E : Engine) (b : Bytes) (pr : Bool) : List Bytes := (E.ecImport b pr).toList.map (·.pub)
/-- The parts of an encryption. -/
abbrev encryptPubs (E : Engine) (b : Bytes) (aad : Option Bytes) (k : CipherKey) (iv : Bytes) : List Bytes :=
  (E.encrypt b aad k iv).toList.flatMap (·.publics)
/-- A signature. -/
abbrev signPubs (E : Engine) (i : Identity) (b n : Bytes) : List Bytes := (identitySign E i b n).toList.map (·.sig)

/-- What the status of a chain is hashed together with. -/
def Chain.digestInput (ch : Chain) : Option Bytes :=
  match ch.node.sig with
  | none => none
  | some s => concatMulti [some ch.root.key.pub, some s.sig, some ch.node.key.pub, some [ch.status.byte]]

/-- The initialization vector and the tag at the front of a serialized cipher result. -/
def cresHead (b : Bytes) : List Bytes :=
  match b with
  | [] => []
  | b0 :: _ =>
    match Cipher.find b0 with
    | none => []
    | some ci => (copySection b 1 ci.ivLen).toList ++ (copySection b (1 + ci.ivLen) ci.tagLen).toList

/-- What a key derivation releases although it succeeds. -/
def KdfMeta.spills (m : KdfMeta) (pass : Bytes) : List Bytes :=
  match m.algo.kind, m.salt with
  | .bcrypt, some s => [bcryptSetting s, pass ++ [0]]
  | _, _ => []

/-- The bytes that making a salt releases. -/
def KdfAlgo.saltSpills (a : KdfAlgo) (rnd salt : Bytes) : List Bytes :=
  if a.kind = .bcrypt then [rnd, [36, 50, 121, 36, 49, 53, 36] ++ salt ++ [0]] else []

/-- What `wickr_crypto_engine_kdf_cipher` releases: random values, and parts of its result. -/
def kdfCipherPubs (E : Engine) (a : KdfAlgo) (ci : Cipher) (value pass salt iv : Bytes) : List Bytes :=
  salt :: ((E.kdf ⟨a, some salt, none⟩ pass).toList.flatMap fun h => (E.encrypt value none ⟨ci, h⟩ iv).toList.flatMap fun r =>
    r.publics ++ (cipherResultSerialize r).toList) ++ (kdfMetaSerialize ⟨a, some salt, none⟩).toList

/-- What `wickr_crypto_engine_kdf_decipher` releases: parts of its argument, and what the derivation of the key releases. -/
def kdfDecipherPubs (b pass : Bytes) : List Bytes :=
  (cipherResultFromBuffer (b.drop (kdfMetaSize b).toNat)).toList.flatMap CipherResult.publics ++
    (kdfMetaFromBuffer b).toList.flatMap fun m => m.spills pass

/-- What making device identifiers releases: hashes of the system identifier, and the identifiers. -/
def devInfoPubs (E : Engine) (salt sid : Bytes) : List Bytes :=
  (E.digest sid none .sha256).toList ++
    (E.digest sid (some salt) .sha512).toList.flatMap fun d => d :: ((copySection d 0 32).toList ++ (copySection d 32 32).toList)

/-- What encryption to a key releases. -/
abbrev ecdhPubs (E : Engine) (v : EcdhCtx) (pt : Bytes) (peer : EcKey) (m : KdfMeta) (iv : Bytes) : List Bytes :=
  m.publics ++ (ecdhCipherKey E v peer m).toList.flatMap fun k => encryptPubs E pt none k iv

/-- The parts of serialized root keys: the storage keys and the private key. -/
def rootParts (b : Bytes) : List Bytes := ((fieldsDec b).bind PRootKeys.unpack).toList.flatMap PRootKeys.parts

/-- What reading root keys leaves in memory: the parts of the message and the public key that is made. -/
def rootPubs (E : Engine) (b : Bytes) : List Bytes :=
  rootParts b ++ (((fieldsDec b).bind PRootKeys.unpack).bind fun k => E.ecImport (optBytes k.nodeSignatureRoot) true).toList.map (·.pub)

/-- The parts of a serialized stream key. -/
def streamParts (b : Bytes) : List Bytes := ((fieldsDec b).bind PStreamKey.unpack).toList.flatMap PStreamKey.parts

end Wickr
