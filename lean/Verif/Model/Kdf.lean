import Verif.Model.Algo
/-
Model of the parameter objects of kdf.c.
-/
namespace Wickr

/-- kdf.h:47 `wickr_kdf_algo_id`. -/
inductive KdfKind where
  | bcrypt
  | scrypt
  | hkdf
deriving Repr, DecidableEq

/-- kdf.h:70-79 `wickr_kdf_algo_t`. -/
structure KdfAlgo where
  kind : KdfKind
  kdfId : UInt8
  saltSize : UInt8
  outputSize : UInt8
  cost : UInt32
deriving Repr, DecidableEq

/-- kdf.h:108-111: cost word of `KDF_SCRYPT_2_n`. -/
def scrypt17 : KdfAlgo := ⟨.scrypt, 1, 16, 32, 1116161⟩
/-- kdf.h:109 -/
def scrypt18 : KdfAlgo := ⟨.scrypt, 2, 16, 32, 1181697⟩
/-- kdf.h:110 -/
def scrypt19 : KdfAlgo := ⟨.scrypt, 3, 16, 32, 1247233⟩
/-- kdf.h:111 -/
def scrypt20 : KdfAlgo := ⟨.scrypt, 4, 16, 32, 1312769⟩
/-- kdf.h:114 -/
def bcrypt15 : KdfAlgo := ⟨.bcrypt, 5, 22, 64, 15⟩
/-- kdf.h:117 -/
def hkdfSha256 : KdfAlgo := ⟨.hkdf, 6, 32, 32, 0⟩
/-- kdf.h:118 -/
def hkdfSha384 : KdfAlgo := ⟨.hkdf, 7, 48, 48, 0⟩
/-- kdf.h:119 -/
def hkdfSha512 : KdfAlgo := ⟨.hkdf, 8, 64, 64, 0⟩
/-- kdf.h:122 -/
def hkdfSha512Expand : KdfAlgo := ⟨.hkdf, 9, 64, 0, 0⟩

/-- kdf.c:15-30 `__find_dkf_algo_with_id`. -/
def KdfAlgo.find (i : UInt8) : Option KdfAlgo :=
  if i = 5 then some bcrypt15
  else if i = 1 then some scrypt17
  else if i = 2 then some scrypt18
  else if i = 3 then some scrypt19
  else if i = 4 then some scrypt20
  else none

/-- kdf.c:471-483 `wickr_hkdf_algo_for_digest`. -/
def hkdfAlgoForDigest : Digest → KdfAlgo
  | .sha256 => hkdfSha256
  | .sha384 => hkdfSha384
  | .sha512 => hkdfSha512

/-- kdf.h `wickr_kdf_meta_t`. -/
structure KdfMeta where
  algo : KdfAlgo
  salt : Option Bytes
  info : Option Bytes
deriving Repr, DecidableEq

/-- kdf.c:32-57 `wickr_kdf_meta_create`. -/
def kdfMetaCreate (a : KdfAlgo) (salt info : Option Bytes) : Option KdfMeta :=
  match a.kind with
  | .hkdf => if salt.isNone && info.isNone then none else some ⟨a, salt, info⟩
  | _ => match salt with
    | none => none
    | some s => if s.length ≠ a.saltSize.toNat then none else some ⟨a, salt, info⟩

/-- kdf.c:59-74 `wickr_kdf_meta_create_hkdf_expand` (non-NULL digest).  The requested size is
stored in a `uint8_t` (kdf.h:75), hence truncated. -/
def kdfMetaCreateExpand (d : Digest) (info : Option Bytes) (outSize : Nat) : Option KdfMeta :=
  if info.isNone then none
  else if d ≠ .sha512 then none
  else kdfMetaCreate { hkdfSha512Expand with outputSize := UInt8.ofNat outSize } none info

/-- kdf.c:76-93 `wickr_kdf_meta_size_with_buffer`, a `uint8_t`. -/
def kdfMetaSize (buffer : Bytes) : UInt8 :=
  if buffer.length ≤ 1 then 0
  else match buffer with
    | [] => 0
    | b0 :: _ => match KdfAlgo.find b0 with
      | none => 0
      | some a => 1 + a.saltSize

/-- kdf.c:95-120 `wickr_kdf_meta_create_with_buffer`. -/
def kdfMetaFromBuffer (buffer : Bytes) : Option KdfMeta :=
  let size := kdfMetaSize buffer
  if size = 0 then none
  else if buffer.length < size.toNat then none
  else match buffer with
    | [] => none
    | b0 :: _ => match KdfAlgo.find b0 with
      | none => none
      | some a => (copySection buffer 1 a.saltSize.toNat).bind fun s => kdfMetaCreate a (some s) none

/-- kdf.c:122-140 `wickr_kdf_meta_serialize`. -/
def kdfMetaSerialize (m : KdfMeta) : Option Bytes :=
  if m.algo.kind = .hkdf ∧ m.salt.isNone then none
  else concat2 (some [m.algo.kdfId]) m.salt

/-- kdf.c:142-162 `wickr_kdf_meta_copy`. -/
def kdfMetaCopy (m : KdfMeta) : Option KdfMeta :=
  (dupOpt m.salt).bind fun s => (dupOpt m.info).bind fun i => kdfMetaCreate m.algo s i

end Wickr
