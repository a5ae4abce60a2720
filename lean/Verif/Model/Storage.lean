import Verif.Model.Engine
import Verif.Model.Proto
/-
Model of devinfo.c, storage.c, storage_priv.c and root_keys.c.
-/
namespace Wickr

/-- devinfo.h `wickr_dev_info_t`; `create` (devinfo.c:5-23) accepts a NULL system salt. -/
structure DevInfo where
  devSalt : Bytes
  systemSalt : Option Bytes
  msgProtoId : Bytes
  srvCommId : Bytes
deriving Repr, DecidableEq

/-- devinfo.c:50-101 `wickr_dev_info_derive`. -/
def devInfoDerive (E : Engine) (devSalt systemId : Bytes) : Option DevInfo :=
  (E.digest systemId none .sha256).bind fun sys =>
    (E.digest systemId (some devSalt) .sha512).bind fun d =>
      (copySection d 0 32).bind fun m => (copySection d 32 32).map fun s => ⟨devSalt, some sys, m, s⟩

/-- devinfo.c:103-150 `wickr_dev_info_copy`: fails without a system salt. -/
def devInfoCopy (d : DevInfo) : Option DevInfo :=
  (d.systemSalt.bind dup).bind fun sys => (dup d.devSalt).bind fun ds =>
    (dup d.msgProtoId).bind fun m => (dup d.srvCommId).map fun s => ⟨ds, some sys, m, s⟩

/-- storage.h `wickr_storage_keys_t`. -/
structure StorageKeys where
  loc : CipherKey
  rem : CipherKey
deriving Repr, DecidableEq

/-- storage.c:25-52 `wickr_storage_keys_copy`. -/
def storageCopy (k : StorageKeys) : Option StorageKeys :=
  (cipherKeyCopy k.loc).bind fun l => (cipherKeyCopy k.rem).map fun r => ⟨l, r⟩

/-- storage_priv.c:19-43 `wickr_storage_keys_to_proto` (cipher_priv.c:15-31, buffer_priv.c:11-27). -/
def storageToProto (k : StorageKeys) : Option PStorageKeys :=
  (cipherKeySerialize k.loc).bind fun l => (cipherKeySerialize k.rem).map fun r => ⟨1, some l, some r⟩

/-- storage_priv.c:45-76 `wickr_storage_keys_create_from_proto` (cipher_priv.c:5-13). -/
def storageFromProto (p : PStorageKeys) : Option StorageKeys :=
  match p.localStorage, p.remoteStorage with
  | some l, some r =>
    if p.version ≠ 1 then none
    else (cipherKeyFromBuffer l).bind fun l => (cipherKeyFromBuffer r).map fun r => ⟨l, r⟩
  | _, _ => none

/-- storage.c:54-73 `wickr_storage_keys_serialize`.  A failing conversion is passed on to the packer
as NULL. -/
def storageSerialize (k : StorageKeys) : Res Bytes :=
  match storageToProto k with
  | none => .ub
  | some p => Res.ofOption (protoPack p.pack)

/-- storage.c:75-88 `wickr_storage_keys_create_from_buffer`. -/
def storageFromBuffer (b : Bytes) : Option StorageKeys :=
  ((fieldsDec b).bind PStorageKeys.unpack).bind storageFromProto

/-- root_keys.h `wickr_root_keys_t`. -/
structure RootKeys where
  sigRoot : EcKey
  nodeRoot : CipherKey
  remoteRoot : CipherKey
deriving Repr, DecidableEq

/-- root_keys.c:126-178 `wickr_root_keys_serialize`.  Line 131 dereferences the private key. -/
def rootKeysSerialize (k : RootKeys) : Res Bytes :=
  match k.sigRoot.pri with
  | none => .ub
  | some s => Res.ofOption <|
    (cipherKeySerialize k.nodeRoot).bind fun n => (cipherKeySerialize k.remoteRoot).bind fun r =>
      protoPack (PRootKeys.pack ⟨1, some n, some r, some s⟩)

/-- root_keys.c:68-124 `wickr_root_keys_create_from_buffer`.  The signature key is imported without
looking at its `has_` flag (line 105); an absent field is empty.  Line 99 tests the wrong pointer, but
`create` (13) refuses the NULL. -/
def rootKeysFromBuffer (E : Engine) (b : Bytes) : Option RootKeys :=
  ((fieldsDec b).bind PRootKeys.unpack).bind fun p =>
    match p.nodeStorageRoot, p.remoteStorageRoot with
    | some n, some r =>
      if p.version > 1 then none
      else (cipherKeyFromBuffer n).bind fun n =>
        (E.ecImport (optBytes p.nodeSignatureRoot) true).bind fun s =>
          (cipherKeyFromBuffer r).map fun r => ⟨s, n, r⟩
    | _, _ => none

/-- root_keys.c:180-196 `wickr_root_keys_export`; `iv` is the random IV. -/
def rootKeysExport (E : Engine) (k : RootKeys) (key : CipherKey) (iv : Bytes) : Res CipherResult :=
  (rootKeysSerialize k).bind fun b => Res.ofOption (E.encrypt b none key iv)

/-- root_keys.c:198-235 `wickr_root_keys_localize`. -/
def rootKeysLocalize (E : Engine) (k : RootKeys) (d : DevInfo) : Option StorageKeys :=
  (cipherKeyCopy k.remoteRoot).bind fun r =>
    (E.digest k.nodeRoot.key d.systemSalt .sha256).bind fun h =>
      (cipherKeyCreate k.nodeRoot.cipher h).map fun l => ⟨l, r⟩

/-- root_keys.c:237-273 `wickr_root_keys_copy`. -/
def rootKeysCopy (k : RootKeys) : Option RootKeys :=
  (ecKeyCopy k.sigRoot).bind fun s => (cipherKeyCopy k.nodeRoot).bind fun n =>
    (cipherKeyCopy k.remoteRoot).map fun r => ⟨s, n, r⟩

end Wickr
