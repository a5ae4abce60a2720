import Verif.Spec.ReleasesMsg
import Verif.Spec.ReprCtx
import Verif.Model.HeapProto
/-
The values that functions on serialized identities, nodes and contexts release without wiping them.
-/
namespace Wickr

/-- What a signature may be written as: its bytes, with and without padding. -/
def sigForms (s : Option EcdsaResult) : List Bytes :=
  s.toList.flatMap fun s => (ecdsaSerialize s).toList ++ (ecdsaBare s).toList

/-- What writing a chain releases: its signatures as they are written. -/
def chainForms (c : Chain) : List Bytes := sigForms c.root.sig ++ sigForms c.node.sig

/-- What writing a node releases: its signatures as they are written. -/
def nodeForms (v : Node) : List Bytes := chainForms v.chain ++ sigForms (v.eph.bind (·.sig))

/-- Storage keys as they are written. -/
def storageForms (v : StorageKeys) : List Bytes := (cipherKeySerialize v.loc).toList ++ (cipherKeySerialize v.rem).toList

/-- What reading an identity releases: its public key and its signature. -/
def PIdentity.shown (E : Engine) (m : PIdentity) : List Bytes :=
  optBytes m.identifier :: (importPubs E (optBytes m.sigKey) (m.isPrivate.getD false) ++
    (ecdsaFromBuffer (optBytes m.signature)).toList.map (·.sig))

/-- The same for a chain. -/
def PChain.shown (E : Engine) (m : PChain) : List Bytes :=
  m.root.toList.flatMap (PIdentity.shown E) ++ m.node.toList.flatMap (PIdentity.shown E)

/-- The same for an ephemeral key pair. -/
def PEphKey.shown (E : Engine) (m : PEphKey) : List Bytes :=
  importPubs E (optBytes m.ecKey) false ++ (ecdsaFromBuffer (optBytes m.keySig)).toList.map (·.sig)

/-- The same for a node. -/
def PNode.shown (E : Engine) (m : PNode) : List Bytes :=
  optBytes m.devid :: (m.idChain.toList.flatMap (PChain.shown E) ++ m.ephKey.toList.flatMap (PEphKey.shown E))

/-- What reading a serialized identity releases: the parts of the message, its public key and its signature. -/
def idReadPubs (E : Engine) (b : Bytes) : List Bytes :=
  ((fieldsDec b).bind PIdentity.unpack).toList.flatMap fun m => m.parts ++ m.shown E

/-- The same for a chain. -/
def chainReadPubs (E : Engine) (b : Bytes) : List Bytes :=
  ((fieldsDec b).bind PChain.unpack).toList.flatMap fun m => m.parts ++ m.shown E

/-- The same for an ephemeral key pair. -/
def ephReadPubs (E : Engine) (b : Bytes) : List Bytes :=
  ((fieldsDec b).bind PEphKey.unpack).toList.flatMap fun m => m.parts ++ m.shown E

/-- The same for a node. -/
def nodeReadPubs (E : Engine) (b : Bytes) : List Bytes :=
  ((fieldsDec b).bind PNode.unpack).toList.flatMap fun m => m.parts ++ m.shown E

/-- What reading serialized storage keys releases: the keys. -/
def storageReadPubs (b : Bytes) : List Bytes := ((fieldsDec b).bind PStorageKeys.unpack).toList.flatMap PStorageKeys.parts

/-- What making a context of a serialized chain releases besides: its public keys and signatures, and a header key of a wrong length. -/
def PCtx.shown (E : Engine) (m : PCtx) : List Bytes :=
  m.idChain.toList.flatMap fun cm => cm.shown E ++ (chainFromProto E cm).toList.flatMap (headerPubs E)

/-- What reading a serialized context releases: the parts of the message, public keys and signatures. -/
def ctxReadPubs (E : Engine) (b : Bytes) : List Bytes :=
  ((fieldsDec b).bind PCtx.unpack).toList.flatMap fun m => m.parts ++ m.shown E

end Wickr
