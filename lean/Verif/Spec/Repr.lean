import Verif.Spec.Sep
import Verif.Model.HeapArr
import Verif.Model.HeapKeys
/-
What the objects of the library look like in memory: `isKey a k` says that the piece of memory consists of exactly the blocks of
a key `k` whose structure is at `a`.

`X.publics` lists the parts of an object that are not secret.  `xLoss v v'` says what may be missing from a copy `v'` of `v`
made while allocations failed.
-/
namespace Wickr
open Asrt

/-! ### Buffers -/

/-- A buffer holding `b`: its structure and its bytes, and nothing else. -/
def isBuf (a : Addr) (b : Bytes) : Asrt :=
  ⌜ValidBuf b⌝ ∗ Asrt.ex fun q => (a ↦ .obj (.len b.length) [some q]) ∗ (q ↦ .bytes b)

/-- The result of making a new buffer of the bytes `b`, which may be refused. -/
def newBuf (b : Bytes) (r : Ptr) (f : Bool) : Asrt :=
  match r with
  | none => ⌜f = true ∨ ¬ ValidBuf b⌝
  | some a => isBuf a b

/-! ### Keys, signatures, identities, nodes, ciphers -/

/-- A key. -/
def isKey (a : Addr) (k : EcKey) : Asrt := Asrt.ex fun (q : Addr) => Asrt.ex fun (p : Ptr) =>
  (a ↦ .obj (.curve k.curve) [some q, p]) ∗ isBuf q k.pub ∗ optRep isBuf p k.pri

/-- A signature. -/
def isSig (a : Addr) (s : EcdsaResult) : Asrt := Asrt.ex fun (q : Addr) =>
  (a ↦ .obj (.sig s.curve s.digest) [some q]) ∗ isBuf q s.sig

/-- An identity; the identifiers of the library are shorter than 128 bytes. -/
def isId (a : Addr) (i : Identity) : Asrt := Asrt.ex fun (q : Addr) => Asrt.ex fun (k : Addr) => Asrt.ex fun (p : Ptr) =>
  ⌜i.identifier.length < 128⌝ ∗ (a ↦ .obj (.idType i.type) [some q, some k, p]) ∗ isBuf q i.identifier ∗ isKey k i.key ∗
    optRep isSig p i.sig

/-- The parts of an identity that may be released unwiped. -/
def Identity.publics (i : Identity) : List Bytes := i.identifier :: i.key.pub :: (i.sig.map (·.sig)).toList

/-- What may be missing from a copy of an identity: the signature. -/
def idLoss (i i' : Identity) : Prop := i' = i ∨ i' = { i with sig := none }

/-- A chain. -/
def isChain (a : Addr) (c : Chain) : Asrt :=
  Asrt.ex fun (r : Addr) => Asrt.ex fun (n : Addr) => Asrt.ex fun (p : Ptr) =>
    (a ↦ .obj (.status c.status) [some r, some n, p]) ∗ isId r c.root ∗ isId n c.node ∗ optRep isBuf p c.cache

def Chain.publics (c : Chain) : List Bytes := c.root.publics ++ c.node.publics ++ c.cache.toList

/-- What may be missing from a copy of a chain: signatures. -/
def chainLoss (c c' : Chain) : Prop :=
  idLoss c.root c'.root ∧ idLoss c.node c'.node ∧ c'.status = c.status ∧ c'.cache = c.cache

/-- A cipher key. -/
def isCKey (a : Addr) (k : CipherKey) : Asrt := Asrt.ex fun (q : Addr) =>
  ⌜k.key.length = k.cipher.keyLen⌝ ∗ (a ↦ .obj (.cipher k.cipher) [some q]) ∗ isBuf q k.key

/-- What `wickr_cipher_result_create` asks for. -/
def CipherResult.Ok (r : CipherResult) : Prop :=
  r.iv.length = r.cipher.ivLen ∧ (r.cipher.isAuth = true → r.tag.isSome) ∧ ∀ t, r.tag = some t → t.length = r.cipher.tagLen

/-- A cipher result. -/
def isCRes (a : Addr) (r : CipherResult) : Asrt :=
  Asrt.ex fun (q : Addr) => Asrt.ex fun (p : Ptr) => Asrt.ex fun (t : Ptr) =>
  ⌜r.Ok⌝ ∗ (a ↦ .obj (.cipher r.cipher) [some q, p, t]) ∗ isBuf q r.iv ∗ optRep isBuf p r.ct ∗ optRep isBuf t r.tag

def CipherResult.publics (r : CipherResult) : List Bytes := r.iv :: r.ct.toList ++ r.tag.toList

/-- What may be missing from a copy of a cipher result: the cipher text. -/
def cresLoss (r r' : CipherResult) : Prop := r' = r ∨ r' = { r with ct := none }

/-- An ephemeral key pair. -/
def isEph (a : Addr) (e : EphKey) : Asrt := Asrt.ex fun (k : Addr) => Asrt.ex fun (p : Ptr) =>
  (a ↦ .obj (.num e.identifier) [some k, p]) ∗ isKey k e.key ∗ optRep isSig p e.sig

def EphKey.publics (e : EphKey) : List Bytes := e.key.pub :: (e.sig.map (·.sig)).toList

/-- A node. -/
def isNode (a : Addr) (v : Node) : Asrt :=
  Asrt.ex fun (d : Addr) => Asrt.ex fun (ch : Addr) => Asrt.ex fun (p : Ptr) => Asrt.ex fun (q : Ptr) =>
    (a ↦ .obj (.status v.status) [some d, some ch, p, q]) ∗ isBuf d v.devId ∗ isChain ch v.chain ∗ optRep isEph p v.eph ∗
      optRep isBuf q v.cache

def Node.publics (v : Node) : List Bytes :=
  v.devId :: v.chain.publics ++ (v.eph.map EphKey.publics).getD [] ++ v.cache.toList

/-- What may be missing from a copy of a node: signatures of its chain. -/
def nodeLoss (v v' : Node) : Prop :=
  v'.devId = v.devId ∧ chainLoss v.chain v'.chain ∧ v'.eph = v.eph ∧ v'.status = v.status ∧ v'.cache = v.cache

/-! ### Messages -/

/-- The header of a payload. -/
def isInfo (a : Addr) (i : PktInfo) : Asrt := Asrt.ex fun (q : Addr) =>
  (a ↦ .obj (.info i.ttl i.bor i.contentType) [some q]) ∗ isBuf q i.channelTag

/-- A payload. -/
def isPayload (a : Addr) (v : Payload) : Asrt := Asrt.ex fun (p : Addr) => Asrt.ex fun (q : Addr) =>
  (a ↦ .obj .plain [some p, some q]) ∗ isInfo p v.hdr ∗ isBuf q v.body

def Payload.publics (v : Payload) : List Bytes := [v.hdr.channelTag]

/-- A key exchange. -/
def isEx (a : Addr) (v : KeyExchange) : Asrt := Asrt.ex fun (p : Addr) => Asrt.ex fun (q : Addr) =>
  (a ↦ .obj (.num v.keyId) [some p, some q]) ∗ isBuf p v.id ∗ isCRes q v.ct

def KeyExchange.publics (v : KeyExchange) : List Bytes := v.id :: v.ct.publics

/-- What may be missing from a copy of an exchange: its cipher text. -/
def exLoss (v v' : KeyExchange) : Prop := v'.id = v.id ∧ v'.keyId = v.keyId ∧ cresLoss v.ct v'.ct

/-- A packet. -/
def isPacket (a : Addr) (v : Msg) : Asrt := Asrt.ex fun (p : Addr) => Asrt.ex fun (q : Addr) =>
  (a ↦ .obj (.ver v.version) [some p, some q]) ∗ isBuf p v.content ∗ isSig q v.sig

def Msg.publics (v : Msg) : List Bytes := [v.content, v.sig.sig]

/-- An encoder result. -/
def isEnc (a : Addr) (v : Encoded) : Asrt := Asrt.ex fun (p : Addr) => Asrt.ex fun (q : Addr) =>
  (a ↦ .obj .plain [some p, some q]) ∗ isCKey p v.key ∗ isPacket q v.packet

def Encoded.publics (v : Encoded) : List Bytes := v.packet.publics

/-- A decode result. -/
def isDec (a : Addr) (v : DecodeResult) : Asrt := Asrt.ex fun (p : Ptr) => Asrt.ex fun (q : Ptr) =>
  (a ↦ .obj (.err v.err) [p, q]) ∗ optRep isPayload p v.payload ∗ optRep isCKey q v.key

def DecodeResult.publics (v : DecodeResult) : List Bytes := (v.payload.map Payload.publics).getD []

/-- What may be missing from a copy of a decode result: the payload, and the key. -/
def decLoss (v v' : DecodeResult) : Prop :=
  v'.err = v.err ∧ (v'.payload = v.payload ∨ v'.payload = none) ∧ (v'.key = v.key ∨ v'.key = none)

/-! ### Key material -/

/-- Storage keys. -/
def isStorage (a : Addr) (v : StorageKeys) : Asrt := Asrt.ex fun (p : Addr) => Asrt.ex fun (q : Addr) =>
  (a ↦ .obj .plain [some p, some q]) ∗ isCKey p v.loc ∗ isCKey q v.rem

/-- Root keys. -/
def isRoot (a : Addr) (v : RootKeys) : Asrt := Asrt.ex fun (p : Addr) => Asrt.ex fun (q : Addr) => Asrt.ex fun (r : Addr) =>
  (a ↦ .obj .plain [some p, some q, some r]) ∗ isKey p v.sigRoot ∗ isCKey q v.nodeRoot ∗ isCKey r v.remoteRoot

/-- Device information. -/
def isDev (a : Addr) (v : DevInfo) : Asrt :=
  Asrt.ex fun (p : Addr) => Asrt.ex fun (s : Ptr) => Asrt.ex fun (q : Addr) => Asrt.ex fun (r : Addr) =>
  (a ↦ .obj .plain [some p, s, some q, some r]) ∗ isBuf p v.devSalt ∗ optRep isBuf s v.systemSalt ∗ isBuf q v.msgProtoId ∗
    isBuf r v.srvCommId

/-- What `wickr_kdf_meta_create` asks for. -/
def KdfMeta.Ok (m : KdfMeta) : Prop :=
  (m.algo.kind = .hkdf → m.salt.isSome ∨ m.info.isSome) ∧
  (m.algo.kind ≠ .hkdf → m.salt.isSome) ∧ (∀ s, m.algo.kind ≠ .hkdf → m.salt = some s → s.length = m.algo.saltSize.toNat)

/-- The parameters of a key derivation. -/
def isKdfMeta (a : Addr) (m : KdfMeta) : Asrt := Asrt.ex fun (p : Ptr) => Asrt.ex fun (q : Ptr) =>
  ⌜m.Ok⌝ ∗ (a ↦ .obj (.kdf m.algo) [p, q]) ∗ optRep isBuf p m.salt ∗ optRep isBuf q m.info

def KdfMeta.publics (m : KdfMeta) : List Bytes := m.info.toList

/-- The result of a key derivation. -/
def isKdfRes (a : Addr) (r : KdfResult) : Asrt := Asrt.ex fun (p : Addr) => Asrt.ex fun (q : Addr) =>
  (a ↦ .obj .plain [some p, some q]) ∗ isKdfMeta p r.info ∗ isBuf q r.hash

def KdfResult.publics (r : KdfResult) : List Bytes := r.info.publics

/-- A stream key. -/
def isSKey (a : Addr) (v : StreamKey) : Asrt := Asrt.ex fun (p : Addr) => Asrt.ex fun (q : Addr) => Asrt.ex fun (u : Ptr) =>
  ⌜ppeMin ≤ v.ppe ∧ v.ppe ≤ ppeMax⌝ ∗ (a ↦ .obj (.ppe v.ppe) [some p, some q, u]) ∗ isCKey p v.cipherKey ∗ isBuf q v.evoKey ∗
    optRep isBuf u v.userData

def StreamKey.publics (v : StreamKey) : List Bytes := v.userData.toList

/-- An IV factory. -/
def isSIv (a : Addr) (v : StreamIv) : Asrt := Asrt.ex fun (p : Addr) =>
  (a ↦ .obj (.iv v.cipher v.count) [some p]) ∗ isBuf p v.seed

/-- A stream; one that encodes has an IV factory, one that decodes has none. -/
def isSCtx (a : Addr) (v : StreamCtx) : Asrt := Asrt.ex fun (p : Addr) => Asrt.ex fun (q : Ptr) =>
  ⌜v.iv.isSome = true ↔ v.dir = .encode⌝ ∗ (a ↦ .obj (.stream v.lastSeq v.dir v.ref) [some p, q]) ∗ isSKey p v.key ∗
    optRep isSIv q v.iv

def StreamCtx.publics (v : StreamCtx) : List Bytes := v.key.publics ++ (v.iv.map (·.seed)).toList

/-- A transport root key. -/
def isTRoot (a : Addr) (v : RootKey) : Asrt := Asrt.ex fun (p : Addr) =>
  ⌜v.secret.length = v.cipher.keyLen⌝ ∗ (a ↦ .obj (.root v.cipher v.ppeSend v.ppeRecv) [some p]) ∗ isBuf p v.secret

/-- An ECDH context. -/
def isEcdh (a : Addr) (v : EcdhCtx) : Asrt := Asrt.ex fun (p : Addr) =>
  (a ↦ .obj (.cipher v.cipher) [some p]) ∗ isKey p v.key

/-! ### Arrays -/

/-- The items behind a list of pointers. -/
def items {V : Type} (R : Addr → V → Asrt) : List Ptr → List (Option V) → Asrt
  | [], [] => emp
  | p :: ps, x :: xs => optRep R p x ∗ items R ps xs
  | _, _ => ⌜False⌝

/-- The item store: none for an empty array. -/
def isStore (n : Nat) (st : Ptr) (ps : List Ptr) : Asrt :=
  match st with
  | none => ⌜n = 0 ∧ ps = []⌝
  | some s => Asrt.ex fun (b : Addr) =>
    ⌜n ≠ 0 ∧ 8 * n ≤ maxBuffer ∧ ps.length = n⌝ ∗ (s ↦ .obj (.len (8 * n)) [some b]) ∗ (b ↦ .obj .plain ps)

/-- An array without its items. -/
def isSlots (a : Addr) (n : Nat) (ps : List Ptr) : Asrt := Asrt.ex fun (st : Ptr) =>
  (a ↦ .obj (.len n) [st]) ∗ isStore n st ps

/-- An array. -/
def isArr {V : Type} (R : Addr → V → Asrt) (a : Addr) (xs : List (Option V)) : Asrt := Asrt.ex fun (ps : List Ptr) =>
  isSlots a xs.length ps ∗ items R ps xs

/-- What may be missing from a copy of an array: what may be missing from copies of its items. -/
def arrLoss {V : Type} (L : V → V → Prop) : List (Option V) → List (Option V) → Prop
  | [], [] => True
  | x :: xs, y :: ys => (match x, y with
      | none, none => True
      | some v, some w => L v w
      | _, _ => False) ∧ arrLoss L xs ys
  | _, _ => False

def nodesPublics (xs : List (Option Node)) : List Bytes := xs.flatMap fun x => (x.map Node.publics).getD []

def exsPublics (xs : List (Option KeyExchange)) : List Bytes := xs.flatMap fun x => (x.map KeyExchange.publics).getD []

/-- A key exchange set. -/
def isSet (a : Addr) (v : KeyExchangeSet) : Asrt := Asrt.ex fun (p : Addr) => Asrt.ex fun (q : Addr) =>
  (a ↦ .obj .plain [some p, some q]) ∗ isKey p v.senderPub ∗ isArr isEx q v.exchanges

def KeyExchangeSet.publics (v : KeyExchangeSet) : List Bytes := v.senderPub.pub :: exsPublics v.exchanges

/-- What may be missing from a copy of a set: cipher texts of its exchanges. -/
def setLoss (v v' : KeyExchangeSet) : Prop := v'.senderPub = v.senderPub ∧ arrLoss exLoss v.exchanges v'.exchanges

/-- A parse result. -/
def isParse (a : Addr) (v : ParseResult) : Asrt := Asrt.ex fun (p : Ptr) => Asrt.ex fun (q : Ptr) => Asrt.ex fun (r : Ptr) =>
  (a ↦ .obj (.parse v.err v.sigStatus) [p, q, r]) ∗ optRep isSet p v.set ∗ optRep isCRes q v.payload ∗ optRep isEx r v.exchange

def ParseResult.publics (v : ParseResult) : List Bytes :=
  (v.set.map KeyExchangeSet.publics).getD [] ++ (v.payload.map CipherResult.publics).getD [] ++
    (v.exchange.map KeyExchange.publics).getD []

/-- What may be missing from a copy of an optional part: everything, or what may be missing from a copy of the part. -/
def optLoss {V : Type} (L : V → V → Prop) (x y : Option V) : Prop :=
  y = none ∨ ∃ v w, x = some v ∧ y = some w ∧ L v w

/-- What may be missing from a copy of a parse result: any of its parts. -/
def parseLoss (v v' : ParseResult) : Prop :=
  v'.err = v.err ∧ v'.sigStatus = v.sigStatus ∧ optLoss setLoss v.set v'.set ∧ optLoss cresLoss v.payload v'.payload ∧
    optLoss exLoss v.exchange v'.exchange

end Wickr
