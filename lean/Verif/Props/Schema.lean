import Verif.Lemmas.Schema
import Verif.Lemmas.TransportCtx
import Verif.Props.Identity
import Verif.Props.Handshake
/-
C91: the bytes of every serialized object are exactly those of the published schemas.
-/
set_option linter.unusedSimpArgs false
namespace Wickr
open Spec

theorem map_bind_pack {α : Type} (x : Option α) (f : α → List Field) :
    (x.map f).bind protoPack = x.bind fun a => protoPack (f a) := by cases x <;> rfl

theorem ofOption_ok {α : Type} {x : Option α} {a : α} : Res.ofOption x = .ok a ↔ x = some a := by
  cases x <;> simp [Res.ofOption]

theorem bytesField_ne (k : Nat) (b : Bytes) : bytesField k b ≠ [] := List.length_pos_iff.1 (bytesField_pos k b)
theorem uintField_ne (k n : Nat) : uintField k n ≠ [] := List.length_pos_iff.1 (uintField_pos k n)

local macro "wpos" : tactic => `(tactic| (
  intro v hv
  refine List.length_pos_iff.2 (fun h0 => ?_)
  subst h0
  simp [bytesField_ne, uintField_ne, Option.bind_eq_some_iff] at hv))

/-- C91: a published identity is the `Identity` message of the schema with its public key, and it can be
published exactly when that fits a buffer. -/
theorem C91_identity (i : Identity) (b : Bytes) :
    identitySerialize i = some b ↔ identityWire i false = some b ∧ b.length ≤ maxBuffer := by
  unfold identitySerialize
  rw [← map_bind_pack]
  refine (same_identity i false).iff ?_
  unfold identityWire
  cases i.type <;> wpos

/-- C91: an identity chain is the `IdentityChain` message: public keys for others, private keys for
itself. -/
theorem C91_chain (c : Chain) (isPrivate : Bool) (b : Bytes) :
    chainSerialize c isPrivate = some b ↔ chainWire c isPrivate = some b ∧ b.length ≤ maxBuffer := by
  unfold chainSerialize
  rw [← map_bind_pack]
  refine (same_chain c isPrivate).iff ?_
  unfold chainWire
  wpos

/-- C91: an ephemeral key pair is written without its private key. -/
theorem C91_ephemeral_key (k : EphKey) (b : Bytes) :
    ephSerialize k = some b ↔ ephWire k = some b ∧ b.length ≤ maxBuffer := by
  unfold ephSerialize
  rw [← map_bind_pack]
  refine (same_eph k).iff ?_
  unfold ephWire
  split <;> wpos

/-- C91: a node. -/
theorem C91_node (n : Node) (b : Bytes) :
    nodeSerialize n = some b ↔ nodeWire n = some b ∧ b.length ≤ maxBuffer := by
  unfold nodeSerialize
  rw [← map_bind_pack]
  refine (same_node n).iff ?_
  unfold nodeWire
  split <;> wpos

/-- C91: a key exchange set: the sender's public key and one message per exchange, in order. -/
theorem C91_exchange_set (s : KeyExchangeSet) (b : Bytes) :
    exchangeSetSerialize s = some b ↔ exchangeSetWire s = some b ∧ b.length ≤ maxBuffer := by
  unfold exchangeSetSerialize
  rw [← map_bind_pack]
  refine (same_set s).iff ?_
  unfold exchangeSetWire
  wpos

/-- C91: a payload; a burn-on-read time of zero is not written. -/
theorem C91_payload (p : Payload) (b : Bytes) :
    payloadSerialize p = some b ↔ payloadWire p = b ∧ b.length ≤ maxBuffer := by
  unfold payloadSerialize
  refine protoPack_iff (enc_payload p) ?_
  have := bytesField_pos 4 p.body
  simp only [payloadWire, List.length_append]; omega

/-- C91: the signed content of a message is the `packet` message of encrypted header and payload. -/
theorem C91_packet_content (E : Engine) (header payload : CipherResult) (key : EcKey) (version : UInt8)
    (nonce : Bytes) (m : Msg) (h : msgCreateWithComponents E header payload key version nonce = .ok m) :
    packetWire header payload = some m.content ∧ m.content.length ≤ maxBuffer ∧ m.version = version := by
  unfold msgCreateWithComponents at h
  split at h
  · cases h
  rename_i hb hh
  split at h
  · cases h
  rename_i pb hp
  split at h
  · cases h
  rename_i c hc
  split at h
  · cases h
  cases h
  have hs := (same_packet header payload).iff (b := c) (by unfold packetWire; wpos)
  rw [hh, hp] at hs
  obtain ⟨h1, h2⟩ := hs.1 hc
  exact ⟨h1, h2, rfl⟩

/-- C91: a message is `| VERSION | CURVE_ID | CONTENT | SIGNATURE |`. -/
theorem C91_message (m : Msg) (b : Bytes) :
    msgSerialize m = some b ↔ messageWire m = some b ∧ b.length ≤ maxBuffer := by
  have hm := maxBuffer_val
  unfold msgSerialize messageWire
  rw [ecdsaSerialize_eq]
  cases hs : sigWire m.sig with
  | none => simp
  | some s =>
    have hl : s.length = m.sig.curve.sigSize := by
      unfold sigWire at hs
      split at hs
      · cases hs
        simp only [ecdsaLayout, List.length_append, List.length_replicate, List.length_cons, List.length_nil]
        omega
      · cases hs
    simp only [Option.bind_some, Option.map_some, Option.some.injEq, ne_eq, hl, not_true_eq_false, if_false]
    rw [concatMulti_some]
    simp only [List.flatMap_cons, List.flatMap_nil, optBytes, ValidBuf]
    constructor
    · rintro ⟨rfl, h⟩
      exact ⟨by simp, h.2⟩
    · rintro ⟨rfl, h⟩
      exact ⟨by simp, by simp, h⟩

/-- C91: storage keys carry version one. -/
theorem C91_storage_keys (k : StorageKeys) (b : Bytes) :
    storageSerialize k = .ok b ↔ storageWire k = b ∧ b.length ≤ maxBuffer := by
  have h := (same_storage k).iff (b := b) (by unfold storageWire; wpos)
  rw [map_bind_pack, Option.some.injEq] at h
  rw [← h]
  unfold storageSerialize
  cases storageToProto k with
  | none => simp
  | some p => simp only [Option.bind_some]; exact ofOption_ok

/-- C91: root keys carry version one and the private signature key. -/
theorem C91_root_keys (k : RootKeys) (b : Bytes) :
    rootKeysSerialize k = .ok b ↔ rootKeysWire k = some b ∧ b.length ≤ maxBuffer := by
  unfold rootKeysSerialize rootKeysWire
  cases k.sigRoot.pri with
  | none => simp
  | some s =>
    have h := (same_rootKeys k s).iff (b := b) (by wpos)
    simp only [Option.map_some]
    rw [← h, ofOption_ok]
    cases cipherKeySerialize k.nodeRoot <;> cases cipherKeySerialize k.remoteRoot <;> simp

/-- C91: a context is its storage keys and its private identity chain. -/
theorem C91_ctx (c : Ctx) (b : Bytes) :
    ctxSerialize c = some b ↔ ctxWire c = some b ∧ b.length ≤ maxBuffer := by
  unfold ctxSerialize
  rw [← map_bind_pack]
  refine (same_ctx c).iff ?_
  unfold ctxWire
  wpos

/-- C91: a stream key. -/
theorem C91_stream_key (k : StreamKey) (b : Bytes) :
    streamKeySerialize k = .ok b ↔ streamKeyWire k = b ∧ b.length ≤ maxBuffer := by
  have h := (same_streamKey k).iff (b := b) (by unfold streamKeyWire; wpos)
  rw [map_bind_pack, Option.some.injEq] at h
  rw [← h]
  unfold streamKeySerialize
  cases streamKeyToProto k with
  | none => simp
  | some p => simp only [Option.bind_some]; exact ofOption_ok

theorem pktSign_body {E : Engine} {p q : Packet} {c : Chain} {n : Bytes} (h : pktSign E p c n = (q, true)) :
    q.body = p.body := by
  unfold pktSign at h
  split at h
  · cases h
  · split at h
    · cases h
    · have := congrArg Prod.fst h
      simp only [] at this
      subst this; rfl

theorem hsBuildSigned_body {E : Engine} {h h' : Handshake} {m : PHandshake} {n : Bytes} {b : Bool} {q : Packet}
    (e : hsBuildSigned E h m n b = (h', some q)) : protoPack m.pack = some q.body := by
  unfold hsBuildSigned at e
  split at e
  · cases e
  next p hp =>
  split at e
  · cases e
  next p' hs =>
  cases e
  unfold handshakeToPacket at hp
  simp only [Option.map_eq_some_iff] at hp
  obtain ⟨b, hb, rfl⟩ := hp
  rw [hb, pktSign_body hs]; rfl

/-- C91: the first packet of a handshake carries the initiator's public chain, the drawn ephemeral public key
and whether the responder has to name itself, which is when its identity is not known beforehand. -/
theorem C91_handshake_seed (E : Engine) (h h' : Handshake) (r : HsRand) (q : Packet)
    (e : hsStart E h r = (h', some q)) :
    seedWire h.self r.eph.pub h.remote.isNone = some q.body ∧ q.body.length ≤ maxBuffer := by
  unfold hsStart at e
  split at e
  · cases e
  simp only [] at e
  split at e
  · cases e
  next seed hs =>
  have hb := hsBuildSigned_body e
  have := (same_seed h.self r.eph.pub h.remote.isNone).iff (b := q.body) (by unfold seedWire; wpos)
  rw [hs] at this
  exact this.1 hb

theorem hsMakeResponse_wire {E : Engine} {h : Handshake} {rk : RootKey} {own peer : EcKey} {iv : Bytes}
    {req : Bool} {m : PHandshake} {b : Bytes} (e : hsMakeResponse E h rk own peer iv req = some m)
    (hb : protoPack m.pack = some b) :
    ∃ info res enc, hsKdfMeta E h own peer = some info ∧
      ecdhCipher E ⟨.gcm, own⟩ (responseDataWire rk) peer info iv = some res ∧
      sealedWire res = some enc ∧
      responseWire own.pub enc (if req then some h.self else none) = some b ∧ b.length ≤ maxBuffer := by
  unfold hsMakeResponse at e
  obtain ⟨data, hd, e⟩ := Option.bind_eq_some_iff.1 e
  obtain ⟨info, hi, e⟩ := Option.bind_eq_some_iff.1 e
  obtain ⟨res, hr, e⟩ := Option.bind_eq_some_iff.1 e
  obtain ⟨enc, he, e⟩ := Option.bind_eq_some_iff.1 e
  obtain ⟨p, hp, rfl⟩ := Option.map_eq_some_iff.1 e
  obtain ⟨rfl, -⟩ := (protoPack_iff (enc_responseData rk) (bytesField_pos _ _)).1 hd
  refine ⟨info, res, enc, hi, hr, (sameB_sealed res).1 enc he, ?_⟩
  have := (same_response own.pub enc (if req then some h.self else none)).iff (b := b)
    (by unfold responseWire; split <;> wpos)
  rw [hp] at this
  exact this.1 hb

/-- C91: the answer of the responder: the drawn root key, in the format of `HandshakeV1ResponseData` and
encrypted for the initiator, with the responder's drawn ephemeral public key, and with the responder's own
public chain exactly when the seed asked for it. -/
theorem C91_handshake_response (E : Engine) (h h' : Handshake) (p q : Packet) (r : HsRand)
    (e : hsProcessInitial E h p r = .ok (h', some q)) :
    ∃ s ep peer info res enc, handshakeFromPacket p = some (.seed s) ∧ s.ephPub = some ep ∧
      E.ecImport ep false = some peer ∧
      ecdhCipher E ⟨.gcm, r.eph⟩ (responseDataWire ⟨r.secret, .gcm, h.evo, h.evo⟩) peer info r.iv = some res ∧
      sealedWire res = some enc ∧
      responseWire r.eph.pub enc (if s.identityRequired = some true then some h.self else none) = some q.body ∧
      q.body.length ≤ maxBuffer := by
  unfold hsProcessInitial at e
  simp only [] at e
  split at e
  · cases e
  · cases e
  · cases e
  next s hs =>
  split at e
  case h_2 => cases e
  next ep req hep hreq =>
  split at e
  · cases e
  next h1 hr =>
  split at e
  case h_2 => cases e
  next peer rk hpe hrk =>
  split at e
  · cases e
  next m hm =>
  split at e
  · cases e
  next hb =>
  cases e
  have hb := hsBuildSigned_body hb
  obtain ⟨info, res, enc, h2, h3, h4, h5, h6⟩ := hsMakeResponse_wire hm hb
  obtain ⟨f1, f2, f3⟩ := hsRemoteIdentity_fields hr
  have hself : h1.self = h.self ∧ h1.evo = h.evo := 
    ⟨(congrArg Handshake.self f1).trans rfl, (congrArg Handshake.evo f1).trans rfl⟩
  obtain ⟨ep', hd, hi⟩ := Option.bind_eq_some_iff.1 hpe
  obtain ⟨-, rfl⟩ := dup_eq_some.1 hd
  unfold rootKeyCreate at hrk
  split at hrk
  · cases hrk
  cases hrk
  rw [hself.2] at h3
  refine ⟨s, _, peer, info, res, enc, hs, hep, hi, h3, h4, ?_, h6⟩
  rw [hreq]
  simpa [hself.1] using h5

/-! The formats on concrete objects. -/

example : payloadWire ⟨⟨300, 0, [7, 8], 5⟩, [9]⟩ =
    [26, 11, 10, 3, 8, 172, 2, 18, 2, 7, 8, 24, 5, 34, 1, 9] := by
  simp [payloadWire, bytesField, uintField, varint]
example : payloadWire ⟨⟨1, 2, [7], 5⟩, [9]⟩ =
    [26, 11, 10, 4, 8, 1, 16, 2, 18, 1, 7, 24, 5, 34, 1, 9] := by
  simp [payloadWire, bytesField, uintField, varint]
example : payloadSerialize ⟨⟨300, 0, [7, 8], 5⟩, [9]⟩ =
    some [26, 11, 10, 3, 8, 172, 2, 18, 2, 7, 8, 24, 5, 34, 1, 9] := by decide +kernel
example : identityWire ⟨.root, [1], ⟨.p521, [2, 3], some [4]⟩, none⟩ true =
    some [10, 1, 1, 18, 1, 4, 32, 0, 40, 1] := by
  simp only [identityWire, if_true, Option.bind_some, bytesField, uintField, List.length_cons, List.length_nil,
    Bool.toNat_true]
  simp [varint]
example : (identitySerialize toyChain.node).isSome ∧ (chainSerialize toyChain true).isSome ∧
    (nodeSerialize toyNode).isSome := by decide +kernel
example : streamKeyWire ⟨⟨.gcm, [1]⟩, [2], 200, some [3]⟩ = [10, 2, 0, 1, 18, 1, 2, 24, 200, 1, 34, 1, 3] := by
  simp [streamKeyWire, cipherKeyLayout, optField, bytesField, uintField, varint, Cipher.id]
/-- A handshake: seed and answer are sent. -/
example : (hsStart toyEngine (toyHs none) toyRand).2.isSome ∧
    (match (hsStart toyEngine (toyHs none) toyRand).2.map fun p =>
        hsProcessInitial toyEngine (toyHs none) p toyRand2 with
      | some (.ok (_, some _)) => true
      | _ => false) = true := by decide +kernel
/-- A message is put together. -/
example : (match msgCreateWithComponents toyEngine ⟨.gcm, List.replicate 12 1, some [2], some (List.replicate 16 3)⟩
      ⟨.gcm, List.replicate 12 4, some [5], some (List.replicate 16 6)⟩ toyChain.node.key 4 [7] with
    | .ok _ => true
    | _ => false) = true := by decide +kernel
/-- A set with an empty slot cannot be written. -/
example : exchangeSetSerialize ⟨⟨.p521, [2], none⟩, [none]⟩ = none ∧
    exchangeSetWire ⟨⟨.p521, [2], none⟩, [none]⟩ = none := ⟨by decide, by decide⟩

end Wickr
