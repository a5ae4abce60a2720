import Verif.Model.Ctx
import Verif.Props.Message
set_option linter.unusedSimpArgs false
/-
C37, C38 and the parts of C36 and C39 that hold for every engine and every packet.
-/
namespace Wickr
open Spec

/-! ### C37: nothing is interpreted before its signature is checked -/

/-- The result says anything about what is in the packet: success, a valid signature, or data. -/
def Spec.Reveals (r : ParseResult) : Prop :=
  r.err = .success ∨ r.sigStatus = .valid ∨ r.set.isSome ∨ r.exchange.isSome ∨ r.payload.isSome

theorem curve_eq (a b : Curve) : a.id = b.id := by cases a; cases b; rfl

theorem parseFromPacket_some (E : Engine) (m : Msg) (nodeId : Option Bytes)
    (kg : Cipher → Chain → Option CipherKey) (s : Chain) :
    parseFromPacket E m nodeId kg (some s) =
      if E.verify m.sig s.node.key m.content then parseContent E m.content nodeId kg s
      else .ok (parseFailure .invalid .macInvalid) := by
  unfold parseFromPacket
  simp only [ne_eq, curve_eq s.node.key.curve m.sig.curve, not_true_eq_false, if_false]
  cases E.verify m.sig s.node.key m.content <;> simp

/-- C37.  Whatever engine, packet, node id, header key function and sender: if parsing reports
success or a valid signature or returns any part of the packet, then there is a sender and the
signature verifies over the content under the sender's node key. -/
theorem C37_success_requires_signature (E : Engine) (m : Msg) (nodeId : Option Bytes)
    (kg : Cipher → Chain → Option CipherKey) (sender : Option Chain) (r : ParseResult)
    (h : parseFromPacket E m nodeId kg sender = .ok r) (hr : Reveals r) :
    ∃ s, sender = some s ∧ E.verify m.sig s.node.key m.content = true := by
  cases sender with
  | none =>
    simp only [parseFromPacket, Res.ok.injEq] at h
    subst h
    simp [Reveals, parseFailure] at hr
  | some s =>
    refine ⟨s, rfl, ?_⟩
    rw [parseFromPacket_some] at h
    split at h
    · assumption
    · cases h
      simp [Reveals, parseFailure] at hr

/-- C37: a signature that does not verify always gives MAC_INVALID with status INVALID and nothing
else, whatever the content. -/
theorem C37_bad_signature (E : Engine) (m : Msg) (nodeId : Option Bytes)
    (kg : Cipher → Chain → Option CipherKey) (s : Chain) (h : E.verify m.sig s.node.key m.content = false) :
    parseFromPacket E m nodeId kg (some s) = .ok ⟨.macInvalid, .invalid, none, none, none⟩ := by
  rw [parseFromPacket_some, h]; rfl

/-- C37: without a sender nothing is interpreted either. -/
theorem C37_no_sender (E : Engine) (m : Msg) (nodeId : Option Bytes)
    (kg : Cipher → Chain → Option CipherKey) :
    parseFromPacket E m nodeId kg none = .ok ⟨.invalidInput, .unknown, none, none, none⟩ := rfl

/-- What parsing a verified content gives: a failure without any data, or set, payload and (when a
node id was given) an exchange for that id. -/
theorem parseContent_cases (E : Engine) (c : Bytes) (nodeId : Option Bytes)
    (kg : Cipher → Chain → Option CipherKey) (s : Chain) :
    parseContent E c nodeId kg s = .ok (parseFailure .valid .corruptPacket) ∨
    (∃ i, nodeId = some i ∧ parseContent E c nodeId kg s = .ok (parseFailure .valid .nodeNotFound) ∧
      ∃ p h set, (fieldsDec c).bind PPacket.unpack = some p ∧ cipherResultFromBuffer p.encHeader = some h ∧
        exchangeSetFromCipher E h (kg h.cipher s) = some set ∧ exchangeSetFind set i = .null) ∨
    (∃ p h set x y, (fieldsDec c).bind PPacket.unpack = some p ∧ cipherResultFromBuffer p.encHeader = some h ∧
        exchangeSetFromCipher E h (kg h.cipher s) = some set ∧ cipherResultFromBuffer p.encPayload = some y ∧
        parseContent E c nodeId kg s = .ok ⟨.success, .valid, some set, x, some y⟩ ∧
        ((nodeId = none ∧ x = none) ∨ ∃ i z, nodeId = some i ∧ x = some z ∧ exchangeSetFind set i = .ok z)) := by
  unfold parseContent
  cases h1 : (fieldsDec c).bind PPacket.unpack with
  | none => simp
  | some p =>
    cases h2 : cipherResultFromBuffer p.encHeader with
    | none => simp only [h2]; simp
    | some hd =>
      cases h3 : exchangeSetFromCipher E hd (kg hd.cipher s) with
      | none => simp only [h2, h3]; simp
      | some set =>
        have hub : ∀ i, exchangeSetFind set i ≠ .ub := by
          unfold exchangeSetFromCipher at h3
          simp only [Option.bind_eq_some_iff] at h3
          obtain ⟨_, _, b, _, hb⟩ := h3
          exact (C40_accepted_sets E b set hb).2
        cases nodeId with
        | none =>
          simp only [h2, h3]
          cases h4 : cipherResultFromBuffer p.encPayload with
          | none => simp
          | some y =>
            refine Or.inr (Or.inr ⟨p, hd, set, none, y, rfl, h2, h3, h4, rfl, Or.inl (by simp)⟩)
        | some i =>
          simp only [h2, h3]
          cases h5 : exchangeSetFind set i with
          | ub => exact absurd h5 (hub i)
          | null => exact Or.inr (Or.inl ⟨i, rfl, rfl, p, hd, set, rfl, h2, h3, h5⟩)
          | ok z =>
            cases h4 : cipherResultFromBuffer p.encPayload with
            | none => simp
            | some y =>
              exact Or.inr (Or.inr ⟨p, hd, set, some z, y, rfl, h2, h3, h4, rfl, Or.inr ⟨i, z, rfl, rfl, h5⟩⟩)

/-- C37: parsing always answers; it is never undefined and never NULL, whatever the packet. -/
theorem C37_parse_total (E : Engine) (m : Msg) (nodeId : Option Bytes)
    (kg : Cipher → Chain → Option CipherKey) (sender : Option Chain) :
    ∃ r, parseFromPacket E m nodeId kg sender = .ok r := by
  cases sender with
  | none => exact ⟨_, rfl⟩
  | some s =>
    rw [parseFromPacket_some]
    split
    · rcases parseContent_cases E m.content nodeId kg s with h | ⟨i, _, h, _⟩ | ⟨p, hd, set, x, y, _, _, _, _, h, _⟩ <;>
        exact ⟨_, h⟩
    · exact ⟨_, rfl⟩

/-- C37: success and data come together: a successful result has a set and a payload, any other has
nothing. -/
theorem C37_all_or_nothing (E : Engine) (m : Msg) (nodeId : Option Bytes)
    (kg : Cipher → Chain → Option CipherKey) (sender : Option Chain) (r : ParseResult)
    (h : parseFromPacket E m nodeId kg sender = .ok r) :
    (r.err = .success ∧ r.sigStatus = .valid ∧ r.set.isSome ∧ r.payload.isSome ∧ r.exchange.isSome = nodeId.isSome) ∨
    (r.err ≠ .success ∧ r.set = none ∧ r.exchange = none ∧ r.payload = none) := by
  cases sender with
  | none => cases h; exact Or.inr ⟨by simp [parseFailure], rfl, rfl, rfl⟩
  | some s =>
    rw [parseFromPacket_some] at h
    split at h
    · rcases parseContent_cases E m.content nodeId kg s with g | ⟨i, _, g, _⟩ | ⟨p, hd, set, x, y, _, _, _, _, g, hx⟩
      · rw [g] at h; cases h; exact Or.inr ⟨by simp [parseFailure], rfl, rfl, rfl⟩
      · rw [g] at h; cases h; exact Or.inr ⟨by simp [parseFailure], rfl, rfl, rfl⟩
      · rw [g] at h; cases h
        refine Or.inl ⟨rfl, rfl, rfl, rfl, ?_⟩
        rcases hx with ⟨rfl, rfl⟩ | ⟨i, z, rfl, rfl, _⟩ <;> rfl
    · cases h; exact Or.inr ⟨by simp [parseFailure], rfl, rfl, rfl⟩

/-- C37: the error code is one of five, and tells the signature status. -/
theorem C37_error_tells_status (E : Engine) (m : Msg) (nodeId : Option Bytes)
    (kg : Cipher → Chain → Option CipherKey) (sender : Option Chain) (r : ParseResult)
    (h : parseFromPacket E m nodeId kg sender = .ok r) :
    (r.sigStatus = .unknown ↔ sender = none) ∧ (r.err = .invalidInput ↔ sender = none) ∧
    (r.sigStatus = .invalid ↔ r.err = .macInvalid) ∧
    (r.sigStatus = .valid ↔ r.err = .success ∨ r.err = .corruptPacket ∨ r.err = .nodeNotFound) := by
  cases sender with
  | none => cases h; simp [parseFailure]
  | some s =>
    rw [parseFromPacket_some] at h
    split at h
    · rcases parseContent_cases E m.content nodeId kg s with g | ⟨i, _, g, _⟩ | ⟨p, hd, set, x, y, _, _, _, _, g, hx⟩ <;>
        · rw [g] at h; cases h; simp [parseFailure]
    · cases h; simp [parseFailure]

theorem decodeFromParse_cases {E : Engine} {v : UInt8} {r : ParseResult} {dev : Bytes} {key : Option EcKey}
    {rc s : Chain} {d : DecodeResult} (h : decodeFromParse E v r dev key rc s = .ok d) :
    r.err = .success ∧ r.sigStatus = .valid ∧
    ((d = ⟨.keyExchangeFailed, none, none⟩) ∨ ∃ p k, d = ⟨.success, some p, some k⟩) := by
  unfold decodeFromParse at h
  cases key with
  | none => simp at h
  | some key =>
    simp only [] at h
    split at h
    · simp at h
    · next hn =>
      have h1 : r.err = .success := Decidable.byContradiction fun hc => hn (Or.inl hc)
      have h2 : r.sigStatus = .valid := Decidable.byContradiction fun hc => hn (Or.inr hc)
      refine ⟨h1, h2, ?_⟩
      cases hset : r.set with
      | none => simp [hset] at h
      | some set =>
        simp only [hset] at h
        split at h
        · cases h; exact Or.inl rfl
        · next k hk =>
          split at h
          · cases h; exact Or.inl rfl
          · next p hp => cases h; exact Or.inr ⟨p, k, rfl⟩

/-- C37 for a whole context, from the bytes received to the plaintext: whatever bytes, node id and
sender chain the packet was parsed with and whatever key it is decoded with, a decode result exists
only if the signature verified over the packet's content under the sender's node key. -/
theorem C37_decode_requires_signature (E : Engine) (b : Bytes) (nodeId : Option Bytes) (sender : Option Chain)
    (p : CtxPacket) (c : Ctx) (key : Option EcKey) (d : DecodeResult)
    (hp : readPacket E b nodeId sender = .ok p) (hd : ctxDecode E c p key = .ok d) :
    ∃ m s, msgFromBuffer b = some m ∧ sender = some s ∧ E.verify m.sig s.node.key m.content = true ∧
      p.packet = m := by
  unfold readPacket at hp
  cases hm : msgFromBuffer b with
  | none => simp [hm] at hp
  | some m =>
    simp only [hm] at hp
    obtain ⟨r, hr⟩ := C37_parse_total E m nodeId (genHeaderKey E) sender
    rw [hr] at hp
    simp only [Res.bind] at hp
    cases hs : sender.bind chainCopy with
    | none => simp [hs] at hp
    | some s' =>
      simp only [hs] at hp
      cases hp
      have := decodeFromParse_cases hd
      simp only at this
      obtain ⟨s, h1, h2⟩ := C37_success_requires_signature E m nodeId _ sender r hr (Or.inl this.1)
      exact ⟨m, s, rfl, h1, h2, rfl⟩

/-- C37: decoding returns plaintext and key together and only with SUCCESS; every other answer is
KEY_EXCHANGE_FAILED without data. -/
theorem C37_decode_all_or_nothing (E : Engine) (c : Ctx) (p : CtxPacket) (key : Option EcKey) (d : DecodeResult)
    (h : ctxDecode E c p key = .ok d) :
    (d.err = .success ∧ d.payload.isSome ∧ d.key.isSome) ∨ d = ⟨.keyExchangeFailed, none, none⟩ := by
  rcases (decodeFromParse_cases h).2.2 with h | ⟨q, k, rfl⟩
  · exact Or.inr h
  · exact Or.inl ⟨rfl, rfl, rfl⟩

/-- C37: decoding what was parsed is never undefined. -/
theorem C37_decode_defined (E : Engine) (b : Bytes) (nodeId : Option Bytes) (sender : Option Chain)
    (p : CtxPacket) (c : Ctx) (key : Option EcKey) (hp : readPacket E b nodeId sender = .ok p) :
    ctxDecode E c p key ≠ .ub := by
  unfold readPacket at hp
  cases hm : msgFromBuffer b with
  | none => simp [hm] at hp
  | some m =>
    simp only [hm] at hp
    obtain ⟨r, hr⟩ := C37_parse_total E m nodeId (genHeaderKey E) sender
    rw [hr] at hp
    simp only [Res.bind] at hp
    cases hs : sender.bind chainCopy with
    | none => simp [hs] at hp
    | some s' =>
      simp only [hs] at hp
      cases hp
      unfold ctxDecode decodeFromParse
      cases key with
      | none => simp
      | some key =>
        simp only []
        split
        · simp
        · next hn =>
          rcases C37_all_or_nothing E m nodeId _ sender r hr with h | h
          · obtain ⟨set, hset⟩ := Option.isSome_iff_exists.1 h.2.2.1
            simp only [hset]
            repeat' split
            all_goals simp
          · exact absurd (Or.inl h.1) hn

/-- C36, for every engine and packet: NODE_NOT_FOUND comes without any data, and decoding gives NULL
whatever the key. -/
theorem C36_not_found_means_nothing (E : Engine) (m : Msg) (nodeId : Option Bytes)
    (kg : Cipher → Chain → Option CipherKey) (sender : Option Chain) (r : ParseResult)
    (h : parseFromPacket E m nodeId kg sender = .ok r) (hr : r.err = .nodeNotFound)
    (v : UInt8) (dev : Bytes) (key : Option EcKey) (rc s : Chain) :
    r.sigStatus = .valid ∧ r.set = none ∧ r.exchange = none ∧ r.payload = none ∧
    decodeFromParse E v r dev key rc s = .null := by
  rcases C37_all_or_nothing E m nodeId kg sender r h with g | g
  · simp [hr] at g
  · refine ⟨((C37_error_tells_status E m nodeId kg sender r h).2.2.2).2 (Or.inr (Or.inr hr)), g.2.1, g.2.2.1, g.2.2.2, ?_⟩
    cases key <;> simp [decodeFromParse, hr]

/-! ### C38: packets are only created for verified recipients -/

theorem recipientsValidate_true {E : Engine} : ∀ {rs : List (Option Node)}, (recipientsValidate E rs).2 = true →
    ∃ ns : List Node, rs = ns.map some ∧ (∀ n ∈ ns, (nodeVerify E n).2 = true) ∧
      (recipientsValidate E rs).1 = ns.map fun n => some (nodeVerify E n).1
  | [], _ => ⟨[], rfl, by simp, rfl⟩
  | none :: rs, h => by simp [recipientsValidate] at h
  | some n :: rs, h => by
    simp only [recipientsValidate] at h ⊢
    split at h
    · next hv =>
      obtain ⟨ns, h1, h2, h3⟩ := recipientsValidate_true (rs := rs) h
      refine ⟨n :: ns, by rw [h1]; rfl, ?_, ?_⟩
      · intro x hx
        rcases List.mem_cons.1 hx with rfl | hx
        · exact hv
        · exact h2 x hx
      · rw [if_pos hv, h3]; rfl
    · simp at h

theorem recipientsValidate_of {E : Engine} : ∀ {ns : List Node}, (∀ n ∈ ns, (nodeVerify E n).2 = true) →
    recipientsValidate E (ns.map some) = (ns.map fun n => some (nodeVerify E n).1, true)
  | [], _ => rfl
  | n :: ns, h => by
    have ih := recipientsValidate_of (ns := ns) fun x hx => h x (by simp [hx])
    simp [recipientsValidate, h n (by simp), ih]

/-- Verification only touches status fields and caches. -/
theorem nodeVerify_same (E : Engine) (n : Node) :
    (nodeVerify E n).1.devId = n.devId ∧ (nodeVerify E n).1.eph = n.eph ∧
    (nodeVerify E n).1.chain.root = n.chain.root ∧ (nodeVerify E n).1.chain.node = n.chain.node := by
  have hc : (chainValidate E n.chain).1.root = n.chain.root ∧ (chainValidate E n.chain).1.node = n.chain.node := by
    unfold chainValidate
    split <;> simp [chainUpdateCache]
  unfold nodeVerify
  split
  · simp
  · rcases hcv : chainValidate E n.chain with ⟨c, ok⟩
    rw [hcv] at hc
    simp only at hc
    cases ok <;> simp [nodeUpdateCache, hc]

theorem kxCreate_id {E : Engine} {s : Chain} {n : Node} {ex : EcKey} {pk : CipherKey} {psk : Option Bytes}
    {v : UInt8} {iv : Bytes} {x : KeyExchange} (h : kxCreateWithKey E s n ex pk psk v iv = some x) :
    x.id = n.chain.node.identifier ∧ ∃ e, n.eph = some e ∧ x.keyId = e.identifier := by
  unfold kxCreateWithKey kxCreateWithData at h
  simp only [Option.bind_eq_some_iff] at h
  obtain ⟨b, _, h⟩ := h
  cases he : n.eph with
  | none => simp [he] at h
  | some e =>
    simp only [he, Option.bind_eq_some_iff, Option.map_eq_some_iff] at h
    obtain ⟨k, _, m, _, r, _, i, hi, rfl⟩ := h
    exact ⟨(dup_eq_some.1 hi).2, e, rfl, rfl⟩

/-- What the header says about a recipient: its node identifier and the id of its ephemeral key. -/
def Spec.recipientEntry (n : Node) : Bytes × Option UInt64 := (n.chain.node.identifier, n.eph.map (·.identifier))

theorem exchangesCreate_ids {E : Engine} {s : Chain} {ex : EcKey} {pk : CipherKey} {v : UInt8} {iv : Nat → Bytes} :
    ∀ {ns : List Node} {i : Nat} {xs : List KeyExchange},
    exchangesCreate E s ex pk v iv (ns.map fun n => some (nodeVerify E n).1) i = some xs →
    xs.map (fun x => (x.id, some x.keyId)) = ns.map recipientEntry
  | [], i, xs, h => by cases h; rfl
  | n :: ns, i, xs, h => by
    simp only [List.map_cons, exchangesCreate, Option.bind_eq_some_iff, Option.map_eq_some_iff] at h
    obtain ⟨x, hx, ys, hy, rfl⟩ := h
    obtain ⟨h1, e, h2, h3⟩ := kxCreate_id hx
    obtain ⟨s1, s2, s3, s4⟩ := nodeVerify_same E n
    have ih := exchangesCreate_ids hy
    rw [s2] at h2
    simp [recipientEntry, ih, h1, s4, h2, h3]

theorem msgCreate_ok {E : Engine} {hk pk : CipherKey} {ex : EcKey} {p : Payload} {rs rs' : List (Option Node)}
    {s : Chain} {v : UInt8} {rnd : MsgRand} {m : Msg} (h : msgCreate E hk pk ex p rs s v rnd = (rs', .ok m)) :
    ∃ ns : List Node, rs = ns.map some ∧ ns ≠ [] ∧ (∀ n ∈ ns, (nodeVerify E n).2 = true) ∧
      ∃ xs hd pl hb pb, exchangesCreate E s ex pk v rnd.exIv (ns.map fun n => some (nodeVerify E n).1) 0 = some xs ∧
        exchangeSetEncrypt E ⟨ex, xs.map some⟩ hk rnd.hdrIv = some hd ∧ payloadEncrypt E p pk rnd.payIv = some pl ∧
        cipherResultSerialize hd = some hb ∧ cipherResultSerialize pl = some pb ∧
        protoPack (PPacket.pack ⟨hb, pb⟩) = some m.content ∧
        E.sign s.node.key m.content .sha512 rnd.nonce = some m.sig ∧ m.version = v := by
  unfold msgCreate at h
  split at h
  · simp at h
  · next h0 =>
    simp only [] at h
    split at h
    · simp at h
    · next hv =>
      split at h
      · simp at h
      · simp only [Bool.not_eq_true', Bool.not_eq_false] at hv
        obtain ⟨ns, h1, h2, h3⟩ := recipientsValidate_true hv
        simp only [Prod.mk.injEq] at h
        obtain ⟨-, h⟩ := h
        refine ⟨ns, h1, ?_, h2, ?_⟩
        · rintro rfl; simp [h1] at h0
        · rw [h3] at h
          cases hx : exchangesCreate E s ex pk v rnd.exIv (ns.map fun n => some (nodeVerify E n).1) 0 with
          | none => simp [hx] at h
          | some xs =>
            simp only [hx] at h
            cases hd : exchangeSetEncrypt E ⟨ex, xs.map some⟩ hk rnd.hdrIv with
            | none => simp [hd] at h
            | some hd' =>
              simp only [hd] at h
              cases hp : payloadEncrypt E p pk rnd.payIv with
              | none => simp [hp] at h
              | some pl =>
                simp only [hp, msgCreateWithComponents] at h
                cases e1 : cipherResultSerialize hd' with
                | none => simp [e1] at h
                | some hb =>
                  simp only [e1] at h
                  cases e2 : cipherResultSerialize pl with
                  | none => simp [e2] at h
                  | some pb =>
                    simp only [e2] at h
                    cases e3 : protoPack (PPacket.pack ⟨hb, pb⟩) with
                    | none => simp [e3] at h
                    | some c =>
                      simp only [e3] at h
                      cases e4 : E.sign s.node.key c (digestMatchingCurve s.node.key.curve) rnd.nonce with
                      | none => simp [e4] at h
                      | some sg =>
                        simp only [e4] at h
                        cases h
                        exact ⟨xs, hd', pl, hb, pb, rfl, hd, rfl, e1, e2, e3, e4, rfl⟩

/-- C38.  For every engine and every recipient list: a packet is created only if there is at least
one recipient, every slot of the list is set and every recipient's signature chain verifies. -/
theorem C38_only_verified_recipients (E : Engine) (c : Ctx) (p : Payload) (rs rs' : List (Option Node))
    (pk : CipherKey) (ex : EcKey) (rnd : MsgRand) (e : Encoded)
    (h : ctxEncode E c p rs pk ex rnd = (rs', .ok e)) :
    rs ≠ [] ∧ ∀ o ∈ rs, ∃ n, o = some n ∧ (nodeVerify E n).2 = true := by
  unfold ctxEncode at h
  simp only [Prod.mk.injEq] at h
  obtain ⟨-, h⟩ := h
  cases hm : msgCreate E c.headerKey pk ex p rs c.chain c.version rnd with
  | mk r m =>
    rw [hm] at h
    simp only [] at h
    cases m with
    | null => simp [Res.bind] at h
    | ub => simp [Res.bind] at h
    | ok m =>
      obtain ⟨ns, rfl, h0, h1, _⟩ := msgCreate_ok hm
      refine ⟨by simpa using h0, ?_⟩
      intro o ho
      simp only [List.mem_map] at ho
      obtain ⟨n, hn, rfl⟩ := ho
      exact ⟨n, rfl, h1 n hn⟩

/-- C38: for recipients that were never verified before, this means that root, node and ephemeral key
signatures are genuine. -/
theorem C38_recipients_genuine (E : Engine) (c : Ctx) (p : Payload) (rs rs' : List (Option Node))
    (pk : CipherKey) (ex : EcKey) (rnd : MsgRand) (e : Encoded)
    (h : ctxEncode E c p rs pk ex rnd = (rs', .ok e)) (n : Node) (hn : some n ∈ rs)
    (hf : n.cache = none ∧ n.chain.cache = none) : NodeGenuine E n := by
  obtain ⟨n', h1, hv⟩ := (C38_only_verified_recipients E c p rs rs' pk ex rnd e h).2 _ hn
  cases h1
  have h1 : nodeHasValidCache E n = false := by simp [nodeHasValidCache, hf.1]
  have h2 : chainHasValidCache E n.chain = false := by simp [chainHasValidCache, hf.2]
  simp only [nodeVerify, h1, Bool.false_eq_true, if_false, chainValidate, h2] at hv
  cases hg : E.verifyOpt n.chain.node.sig n.chain.root.key n.chain.node.key.pub with
  | false => simp [hg] at hv
  | true =>
    refine ⟨verifyOpt_iff.1 hg, ?_⟩
    simp only [hg, Bool.not_true, Bool.false_eq_true, if_false, if_true, chainUpdateCache] at hv
    cases he : n.eph with
    | none => simp [he, ephVerifyOwner] at hv
    | some k =>
      refine ⟨k, rfl, verifyOpt_iff.1 ?_⟩
      simp only [he, ephVerifyOwner] at hv
      cases hk : E.verifyOpt k.sig n.chain.node.key k.key.pub with
      | true => rfl
      | false => simp [hk] at hv

/-- C38: an empty recipient list, an unset slot or a recipient that does not verify: NULL. -/
theorem C38_refused (E : Engine) (c : Ctx) (p : Payload) (rs : List (Option Node)) (pk : CipherKey) (ex : EcKey)
    (rnd : MsgRand) (h : rs = [] ∨ none ∈ rs ∨ ∃ n, some n ∈ rs ∧ (nodeVerify E n).2 = false) :
    (ctxEncode E c p rs pk ex rnd).2 = .null := by
  unfold ctxEncode
  simp only []
  have : (msgCreate E c.headerKey pk ex p rs c.chain c.version rnd).2 = .null := by
    unfold msgCreate
    split
    · rfl
    · next h0 =>
      simp only []
      split
      · rfl
      · next hv =>
        simp only [Bool.not_eq_true', Bool.not_eq_false] at hv
        obtain ⟨ns, rfl, h2, -⟩ := recipientsValidate_true hv
        exfalso
        rcases h with h | h | ⟨n, h, hn⟩
        · rw [h] at h0; exact h0 rfl
        · simp at h
        · simp only [List.mem_map, Option.some.injEq, exists_eq_right] at h
          rw [h2 n h] at hn; simp at hn
  rw [this]; rfl

/-- C38: a created packet has exactly one key exchange per recipient, in order, with the recipient's
node identifier and the identifier of its ephemeral key: this is what the encrypted header, which the
signed content starts with, was made from. -/
theorem C38_one_exchange_per_recipient (E : Engine) (c : Ctx) (p : Payload) (rs rs' : List (Option Node))
    (pk : CipherKey) (ex : EcKey) (rnd : MsgRand) (e : Encoded)
    (h : ctxEncode E c p rs pk ex rnd = (rs', .ok e)) :
    ∃ (ns : List Node) (xs : List KeyExchange) (hd : CipherResult) (hb pb sb : Bytes), rs = ns.map some ∧
      xs.map (fun x => (x.id, some x.keyId)) = ns.map recipientEntry ∧
      exchangeSetSerialize ⟨ex, xs.map some⟩ = some sb ∧ E.encrypt sb none c.headerKey rnd.hdrIv = some hd ∧
      cipherResultSerialize hd = some hb ∧ e.packet.content = fieldsEnc (PPacket.pack ⟨hb, pb⟩) := by
  unfold ctxEncode at h
  simp only [Prod.mk.injEq] at h
  obtain ⟨-, h⟩ := h
  cases hm : msgCreate E c.headerKey pk ex p rs c.chain c.version rnd with
  | mk r m =>
    rw [hm] at h
    simp only [] at h
    cases m with
    | null => simp [Res.bind] at h
    | ub => simp [Res.bind] at h
    | ok m =>
      obtain ⟨ns, rfl, h0, h1, xs, hd, pl, hb, pb, e1, e2, e3, e4, e5, e6, e7, e8⟩ := msgCreate_ok hm
      simp only [Res.bind] at h
      cases h
      simp only [exchangeSetEncrypt, Option.bind_eq_some_iff] at e2
      obtain ⟨sb, g1, g2⟩ := e2
      exact ⟨ns, xs, hd, hb, pb, sb, rfl, exchangesCreate_ids e1, g1, g2, e4, (dup_eq_some.1 e6).2⟩

/-! ### C39: what the signature covers -/

/-- C39 (what holds).  Whatever bytes are received, if the packet is accepted with a valid signature
then the bytes after the first two, up to the signature trailer, verify under the sender's node key;
and if the string carries no forged signature (what verifies in it was signed), these bytes are one of
the contents the sender signed.

Missing from C39: the first two bytes and the padding of the trailer are not covered, see the
theorems below. -/
theorem C39_content_authenticated_partial (E : Engine) (b : Bytes) (hb : b.length ≤ maxBuffer)
    (nodeId : Option Bytes) (s : Chain) (p : CtxPacket) (signed : List Bytes)
    (hf : ∀ m, msgFromBuffer b = some m → E.verify m.sig s.node.key m.content = true → m.content ∈ signed)
    (h : readPacket E b nodeId (some s) = .ok p) (hv : p.parse.sigStatus = .valid) :
    145 < b.length ∧ (b.drop 2).take (b.length - 145) ∈ signed := by
  unfold readPacket at h
  cases hm : msgFromBuffer b with
  | none => simp [hm] at h
  | some m =>
    simp only [hm] at h
    obtain ⟨r, hr⟩ := C37_parse_total E m nodeId (genHeaderKey E) (some s)
    rw [hr] at h
    simp only [Res.bind] at h
    cases hs : (some s).bind chainCopy with
    | none => simp [hs] at h
    | some s' =>
      simp only [hs] at h
      cases h
      simp only at hv
      obtain ⟨s1, h1, h2⟩ := C37_success_requires_signature E m nodeId _ _ r hr (Or.inr (Or.inl hv))
      cases h1
      obtain ⟨v, c, hd, pad, _, _, _, _, _, g5, _, _, _, _, hmm⟩ := (C16_accepts_iff b hb m).1 hm
      have hc : m.content = (b.drop 2).take (b.length - 145) := by rw [hmm]
      rw [← hc]
      exact ⟨g5, hf m hm h2⟩

/-- C39: two strings of the same length that agree between the second byte and the trailer and in
the signature itself are parsed alike, up to the version: so for any engine, every change of the
padding bytes, and for version 2 of the upper half of the second byte, goes unnoticed. -/
theorem C39_padding_not_covered (v pad c c' : UInt8) (content z z' sig : Bytes) (hz : z.length = pad.toNat)
    (hz' : z'.length = pad.toNat) (hp : pad.toNat < 141) (hs : sig.length = 141 - pad.toNat)
    (h0 : content ≠ []) (hv : 2 ≤ v.toNat ∧ v.toNat ≤ 4)
    (hc : if v = 2 then c.toNat % 16 = 0 ∧ c'.toNat % 16 = 0 else c = 0 ∧ c' = 0)
    (hl : content.length + 145 ≤ maxBuffer) :
    ∃ m, msgFromBuffer ([v, c] ++ content ++ ([3, pad] ++ z ++ sig)) = some m ∧
      msgFromBuffer ([v, c'] ++ content ++ ([3, pad] ++ z' ++ sig)) = some m := by
  have hcl := List.length_pos_iff.2 h0
  have key : ∀ (c : UInt8) (z : Bytes), z.length = pad.toNat → (if v = 2 then c.toNat % 16 = 0 else c = 0) →
      msgFromBuffer ([v, c] ++ content ++ ([3, pad] ++ z ++ sig)) =
        some ⟨v, content, ⟨.p521, .sha512, sig⟩⟩ := by
    intro c z hz hc
    have hlen : ([v, c] ++ content ++ ([3, pad] ++ z ++ sig)).length = content.length + 145 := by
      simp only [List.length_append, List.length_cons, List.length_nil, hz, hs]; omega
    rw [C16_accepts_iff _ (by omega), hlen]
    refine ⟨v, c, 3, pad, rfl, rfl, hv.1, hv.2, hc, by omega, ?_, rfl, ?_, hp, ?_⟩
    · have e : content.length + 145 - 143 = ([v, c] ++ content).length + 0 := by
        simp only [List.length_append, List.length_cons, List.length_nil]; omega
      rw [e, List.getElem?_append_right (by omega)]; simp
    · have e : content.length + 145 - 142 = ([v, c] ++ content).length + 1 := by
        simp only [List.length_append, List.length_cons, List.length_nil]; omega
      rw [e, List.getElem?_append_right (by omega)]; simp
    · have h1 : (List.drop 2 ([v, c] ++ content ++ ([3, pad] ++ z ++ sig))).take (content.length + 145 - 145) = content := by
        simp
      have h2 : List.drop (content.length + 145 - 141 + pad.toNat) ([v, c] ++ content ++ ([3, pad] ++ z ++ sig)) = sig := by
        have : [v, c] ++ content ++ ([3, pad] ++ z ++ sig) = ([v, c] ++ content ++ [3, pad] ++ z) ++ sig := by simp
        rw [this]
        apply List.drop_left'
        simp only [List.length_append, List.length_cons, List.length_nil, hz]; omega
      rw [h1, h2]
  refine ⟨_, key c z hz ?_, key c' z' hz' ?_⟩
  · split <;> simp_all
  · split <;> simp_all

end Wickr
