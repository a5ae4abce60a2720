import Verif.Lemmas.SepObj
import Verif.Model.HeapMsg
/-
Payloads, key exchanges, packets and results on the heap.
-/
namespace Wickr
open Asrt

/-! ### Payloads -/

theorem hInfoCreate_spec (c : Rules) (f : Bool) (hc : c.crash) (ttl bor : UInt64) (q : Addr) (ct : UInt16) (b : Bytes) :
    Triple c f (isBuf q b) (hInfoCreate ttl bor (some q) ct) (fun r _ => made isInfo ⟨ttl, bor, b, ct⟩ r) := by
  unfold hInfoCreate
  sgo

theorem hInfoDestroy_spec {c : Rules} {a : Addr} {i : PktInfo} (hp : c.pub i.channelTag) :
    Destroys c (isInfo a i) (hInfoDestroy (some a)) := by
  intro f
  unfold hInfoDestroy
  obtain ⟨ttl, bor, b, ct⟩ := i
  sopen isInfo
  sgo

theorem hInfoCopy_keep (c : Rules) (f : Bool) (hc : c.crash) (a : Addr) (i : PktInfo) (h : Heap) (hx : isInfo a i h) :
    Triple c f (keep h) (hInfoCopy (some a)) (fun r f' => keep h ∗ fresh isInfo i r f') := by
  unfold hInfoCopy
  obtain ⟨ttl, bor, b, ct⟩ := i
  skeep hx isInfo
  sgo

theorem hInfoCopy_spec (c : Rules) (f : Bool) (hc : c.crash) (a : Addr) (i : PktInfo) :
    Triple c f (isInfo a i) (hInfoCopy (some a)) (fun r f' => isInfo a i ∗ fresh isInfo i r f') :=
  Triple.owned fun h hx => hInfoCopy_keep c f hc a i h hx

theorem hPayloadCreate_spec (c : Rules) (f : Bool) (p q : Addr) (i : PktInfo) (b : Bytes) :
    Triple c f (isInfo p i ∗ isBuf q b) (hPayloadCreate (some p) (some q))
      (fun r f' => orKeep (isInfo p i ∗ isBuf q b) isPayload ⟨i, b⟩ r f') := by
  unfold hPayloadCreate
  sgo

theorem hPayloadDestroy_spec {c : Rules} {a : Addr} {v : Payload} (hp : ∀ b ∈ v.publics, c.pub b) :
    Destroys c (isPayload a v) (hPayloadDestroy (some a)) := by
  intro f
  unfold hPayloadDestroy
  obtain ⟨i, b⟩ := v
  simp [Payload.publics] at hp
  sopen isPayload
  sgo

theorem hPayloadCopy_keep (c : Rules) (f : Bool) (hc : c.crash) (a : Addr) (v : Payload) (hp : ∀ b ∈ v.publics, c.pub b)
    (h : Heap) (hx : isPayload a v h) :
    Triple c f (keep h) (hPayloadCopy (some a)) (fun r f' => keep h ∗ fresh isPayload v r f') := by
  unfold hPayloadCopy
  obtain ⟨i, b⟩ := v
  simp [Payload.publics] at hp
  skeep hx isPayload
  sgo

theorem hPayloadCopy_spec (c : Rules) (f : Bool) (hc : c.crash) (a : Addr) (v : Payload) (hp : ∀ b ∈ v.publics, c.pub b) :
    Triple c f (isPayload a v) (hPayloadCopy (some a)) (fun r f' => isPayload a v ∗ fresh isPayload v r f') :=
  Triple.owned fun h hx => hPayloadCopy_keep c f hc a v hp h hx

/-! ### Key exchanges -/

theorem exLoss_publics {v v' : KeyExchange} (h : exLoss v v') : ∀ b ∈ v'.publics, b ∈ v.publics := by
  obtain ⟨h1, -, h2⟩ := h
  intro b hb
  simp only [KeyExchange.publics, List.mem_cons, h1] at hb ⊢
  exact hb.imp id (cresLoss_publics h2 b)

macro_rules | `(tactic| sside) => `(tactic| (refine ⟨by simp_all [exLoss], by grind⟩))
macro_rules | `(tactic| sarg) => `(tactic| exact publics_of_loss exLoss_publics (by assumption) (by assumption))

theorem hExCreate_spec (c : Rules) (f : Bool) (hc : c.crash) (p q : Addr) (n : UInt64) (b : Bytes) (r : CipherResult) :
    Triple c f (isBuf p b ∗ isCRes q r) (hExCreate (some p) n (some q)) (fun x _ => made isEx ⟨b, n, r⟩ x) := by
  unfold hExCreate
  sgo

theorem hExDestroy_spec {c : Rules} {a : Addr} {v : KeyExchange} (hp : ∀ b ∈ v.publics, c.pub b) :
    Destroys c (isEx a v) (hExDestroy (some a)) := by
  intro f
  unfold hExDestroy
  obtain ⟨b, n, r⟩ := v
  simp only [KeyExchange.publics, List.mem_cons, or_imp, forall_and, forall_eq] at hp
  obtain ⟨h1, h2⟩ := hp
  sopen isEx
  sgo

theorem hExCopy_keep (c : Rules) (f : Bool) (hc : c.crash) (a : Addr) (v : KeyExchange) (hp : ∀ b ∈ v.publics, c.pub b)
    (h : Heap) (hx : isEx a v h) :
    Triple c f (keep h) (hExCopy (some a)) (fun r f' => keep h ∗ leaky isEx exLoss v r f') := by
  unfold hExCopy
  obtain ⟨b, n, r⟩ := v
  simp only [KeyExchange.publics, List.mem_cons, or_imp, forall_and, forall_eq] at hp
  obtain ⟨h1, h2⟩ := hp
  skeep hx isEx
  sgo

theorem hExCopy_spec (c : Rules) (f : Bool) (hc : c.crash) (a : Addr) (v : KeyExchange) (hp : ∀ b ∈ v.publics, c.pub b) :
    Triple c f (isEx a v) (hExCopy (some a)) (fun r f' => isEx a v ∗ leaky isEx exLoss v r f') :=
  Triple.owned fun h hx => hExCopy_keep c f hc a v hp h hx

/-! ### Packets -/

theorem hPacketCreate_spec (c : Rules) (f : Bool) (n : UInt8) (p q : Addr) (b : Bytes) (s : EcdsaResult) :
    Triple c f (isBuf p b ∗ isSig q s) (hPacketCreate n (some p) (some q))
      (fun r f' => orKeep (isBuf p b ∗ isSig q s) isPacket ⟨n, b, s⟩ r f') := by
  unfold hPacketCreate
  sgo

theorem hPacketDestroy_spec {c : Rules} {a : Addr} {v : Msg} (hp : ∀ b ∈ v.publics, c.pub b) :
    Destroys c (isPacket a v) (hPacketDestroy (some a)) := by
  intro f
  unfold hPacketDestroy
  obtain ⟨n, b, s⟩ := v
  simp [Msg.publics] at hp
  obtain ⟨h1, h2⟩ := hp
  sopen isPacket
  sgo

theorem hPacketCopy_keep (c : Rules) (f : Bool) (hc : c.crash) (a : Addr) (v : Msg) (hp : ∀ b ∈ v.publics, c.pub b)
    (h : Heap) (hx : isPacket a v h) :
    Triple c f (keep h) (hPacketCopy (some a)) (fun r f' => keep h ∗ fresh isPacket v r f') := by
  unfold hPacketCopy
  obtain ⟨n, b, s⟩ := v
  simp [Msg.publics] at hp
  obtain ⟨h1, h2⟩ := hp
  skeep hx isPacket
  sgo

theorem hPacketCopy_spec (c : Rules) (f : Bool) (hc : c.crash) (a : Addr) (v : Msg) (hp : ∀ b ∈ v.publics, c.pub b) :
    Triple c f (isPacket a v) (hPacketCopy (some a)) (fun r f' => isPacket a v ∗ fresh isPacket v r f') :=
  Triple.owned fun h hx => hPacketCopy_keep c f hc a v hp h hx

/-! ### Encoder results -/

theorem hEncCreate_spec (c : Rules) (f : Bool) (p q : Addr) (k : CipherKey) (m : Msg) :
    Triple c f (isCKey p k ∗ isPacket q m) (hEncCreate (some p) (some q))
      (fun r f' => orKeep (isCKey p k ∗ isPacket q m) isEnc ⟨k, m⟩ r f') := by
  unfold hEncCreate
  sgo

theorem hEncDestroy_spec {c : Rules} {a : Addr} {v : Encoded} (hp : ∀ b ∈ v.publics, c.pub b) :
    Destroys c (isEnc a v) (hEncDestroy (some a)) := by
  intro f
  unfold hEncDestroy
  obtain ⟨k, m⟩ := v
  simp only [Encoded.publics] at hp
  sopen isEnc
  sgo

theorem hEncCopy_keep (c : Rules) (f : Bool) (hc : c.crash) (a : Addr) (v : Encoded) (hp : ∀ b ∈ v.publics, c.pub b)
    (h : Heap) (hx : isEnc a v h) :
    Triple c f (keep h) (hEncCopy (some a)) (fun r f' => keep h ∗ fresh isEnc v r f') := by
  unfold hEncCopy
  obtain ⟨k, m⟩ := v
  simp only [Encoded.publics] at hp
  skeep hx isEnc
  sgo

/-! ### Decode results -/

theorem decLoss_publics {v v' : DecodeResult} (h : decLoss v v') : ∀ b ∈ v'.publics, b ∈ v.publics := by
  obtain ⟨-, h | h, -⟩ := h <;> simp [DecodeResult.publics, h]

macro_rules | `(tactic| sside) => `(tactic| (refine ⟨by simp_all [decLoss], by grind⟩))
macro_rules | `(tactic| sarg) => `(tactic| exact publics_of_loss decLoss_publics (by assumption) (by assumption))

theorem hDecCreate_spec (c : Rules) (f : Bool) (e : DecodeErr) (p q : Ptr) (v : Option Payload) (k : Option CipherKey) :
    Triple c f (optRep isPayload p v ∗ optRep isCKey q k) (hDecCreate e p q)
      (fun r f' => orKeep (optRep isPayload p v ∗ optRep isCKey q k) isDec ⟨e, v, k⟩ r f') := by
  unfold hDecCreate
  sgo

theorem hDecDestroy_spec {c : Rules} {a : Addr} {v : DecodeResult} (hp : ∀ b ∈ v.publics, c.pub b) :
    Destroys c (isDec a v) (hDecDestroy (some a)) := by
  intro f
  unfold hDecDestroy
  obtain ⟨e, v, k⟩ := v
  simp only [DecodeResult.publics] at hp
  sopen isDec
  sopt <;> simp at hp <;> sgo

theorem hDecCopy_keep (c : Rules) (f : Bool) (hc : c.crash) (a : Addr) (v : DecodeResult) (hp : ∀ b ∈ v.publics, c.pub b)
    (h : Heap) (hx : isDec a v h) :
    Triple c f (keep h) (hDecCopy (some a)) (fun r f' => keep h ∗ leaky isDec decLoss v r f') := by
  unfold hDecCopy
  obtain ⟨e, v, k⟩ := v
  simp only [DecodeResult.publics] at hp
  skeep hx isDec
  skopt <;> simp at hp <;> sgo

end Wickr
