import Verif.Props.TransportSign
import Verif.Model.Message
import Verif.Model.Toy
/-
C15: signatures of messages and of transport packets, which are made with one key, are not mistaken for each other in one direction.
-/
namespace Wickr
open Spec

/-- What is signed when a message is made begins with the tag of its first field. -/
theorem message_first_byte {E : Engine} {h p : CipherResult} {k : EcKey} {v : UInt8} {n : Bytes} {m : Msg}
    (hm : msgCreateWithComponents E h p k v n = .ok m) : ∃ rest, m.content = 10 :: rest := by
  unfold msgCreateWithComponents at hm
  split at hm
  · cases hm
  split at hm
  · cases hm
  split at hm
  · cases hm
  next c hc =>
  split at hm
  · cases hm
  cases hm
  unfold protoPack at hc
  have := (dup_eq_some.1 hc).2
  subst this
  simp [PPacket.pack, putBytes, fieldsEnc, Field.enc, WireVal.wireType, varintEnc, varintEncAux]

/-- C15: no signature of a message serves for a transport packet.  Let a message have been made and signed.  A transport packet in which the signed
bytes come first, whatever follows and whoever is the claimed signer, is not verified. -/
theorem C15_message_is_no_packet (E : Engine) (h pl : CipherResult) (k : EcKey) (v : UInt8) (n : Bytes) (m : Msg)
    (hm : msgCreateWithComponents E h pl k v n = .ok m) (tail : Bytes) (p : Packet) (hp : pktFromBuffer (m.content ++ tail) = some p) (c : Chain) :
    (pktVerify E p c).2.2 = false := by
  obtain ⟨rest, hr⟩ := message_first_byte hm
  rw [hr] at hp
  have hmac : p.hdr.mac ≠ macP521 := by
    unfold pktFromBuffer at hp
    split at hp
    · cases hp
    next md start hmd =>
    have hh : md.mac = 10 := by
      unfold pktMetaParse at hmd
      split at hmd
      · cases hmd
      simp only [List.cons_append] at hmd
      have e1 : ¬ ((10 : UInt8) &&& 0xF0) >>> 4 = 1 := by decide
      have e2 : ((10 : UInt8) &&& 0xF0) >>> 4 = 0 := by decide
      rw [if_neg e1, if_pos e2] at hmd
      split at hmd
      · cases hmd
      split at hmd
      · cases hmd
      · cases hmd; show (10 : UInt8) &&& 15 = 10; decide
    have hph : p.hdr = md := by
      dsimp only at hp
      split at hp
      · cases hp
      split at hp
      · simp only [Option.bind_eq_some_iff, Option.map_eq_some_iff] at hp
        obtain ⟨_, _, _, _, _, _, rfl⟩ := hp
        rfl
      · simp only [Option.bind_eq_some_iff, Option.map_eq_some_iff] at hp
        obtain ⟨_, _, _, _, rfl⟩ := hp
        rfl
    rw [hph, hh]
    decide
  unfold pktVerify
  split
  · rfl
  · rw [if_pos hmac]

/-- The hypotheses are met: a signed message, and bytes beginning with what was signed that are a packet. -/
example : (match msgCreateWithComponents toyEngine ⟨.gcm, List.replicate 12 1, some [2], some (List.replicate 16 3)⟩
      ⟨.gcm, List.replicate 12 1, some [4], some (List.replicate 16 3)⟩ (toyKey 7) 4 [1] with
    | .ok m => (pktFromBuffer (m.content ++ [5, 6])).isSome
    | _ => false) = true := by decide +kernel

end Wickr
