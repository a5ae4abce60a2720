import Verif.Lemmas.ViewSpecsStream
import Verif.Lemmas.WitnessPair
import Verif.Props.VerifyMem
/-
C86-C88 and C90 for stream keys and transport root keys.
-/
namespace Wickr
open Asrt Spec

variable {E : Engine}

/-- `wickr_stream_key_create_rand`. -/
theorem C86_stream_key_rand (k : CipherKey) (evo : Bytes) (n : UInt32) (hv : ValidBuf k.key)
    (hk : k.key.length = k.cipher.keyLen) (hb : ValidBuf evo) :
    Computes (fun _ => True) isSKey (streamKeyCreate k evo n none) (hSKeyRand k evo n) :=
  Computes.of (skey_rand_vs k evo n hv hk hb)

theorem C87_stream_key_rand (k : CipherKey) (evo : Bytes) (n : UInt32) (hv : ValidBuf k.key)
    (hk : k.key.length = k.cipher.keyLen) (hb : ValidBuf evo) :
    Tidy (fun _ => True) isSKey (hSKeyRand k evo n) :=
  Tidy.of (skey_rand_vs k evo n hv hk hb)

theorem C88_stream_key_rand (k : CipherKey) (evo : Bytes) (n : UInt32) (hv : ValidBuf k.key)
    (hk : k.key.length = k.cipher.keyLen) (hb : ValidBuf evo) :
    Discreet (fun _ => True) ([]) (hSKeyRand k evo n) :=
  Discreet.of (skey_rand_vs k evo n hv hk hb) fun _ h => h

/-- `wickr_stream_key_serialize`; the bytes of the cipher key are released unwiped: `C90_stream_key_serialize_not_wiped`. -/
theorem C86_stream_key_serialize (a : Addr) (v : StreamKey) :
    Computes (fun h => Has isSKey h a v) isBuf ((streamKeySerialize v).toOption) (hSKeySerialize (some a)) :=
  Computes.of (skey_serialize_vs a v)

theorem C87_stream_key_serialize (a : Addr) (v : StreamKey) :
    Tidy (fun h => Has isSKey h a v) isBuf (hSKeySerialize (some a)) :=
  Tidy.of (skey_serialize_vs a v)

/-- `wickr_stream_key_create_from_buffer`, of a message that has no user data or whose other parts are accepted; for the others see
`C86_stream_key_parse_leaks`. -/
theorem C86_stream_key_parse_partial (a : Addr) (b : Bytes)
    (hk : ∀ k, (fieldsDec b).bind PStreamKey.unpack = some k → k.NoLeak) :
    Computes (fun h => Has isBuf h a b) isSKey (streamKeyFromBuffer b) (hSKeyFromBuffer (some a)) :=
  Computes.ofN (skey_parse_vs a b hk)

/-- The parts of the message are released by the protobuf library, which wipes nothing: see `C90_stream_key_parse_not_wiped`. -/
theorem C88_stream_key_parse_partial (a : Addr) (b : Bytes)
    (hk : ∀ k, (fieldsDec b).bind PStreamKey.unpack = some k → k.NoLeak) :
    Discreet (fun h => Has isBuf h a b) (streamParts b) (hSKeyFromBuffer (some a)) :=
  Discreet.of (skey_parse_vs a b hk) fun _ h => h

/-- `wickr_transport_root_key_create_random`. -/
theorem C86_transport_root_random (ci : Cipher) (m n : UInt32) (b : Bytes) (hb : b.length = ci.keyLen) :
    Computes (fun _ => True) isTRoot (rootKeyCreate b ci m n) (hTRootRandom b ci m n) :=
  Computes.of (troot_rand_vs ci m n b hb)

theorem C87_transport_root_random (ci : Cipher) (m n : UInt32) (b : Bytes) (hb : b.length = ci.keyLen) :
    Tidy (fun _ => True) isTRoot (hTRootRandom b ci m n) :=
  Tidy.of (troot_rand_vs ci m n b hb)

theorem C88_transport_root_random (ci : Cipher) (m n : UInt32) (b : Bytes) (hb : b.length = ci.keyLen) :
    Discreet (fun _ => True) ([]) (hTRootRandom b ci m n) :=
  Discreet.of (troot_rand_vs ci m n b hb) fun _ h => h

/-- `wickr_transport_root_key_to_stream_key`; nothing is said about leaks for lack of memory. -/
theorem C86_transport_root_stream (hE : E.Fits) (hl : E.Hkdf64) (a p q : Addr) (k : RootKey)
    (salt sid : Bytes) (d : Dir) :
    Computes (fun h => Has isTRoot h a k ∧ Has isBuf h p salt ∧ Has isBuf h q sid) isSKey (rootKeyToStreamKey E k salt sid d) (hTRootToStream E (some a) (some p) (some q) d) :=
  Computes.ofN (troot_stream_vs hE hl a p q k salt sid d)

theorem C90_transport_root_stream (hE : E.Fits) (hl : E.Hkdf64) (a p q : Addr) (k : RootKey)
    (salt sid : Bytes) (d : Dir) :
    DiscreetWithMemory (fun h => Has isTRoot h a k ∧ Has isBuf h p salt ∧ Has isBuf h q sid) ([sid]) (hTRootToStream E (some a) (some p) (some q) d) :=
  DiscreetWithMemory.of (troot_stream_vs hE hl a p q k salt sid d) fun _ h => h

/-- Nothing else is released unwiped by `wickr_stream_key_serialize`. -/
theorem C88_stream_key_serialize_partial (a : Addr) (v : StreamKey) :
    Discreet (fun h => Has isSKey h a v) [v.cipherKey.cipher.id :: v.cipherKey.key] (hSKeySerialize (some a)) :=
  Discreet.of (skey_serialize_vs a v) fun _ h => h

/-! ### There are such objects -/

example : ∃ (s : St) (a : Addr), s.oom = false ∧ Has isSKey s.heap a exSKey := exists_has (mkSKey_spec _ _ trivial) (by decide +kernel)
example : ∃ (s : St) (a b : Addr), s.oom = false ∧ Has isTRoot s.heap b exTRoot ∧ Has isBuf s.heap a [4] := by
  obtain ⟨s, a, b, h1, h2, h3, -⟩ := run2_of (m := fun _ _ => Pure.pure ()) (fun _ _ => true) [] (litBuf_spec _ _ trivial [4] (by decide))
    (mkTRoot_spec _ _ trivial) (by decide +kernel)
  exact ⟨s, a, b, h1, h3, h2⟩
example : toyEngine.Hkdf64 := defaultEngine_hkdf64 toyPrim_lawful
example : (rootKeyToStreamKey toyEngine exTRoot [4] [4] .encode).isSome = true := by decide +kernel
example : (streamKeySerialize exSKey).toOption.bind streamKeyFromBuffer = some exSKey := by decide +kernel

/-- The message of `exSKey` is one for which nothing is leaked. -/
example : ∀ k, ((streamKeySerialize exSKey).toOption.bind fun b => (fieldsDec b).bind PStreamKey.unpack) = some k → k.NoLeak := by
  intro k hk
  cases (show some (⟨some (0 :: List.replicate 32 9), some [20], some 64, some [21]⟩ : PStreamKey) = some k from
    (by decide +kernel : _ = ((streamKeySerialize exSKey).toOption.bind fun b => (fieldsDec b).bind PStreamKey.unpack)).trans hk)
  exact Or.inr fun n hn => by cases hn; decide

/-! ### What does not hold -/

/-- The bytes of the cipher key are released without being wiped although everything succeeds: stream_key_priv.c:11. -/
theorem C90_stream_key_serialize_not_wiped : ¬ ∀ a, DiscreetWithMemory (fun h => Has isSKey h a exSKey) [] (hSKeySerialize (some a)) :=
  not_discreetWithMemory (m := hSKeySerialize) (mkSKey_spec _ _ trivial) (fun _ _ h => h) (by decide +kernel)

/-- The bytes of `exSKey`. -/
abbrev exSKeyBytes : Bytes := (streamKeySerialize exSKey).toOption.getD []

/-- Reading a stream key leaves its cipher key and its evolution key in released memory although everything succeeds: the protobuf
library does not wipe what it unpacked (stream_key.c:145). -/
theorem C90_stream_key_parse_not_wiped : ¬ ∀ a, DiscreetWithMemory (fun h => Has isBuf h a exSKeyBytes) [] (hSKeyFromBuffer (some a)) :=
  not_discreetWithMemory (m := hSKeyFromBuffer) (litBuf_spec _ _ trivial exSKeyBytes (by decide +kernel)) (fun _ _ h => h)
    (by decide +kernel)

/-- A serialized stream key with user data and 0 packets per evolution. -/
abbrev exNoPackets : Bytes := 10 :: 33 :: 0 :: List.replicate 32 9 ++ [18, 1, 20, 24, 0, 34, 1, 21]

/-- Its user data are leaked although memory suffices: stream_key_priv.c:98-104.  Anyone whose serialized key is read can do that. -/
theorem C86_stream_key_parse_leaks : ¬ ∀ a, Computes (fun h => Has isBuf h a exNoPackets) isSKey (streamKeyFromBuffer exNoPackets)
    (hSKeyFromBuffer (some a)) :=
  not_computes (m := hSKeyFromBuffer) 13 (litBuf_spec _ _ trivial exNoPackets (by decide)) (fun _ _ h => h) (by decide +kernel)

/-- With no memory for a part of it the derived key material is leaked: transport_root_key.c:105-110. -/
theorem C87_transport_root_stream_leaks : ¬ ∀ a b, Tidy (fun h => Has isTRoot h b exTRoot ∧ Has isBuf h a [4] ∧ Has isBuf h a [4]) isSKey
    (hTRootToStream toyEngine (some b) (some a) (some a) .encode) :=
  not_tidy2 (m := fun a b => hTRootToStream toyEngine (some b) (some a) (some a) .encode) [13] 11 (litBuf_spec _ _ trivial [4] (by decide))
    (mkTRoot_spec _ _ trivial) (fun _ _ _ h h' => ⟨h', h, h⟩) (by decide +kernel)


end Wickr
