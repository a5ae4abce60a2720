import Verif.Lemmas.ViewSpecsKeys
import Verif.Lemmas.SepStream
import Verif.Lemmas.Update
import Verif.Lemmas.Engine
/-
The functions about streams, in the form from which statements about runs follow.
-/
namespace Wickr
open Asrt Spec

variable {E : Engine}

/-- What a program that needs nothing in memory may make. -/
theorem ViewSpec.ofEmp {c : Rules} {Post : Ptr → Bool → Asrt} {m : H Ptr} (hm : ∀ f, Triple c f emp m (fun r f' => emp ∗ Post r f')) :
    ViewSpec c (fun _ => True) Post m := by
  intro f h _
  have := (hm f).frame (keep h)
  rw [Asrt.star_comm, Asrt.star_emp] at this
  refine Triple.conseq this (fun _ h => h) fun r f' x _ hx => ?_
  rw [Asrt.star_comm]
  rwa [Asrt.emp_star] at hx

theorem skey_rand_vs (k : CipherKey) (evo : Bytes) (n : UInt32) (hv : ValidBuf k.key) (hk : k.key.length = k.cipher.keyLen) (hb : ValidBuf evo) :
    ViewSpec (only []) (fun _ => True) (gives isSKey (streamKeyCreate k evo n none)) (hSKeyRand k evo n) :=
  ViewSpec.ofEmp fun f => hSKeyRand_spec _ f trivial k evo n hv hk hb

theorem skey_serialize_vs (a : Addr) (v : StreamKey) :
    ViewSpec (only [v.cipherKey.cipher.id :: v.cipherKey.key]) (fun h => Has isSKey h a v) (gives isBuf (streamKeySerialize v).toOption)
      (hSKeySerialize (some a)) :=
  fun f h ha => hSKeySerialize_view _ f trivial h a v (by simp) ha

theorem skey_parse_vs (a : Addr) (b : Bytes) (hk : ∀ k, (fieldsDec b).bind PStreamKey.unpack = some k → k.NoLeak) :
    ViewSpec (only (streamParts b)) (fun h => Has isBuf h a b) (givesN isSKey (streamKeyFromBuffer b)) (hSKeyFromBuffer (some a)) :=
  fun f h ha => hSKeyFromBuffer_view _ f trivial h a b hk (fun _ hx => hx) ha

theorem troot_rand_vs (ci : Cipher) (m n : UInt32) (b : Bytes) (hb : b.length = ci.keyLen) :
    ViewSpec (only []) (fun _ => True) (gives isTRoot (rootKeyCreate b ci m n)) (hTRootRandom b ci m n) :=
  ViewSpec.ofEmp fun f => hTRootRandom_spec _ f trivial ci m n b hb

theorem defaultEngine_hkdf64 {P : Prim} (hP : P.Lawful) : (defaultEngine P).Hkdf64 := by
  intro s i z x h
  obtain ⟨y, hy, hl⟩ := hP.hkdf_len .sha512 z (some s) (some i) 64 (by decide) (by decide)
  have h : (hkdfChecks z (some s) (some i) 64 (P.hkdf .sha512 z (some s) (some i) 64)).bind
      (fun h => (kdfMetaCopy ⟨hkdfSha512, some s, some i⟩).map fun _ => h) = some x := h
  rw [hy] at h
  obtain ⟨w, hw, h⟩ := Option.bind_eq_some_iff.1 h
  obtain ⟨_, _, rfl⟩ := Option.map_eq_some_iff.1 h
  unfold hkdfChecks at hw
  repeat' split at hw
  all_goals simp_all

theorem hmac_sha512_len (hL : E.Lawful) (b k h : Bytes) (e : E.hmac b k .sha512 = some h) : h.length = 64 := by
  obtain ⟨y, hy, hl⟩ := hL.hmac_len b k .sha512
  cases hy.symm.trans e
  exact hl

theorem troot_stream_vs (hE : E.Fits) (hl : E.Hkdf64) (a p q : Addr) (k : RootKey) (salt sid : Bytes) (d : Dir) :
    ViewSpec (onlyLax [sid]) (fun h => Has isTRoot h a k ∧ Has isBuf h p salt ∧ Has isBuf h q sid)
      (givesN isSKey (rootKeyToStreamKey E k salt sid d)) (hTRootToStream E (some a) (some p) (some q) d) :=
  fun f h ha => hTRootToStream_view hE _ f trivial h a p q k salt sid d
    (fun x hx => by rw [hl _ _ _ _ hx]; cases k.cipher <;> rfl)
    ⟨by simp [KdfMeta.Ok, hkdfSha512], fun s hs => by cases hs; exact ⟨has_valid ha.2.1, Or.inr trivial⟩, fun i hi => by cases hi; exact has_valid ha.2.2, by simp [KdfMeta.spills, hkdfSha512],
      fun _ _ => Or.inr trivial⟩ (by simp) ha.1 ha.2.1 ha.2.2

theorem sctx_create_vs (p : Addr) (k : StreamKey) (d : Dir) (seed : Bytes) (hv : ValidBuf seed) :
    AdoptSpec (only [seed]) isSKey p k isSCtx (streamCtxCreate k d seed) (hSCtxCreate (some p) d seed) :=
  fun f => hSCtxCreate_spec _ f trivial p k d seed hv (by simp)

theorem sctx_encode_vs (hE : E.Fits) (hL : E.Lawful) (a p : Addr) (q : Ptr) (b : Bytes)
    (aad : Option Bytes) (v : StreamCtx) (seq : UInt64) :
    UpdateSpec (only (encodePubs E v b aad seq)) (fun h => Has isBuf h p b ∧ HasOpt isBuf h q aad) isSCtx a v (EncodeMay E v b aad seq)
      (streamEncode E v b aad seq).1 isCRes (streamEncode E v b aad seq).2 (hSEncode E (some a) (some p) q seq) :=
  fun f h ha => hSEncode_view hE (hmac_sha512_len hL) _ f trivial h a p q b aad v seq (fun x hx => by simp [encodePubs, hx])
    (fun i x hi hx => by simp [encodePubs, hi, hx]) (fun r hr x hx => by simp [encodePubs, hr, hx]) ha.1 ha.2

theorem sctx_decode_vs (hE : E.Fits) (a p : Addr) (q : Ptr) (x : CipherResult) (aad : Option Bytes) (v : StreamCtx) (seq : UInt64) :
    UpdateSpec (only v.key.publics) (fun h => Has isCRes h p x ∧ HasOpt isBuf h q aad) isSCtx a v
      (fun w => w = v ∨ w = (streamDecode E v x aad seq).1) (streamDecode E v x aad seq).1 isBuf (streamDecode E v x aad seq).2
      (hSDecode E (some a) (some p) q seq) :=
  fun f h ha => hSDecode_view hE _ f trivial h a p q x aad v seq (fun _ hx => hx) ha.1 ha.2

end Wickr
