import Verif.Spec.Update
import Verif.Lemmas.SepKeyFun
import Verif.Lemmas.Fits
import Verif.Model.HeapStream
/-
Streams on the heap.
-/
set_option linter.unusedVariables false
namespace Wickr
open Asrt Spec

variable {E : Engine}

/-! ### Stream keys -/

theorem hSKeyCreate_refuse (c : Rules) (f : Bool) (p q : Addr) (n : UInt32) (u : Ptr) (hn : ¬ (ppeMin ≤ n ∧ n ≤ ppeMax)) :
    Triple c f emp (hSKeyCreate (some p) (some q) n u) (fun r _ => ⌜r = none⌝) := by
  unfold hSKeyCreate
  have hn' : n < ppeMin ∨ n > ppeMax := by
    by_cases h : n < ppeMin
    · exact .inl h
    · refine .inr ?_
      have h1 : ppeMin ≤ n := by simpa using h
      have h2 : ¬ n ≤ ppeMax := fun h => hn ⟨h1, h⟩
      simpa using h2
  simp only [hn', if_true]
  sgo

theorem streamKeyCreate_ok {k : CipherKey} {b : Bytes} {n : UInt32} {u : Option Bytes} (hn : ppeMin ≤ n ∧ n ≤ ppeMax) :
    streamKeyCreate k b n u = some ⟨k, b, n, u⟩ := by
  unfold streamKeyCreate
  have hn' : ¬ (n < ppeMin ∨ n > ppeMax) := by
    rintro (h | h)
    · exact absurd hn.1 (by simpa using h)
    · exact absurd hn.2 (by simpa using h)
  simp only [hn', if_false]

theorem streamKeyCreate_no {k : CipherKey} {b : Bytes} {n : UInt32} {u : Option Bytes} (hn : ¬ (ppeMin ≤ n ∧ n ≤ ppeMax)) :
    streamKeyCreate k b n u = none := by
  unfold streamKeyCreate
  have hn' : n < ppeMin ∨ n > ppeMax := by
    by_cases h : n < ppeMin
    · exact .inl h
    · refine .inr ?_
      have h1 : ppeMin ≤ n := by simpa using h
      have h2 : ¬ n ≤ ppeMax := fun h => hn ⟨h1, h⟩
      simpa using h2
  simp only [hn', if_true]

theorem hSKeyRand_spec (c : Rules) (f : Bool) (hc : c.crash) (k : CipherKey) (evo : Bytes) (n : UInt32) (hv : ValidBuf k.key)
    (hk : k.key.length = k.cipher.keyLen) (hb : ValidBuf evo) :
    Triple c f emp (hSKeyRand k evo n) (fun r f' => emp ∗ gives isSKey (streamKeyCreate k evo n none) r f') := by
  unfold hSKeyRand
  by_cases hn : ppeMin ≤ n ∧ n ≤ ppeMax
  · rw [streamKeyCreate_ok hn]
    vgo
  · rw [streamKeyCreate_no hn]
    vgo
    unfold onNull
    sstep hSKeyCreate_refuse c _ _ _ n none hn
    intro r _ _; sintro; subst r
    vgo

theorem hToProto_view (c : Rules) (f : Bool) (h : Heap) (a : Addr) (b : Bytes) (hb : Has isBuf h a b) :
    Triple c f (keep h) (hToProto (some a)) (fun r f' => keep h ∗ fresh Asrt.cell (.bytes b) r f') := by
  unfold hToProto
  vgo

theorem hFromProto_spec (c : Rules) (f : Bool) (b : Bytes) :
    Triple c f emp (hFromProto b) (fun r f' => emp ∗ gives isBuf (dup b) r f') := by
  unfold hFromProto
  refine Triple.conseq (hBufCreate_spec c f b) (fun _ h => h) ?_
  intro r f' h _ hh
  rw [Asrt.emp_star]
  cases r with
  | none =>
    refine ⟨hh.1.imp id fun hn => ?_, hh.2⟩
    cases hd : dup b with
    | none => rfl
    | some d => exact absurd (dup_eq_some.1 hd).1 hn
  | some q =>
    have hv := isBuf_valid hh
    exact ⟨b, Asrt.pure_star.2 ⟨dup_of hv, hh⟩⟩

/-- The protobuf structure of a stream key, which owns the bytes of the cipher key. -/
def isSProto (a : Addr) (b : Bytes) : Asrt := Asrt.ex fun (q : Addr) => (a ↦ .obj .plain [some q]) ∗ (q ↦ .bytes b)

theorem hSKeyToProto_view (c : Rules) (f : Bool) (h : Heap) (a : Addr) (v : StreamKey) (ha : Has isSKey h a v) :
    Triple c f (keep h) (hSKeyToProto (some a)) (fun r f' => keep h ∗ givesN isSProto (cipherKeySerialize v.cipherKey) r f') := by
  unfold hSKeyToProto
  obtain ⟨k, b, n, d⟩ := v
  sview ha isSKey
  vgo

theorem hSKeyProtoFree_spec (c : Rules) (f : Bool) (a q : Addr) (b : Bytes) (hp : c.pub b) :
    Triple c f ((a ↦ .obj .plain [some q]) ∗ (q ↦ .bytes b)) (hSKeyProtoFree (some a)) (fun _ _ => emp) := by
  unfold hSKeyProtoFree
  sgo
  sstep free_bytes c f _ b (.inr hp)
  intro _ f1 _
  sgo

theorem cipherKeySerialize_ok {k : CipherKey} (hk : k.key.length = k.cipher.keyLen) :
    cipherKeySerialize k = some (k.cipher.id :: k.key) := by
  unfold cipherKeySerialize
  rw [concat2_some]
  refine ⟨rfl, ?_⟩
  have : k.cipher.keyLen = 32 := by cases k.cipher <;> rfl
  unfold ValidBuf maxBuffer
  simp only [List.length_cons]
  omega

theorem field_null {α : Type} (c : Rules) (f : Bool) (hf : f = true) (hc : c.crash) (P : Asrt) (i : Nat) (k : Ptr → H α) (Q : α → Bool → Asrt) :
    Triple c f P (field none i >>= k) Q := by
  subst hf
  intro A s F hf hp
  exact ⟨hc, hf, fun b hb => Or.inl hb⟩

theorem hSKeySerialize_view (c : Rules) (f : Bool) (hc : c.crash) (h : Heap) (a : Addr) (v : StreamKey)
    (hp : c.pub (v.cipherKey.cipher.id :: v.cipherKey.key)) (ha : Has isSKey h a v) :
    Triple c f (keep h) (hSKeySerialize (some a)) (fun r f' => keep h ∗ gives isBuf (streamKeySerialize v).toOption r f') := by
  unfold hSKeySerialize streamKeySerialize streamKeyToProto
  obtain ⟨k, b, n, d⟩ := v
  have hb := ha
  sview ha isSKey
  have hk : k.key.length = k.cipher.keyLen := by
    sviews isCKey
    assumption
  have e := cipherKeySerialize_ok hk
  rw [e]
  simp only [Option.map_some, Res.toOption_ofOption]
  have := hSKeyToProto_view c f h a _ hb
  rw [show cipherKeySerialize (StreamKey.mk k b n d).cipherKey = _ from e] at this
  refine Triple.seq this (F := emp) (by frame) fun r f1 _ => ?_
  cases r with
  | none =>
    dsimp only [givesN]
    refine Triple.conseq (P := ⌜f1 = true⌝ ∗ any) (Triple.pure fun hf => field_null c f1 hf hc _ _ _ _) ?_ (fun _ _ _ _ h => h)
    intro x hx
    rw [Asrt.star_emp, Asrt.star_comm, Asrt.star_assoc] at hx
    obtain ⟨h1, -⟩ := Asrt.pure_star.1 hx
    exact Asrt.pure_star.2 ⟨by simpa using h1, trivial⟩
  | some x =>
    dsimp only [givesN]
    sintro
    rename_i y hy
    cases hy
    sopen isSProto
    vgo
    sread loadBytes_reads _ _
    vgo

theorem hSKeyAssemble_spec (c : Rules) (f : Bool) (p q : Addr) (n : UInt32) (u : Ptr) (k : CipherKey) (b : Bytes)
    (d : Option Bytes) (hn : (ppeMin ≤ n ∧ n ≤ ppeMax) ∨ d = none) :
    Triple c f (isCKey p k ∗ isBuf q b ∗ optRep isBuf u d) (hSKeyAssemble (some p) (some q) n u)
      (fun r f' => emp ∗ givesN isSKey (streamKeyCreate k b n d) r f') := by
  unfold hSKeyAssemble
  by_cases hv : ppeMin ≤ n ∧ n ≤ ppeMax
  · rw [streamKeyCreate_ok hv]
    vgo
  · obtain rfl := hn.resolve_left hv
    sopt
    rw [streamKeyCreate_no hv]
    unfold onNull
    sstep hSKeyCreate_refuse c f p q n none hv
    intro r _ _; sintro; subst r
    vgo

theorem hSKeyOfProto_view (c : Rules) (f : Bool) (hc : c.crash) (h : Heap) (x : Addr) (k : PStreamKey) (hk : k.NoLeak)
    (hx : Has isProto h x k.parts) :
    Triple c f (keep h) (hSKeyOfProto (some x) k) (fun r f' => keep h ∗ givesN isSKey (streamKeyFromProto k) r f') := by
  unfold hSKeyOfProto streamKeyFromProto
  obtain ⟨ck, ek, n, u⟩ := k
  cases ck with
  | none => vgo
  | some ck =>
    cases ek with
    | none => vgo
    | some ek =>
      cases n with
      | none => vgo
      | some n =>
        dsimp only
        have hn : (ppeMin ≤ n ∧ n ≤ ppeMax) ∨ u = none := by
          rcases hk with h | h
          · exact .inr h
          · exact .inl (h n rfl)
        clear hk
        simp only [PStreamKey.parts, show ∀ x, optBytes (some x) = x from fun _ => rfl] at hx
        cases u with
        | none =>
          simp only [show dupOpt none = some none from rfl, Option.bind_some]
          vgo
        | some u =>
          simp only [show dupOpt (some u) = (dup u).map some from rfl, Option.bind_map, Function.comp_def]
          simp only [show ∀ x, optBytes (some x) = x from fun _ => rfl] at hx
          vgo

theorem hSKeyFromBuffer_view (c : Rules) (f : Bool) (hc : c.crash) (h : Heap) (a : Addr) (b : Bytes)
    (hk : ∀ k, (fieldsDec b).bind PStreamKey.unpack = some k → k.NoLeak) (hl : ∀ x ∈ streamParts b, c.pub x)
    (ha : Has isBuf h a b) :
    Triple c f (keep h) (hSKeyFromBuffer (some a)) (fun r f' => keep h ∗ givesN isSKey (streamKeyFromBuffer b) r f') := by
  unfold hSKeyFromBuffer streamKeyFromBuffer
  unfold streamParts at hl
  cases hu : (fieldsDec b).bind PStreamKey.unpack with
  | none =>
    vgo
    simp only [hu]
    vgo
  | some k =>
    replace hk := hk k hu
    rw [hu] at hl
    simp only [Option.toList_some, List.flatMap_cons, List.flatMap_nil, List.append_nil] at hl
    vgo
    simp only [hu]
    vgo

/-! ### Initialization vectors -/

theorem hSIvCreate_spec (c : Rules) (f : Bool) (hc : c.crash) (ci : Cipher) (seed : Bytes) (hv : ValidBuf seed) (hp : c.pub seed) :
    Triple c f emp (hSIvCreate ci seed) (fun r f' => fresh isSIv (streamIvCreate ci seed) r f') := by
  unfold hSIvCreate streamIvCreate
  vgo

/-- A buffer whose length field has been cut: it owns all of `b`. -/
def isCut (a : Addr) (v : Bytes × Nat) : Asrt := Asrt.ex fun (q : Addr) =>
  ⌜v.2 ≤ v.1.length⌝ ∗ (a ↦ .obj (.len v.2) [some q]) ∗ (q ↦ .bytes v.1)

/-- What the generation of an IV makes of its factory. -/
def ivGen (R : Addr → StreamIv → Asrt) (E : Engine) (a : Addr) (v : StreamIv) (r : Ptr) (f : Bool) : Asrt :=
  match r with
  | none => ⌜f = true ∨ streamIvGenerate E v = none⌝ ∗ R a v
  | some p => Asrt.ex fun h => ⌜E.hmac (le64 v.count) v.seed .sha512 = some h⌝ ∗ isCut p (h, v.cipher.ivLen) ∗ R a { v with count := v.count + 1 }

theorem hSIvGenerate_spec (hE : E.Fits) (hl : ∀ b k h, E.hmac b k .sha512 = some h → h.length = 64) (c : Rules) (f : Bool) (a : Addr) (v : StreamIv) :
    Triple c f (isSIv a v) (hSIvGenerate E (some a)) (fun r f' => ivGen isSIv E a v r f') := by
  unfold hSIvGenerate
  obtain ⟨ci, seed, n⟩ := v
  sopen isSIv
  vgo
  cases hh : E.hmac (le64 n) seed .sha512 with
  | none =>
    dsimp only
    refine Triple.ret fun x hx => ?_
    exact Asrt.pure_star.2 ⟨.inr (by simp [streamIvGenerate, hh]), _, by rwa [Asrt.star_comm] at hx⟩
  | some h =>
    dsimp only
    have hv := hE.hmac _ _ _ _ hh
    refine Triple.onNullF (hOut_spec c f h hv) (by frame) (fun f1 _ h1 => ?_) (fun q f1 _ => ?_)
    · refine Triple.ret fun x hx => ?_
      exact Asrt.pure_star.2 ⟨.inl h1, _, by rwa [Asrt.star_comm] at hx⟩
    · sopen isBuf
      have hi : ci.ivLen ≤ h.length := by
        rw [hl _ _ _ hh]
        cases ci <;> decide
      sstep setScal_spec c f1 q _ _ _
      intro _ f2 _
      sstep setScal_spec c f2 a _ _ _
      intro _ f3 _
      refine Triple.ret ?_
      dsimp only [ivGen, isCut]
      sentail

theorem hBufDestroy_cut (c : Rules) (f : Bool) (a : Addr) (b : Bytes) (n : Nat) (hp : c.pub b) :
    Triple c f (isCut a (b, n)) (hBufDestroy (some a)) (fun r _ => ⌜r = none⌝) := by
  unfold hBufDestroy
  sopen isCut
  sgo
  sstep free_bytes c f _ b (.inr hp)
  intro _ f1 _
  sgo

theorem readBuf_cut {h : Heap} {a : Addr} {b : Bytes} {n : Nat} (hb : Has isCut h a (b, n)) :
    Reads (keep h) (readBuf (some a)) (b.take n) := by
  refine Reads.view (fun x hx => ?_) hb
  intro c f
  unfold readBuf
  skeep hx isCut
  sread loadObj_reads a _ _
  sread loadBytes_reads _ b
  rw [if_pos (by assumption)]
  exact Triple.ret fun h' hh => Asrt.pure_star.2 ⟨⟨rfl, rfl⟩, hh⟩

theorem hEncryptIv_view (hE : E.Fits) (c : Rules) (f : Bool) (hc : c.crash) (h : Heap) (a p i : Addr) (q : Ptr) (b : Bytes)
    (aad : Option Bytes) (k : CipherKey) (iv : Bytes) (n : Nat)
    (hp : ∀ r, E.encrypt b aad k (iv.take n) = some r → ∀ x ∈ r.publics, c.pub x)
    (hb : Has isBuf h a b) (hq : HasOpt isBuf h q aad) (hs : Has isCKey h p k) (hi : Has isCut h i (iv, n)) :
    Triple c f (keep h) (hEncryptIv E (some a) q (some p) (some i))
      (fun x f' => keep h ∗ gives isCRes (E.encrypt b aad k (iv.take n)) x f') := by
  unfold hEncryptIv
  have hv := has_valid hb
  vgo
  sread readBuf_cut hi
  vgo

/-! ### Stream contexts -/

theorem hSCtxOf_spec (c : Rules) (f : Bool) (p : Addr) (k : StreamKey) (d : Dir) (q : Ptr) (i : Option StreamIv)
    (hd : i.isSome = true ↔ d = .encode) :
    Triple c f (isSKey p k ∗ optRep isSIv q i) (hSCtxOf (some p) d q)
      (fun r f' => orKeep (isSKey p k ∗ optRep isSIv q i) isSCtx ⟨k, i, 0, d, 1⟩ r f') := by
  unfold hSCtxOf
  vgo

theorem hSKeyCipher_view {h : Heap} {a : Addr} {v : StreamKey} (ha : Has isSKey h a v) :
    Reads (keep h) (hSKeyCipher (some a)) v.cipherKey.cipher := by
  intro c f
  unfold hSKeyCipher
  obtain ⟨⟨ci, kb⟩, b, n, u⟩ := v
  sview ha isSKey
  sviews isCKey
  vgo

theorem hSKeyPpe_view {h : Heap} {a : Addr} {v : StreamKey} (ha : Has isSKey h a v) : Reads (keep h) (hSKeyPpe (some a)) v.ppe := by
  intro c f
  unfold hSKeyPpe
  obtain ⟨⟨ci, kb⟩, b, n, u⟩ := v
  sview ha isSKey
  vgo

theorem hSCtxCreate_spec (c : Rules) (f : Bool) (hc : c.crash) (p : Addr) (k : StreamKey) (d : Dir) (seed : Bytes)
    (hv : ValidBuf seed) (hp : c.pub seed) :
    Triple c f (isSKey p k) (hSCtxCreate (some p) d seed)
      (fun r f' => orSpills (isSKey p k) isSCtx (streamCtxCreate k d seed) r f') := by
  unfold hSCtxCreate streamCtxCreate
  vgo
  cases d
  · dsimp only
    vgo
  · dsimp only
    vgo

theorem fromEvo_ok {b k ek : Bytes} {ci : Cipher} {n : UInt32} (h : copySection b 0 32 = some k) (hn : ppeMin ≤ n ∧ n ≤ ppeMax) :
    (cipherKeyCreate ci k).bind (fun ck => streamKeyCreate ck ek n none) = some ⟨⟨ci, k⟩, ek, n, none⟩ := by
  rw [show cipherKeyCreate ci k = some ⟨ci, k⟩ from if_neg (fun g => g ((copySection_length h).trans (by cases ci <;> rfl)))]
  exact streamKeyCreate_ok hn

theorem hSKeyFromEvo_view (c : Rules) (f : Bool) (hc : c.crash) (h : Heap) (a q : Addr) (v : StreamKey) (b : Bytes)
    (ha : Has isSKey h a v) (hq : Has isBuf h q b) :
    Triple c f (keep h) (hSKeyFromEvo (some a) (some q)) (fun r f' => keep h ∗ gives isSKey (streamKeyFromEvo v b) r f') := by
  unfold hSKeyFromEvo streamKeyFromEvo
  have hn : ppeMin ≤ v.ppe ∧ v.ppe ≤ ppeMax := by
    sview ha isSKey
    assumption
  have hl : v.cipherKey.cipher.keyLen = 32 := by cases v.cipherKey.cipher <;> rfl
  vgo
  rename_i e1 _ _ _ _ e2 _ _ _ _ _ _
  simp only [e1, e2, fromEvo_ok e1 hn, Option.bind_some]
  vgo

theorem hSKeyEvo_view (hE : E.Fits) (c : Rules) (f : Bool) (h : Heap) (a : Addr) (v : StreamKey) (ha : Has isSKey h a v) :
    Triple c f (keep h) (hSKeyEvo E (some a)) (fun r f' => keep h ∗ gives isBuf (E.hmac v.cipherKey.key v.evoKey .sha512) r f') := by
  unfold hSKeyEvo
  obtain ⟨⟨ci, kb⟩, b, n, u⟩ := v
  sview ha isSKey
  sviews isCKey
  vgo

theorem streamKeyFromEvo_publics {k v : StreamKey} {b : Bytes} (h : streamKeyFromEvo k b = some v) : v.publics = [] := by
  unfold streamKeyFromEvo streamKeyCreate at h
  simp only [Option.bind_eq_some_iff] at h
  obtain ⟨_, _, _, _, _, _, h⟩ := h
  split at h
  · simp at h
  · cases h
    rfl

theorem hEvolveLoop_spec (hE : E.Fits) (c : Rules) (hc : c.crash) (n : Nat) : ∀ (f : Bool) (a : Addr) (v : StreamKey)
    (hp : ∀ b ∈ v.publics, c.pub b),
    Triple c f (isSKey a v) (hEvolveLoop E n (some a)) (fun r f' => emp ∗ gives isSKey (evolveLoop E n v).2 r f') := by
  induction n with
  | zero =>
    intro f a v hp
    unfold hEvolveLoop evolveLoop
    vgo
  | succ n ih =>
    intro f a v hp
    unfold hEvolveLoop evolveLoop
    vgo
    dsimp only
    have hk := ‹streamKeyFromEvo _ _ = some _›
    simp only [‹E.hmac _ _ _ = some _›, hk, Option.bind_some]
    exact ih _ _ _ (by rw [streamKeyFromEvo_publics hk]; simp)

/-- What bringing the key of a stream up to a sequence number makes of the stream. -/
def evolved (E : Engine) (a : Addr) (v : StreamCtx) (seq : UInt64) (ok f : Bool) : Asrt :=
  match ok with
  | false => ⌜f = true ∨ (streamEvolve E v seq).2 = none⌝ ∗ isSCtx a v
  | true => Asrt.ex fun k => ⌜(streamEvolve E v seq).2 = some k⌝ ∗ isSCtx a { v with key := k }

theorem has_wf {h : Heap} {a : Addr} {v : StreamKey} (ha : Has isSKey h a v) : (ppeMin ≤ v.ppe ∧ v.ppe ≤ ppeMax) ∧ streamKeyCopy v = some v := by
  obtain ⟨⟨ci, kb⟩, b, n, u⟩ := v
  sview ha isSKey
  sviews isCKey
  sviews isBuf
  svopt
  · refine ⟨by assumption, ?_⟩
    simp [streamKeyCopy, cipherKeyCopy, cipherKeyCreate, dup_of, dupOpt, streamKeyCreate_ok, *]
  · sviews isBuf
    refine ⟨by assumption, ?_⟩
    simp [streamKeyCopy, cipherKeyCopy, cipherKeyCreate, dup_of, dupOpt, streamKeyCreate_ok, *]

theorem ppe_ne {n : UInt32} (hn : ppeMin ≤ n ∧ n ≤ ppeMax) : n ≠ 0 := by
  rintro rfl
  exact absurd hn.1 (by decide)

theorem hSEvolve_spec (hE : E.Fits) (c : Rules) (f : Bool) (hc : c.crash) (a : Addr) (v : StreamCtx) (seq : UInt64)
    (hp : ∀ b ∈ v.key.publics, c.pub b) :
    Triple c f (isSCtx a v) (hSEvolve E (some a) seq) (fun ok f' => evolved E a v seq ok f') := by
  unfold hSEvolve
  obtain ⟨k, iv, last, d, ref⟩ := v
  sopen isSCtx
  rename_i q hi
  vgo
  all_goals have hw := has_wf ‹Has isSKey _ _ _›
  · exact absurd ‹k.ppe = 0› (ppe_ne hw.1)
  · have e : (streamEvolve E ⟨k, iv, last, d, ref⟩ seq).2 = none := by simp [streamEvolve, *]
    refine Triple.ret ?_
    dsimp only [evolved, isSCtx]
    sentail
  · have e : (streamEvolve E ⟨k, iv, last, d, ref⟩ seq).2 = some k := by simp [streamEvolve, *]
    refine Triple.ret ?_
    dsimp only [evolved, isSCtx]
    sentail
  · rename_i f3 _ ho
    have e : f3 = true ∨ (streamEvolve E ⟨k, iv, last, d, ref⟩ seq).2 = none := by
      refine ho.imp id fun g => ?_
      simp [streamEvolve, hw.2, *]
    refine Triple.ret ?_
    dsimp only [evolved, isSCtx]
    sentail
  · rename_i k' _ _ _ _ _ _
    have e : (streamEvolve E ⟨k, iv, last, d, ref⟩ seq).2 = some k' := by simp [streamEvolve, hw.2, *]
    refine Triple.ret ?_
    dsimp only [evolved, isSCtx]
    sentail

theorem hSSeal_view (hE : E.Fits) (c : Rules) (f : Bool) (hc : c.crash) (h : Heap) (a p i : Addr) (q : Ptr) (b : Bytes)
    (aad : Option Bytes) (v : StreamCtx) (iv : Bytes) (n : Nat) (seq : UInt64)
    (hp : ∀ r, E.encrypt b aad v.key.cipherKey (iv.take n) = some r → ∀ x ∈ r.publics, c.pub x) (hi : c.pub iv)
    (hb : Has isBuf h p b) (hq : HasOpt isBuf h q aad) :
    Triple c f (isSCtx a v ∗ isCut i (iv, n) ∗ keep h) (hSSeal E (some a) (some p) q (some i) seq)
      (fun x f' => keep h ∗ isSCtx a { v with lastSeq := seq } ∗ gives isCRes (E.encrypt b aad v.key.cipherKey (iv.take n)) x f') := by
  unfold hSSeal
  obtain ⟨⟨ck, ev, m, u⟩, ivf, last, d, ref⟩ := v
  sopen isSCtx
  sopen isSKey
  vgo
  all_goals
    sstep hBufDestroy_cut c _ i iv n hi
    intro r f1 _
    sintro
    vgo

theorem hSOpen_view (hE : E.Fits) (c : Rules) (f : Bool) (hc : c.crash) (h : Heap) (a p : Addr) (q : Ptr) (d : CipherResult)
    (aad : Option Bytes) (v : StreamCtx) (seq : UInt64)
    (hb : Has isCRes h p d) (hq : HasOpt isBuf h q aad) :
    Triple c f (isSCtx a v ∗ keep h) (hSOpen E (some a) (some p) q seq)
      (fun x f' => keep h ∗ isSCtx a { v with lastSeq := seq } ∗ gives isBuf (E.decrypt d aad v.key.cipherKey true) x f') := by
  unfold hSOpen
  obtain ⟨⟨ck, ev, m, u⟩, ivf, last, d, ref⟩ := v
  sopen isSCtx
  sopen isSKey
  vgo

/-- What encoding makes of a stream: it stays as it was, or its factory has moved on, or everything is as the value model has it. -/
def encodedAs (E : Engine) (a : Addr) (v : StreamCtx) (b : Bytes) (aad : Option Bytes) (seq : UInt64) (r : Ptr) (f : Bool) : Asrt :=
  Asrt.ex fun w => ⌜(w = v ∨ (∃ i, v.iv = some i ∧ w = { v with iv := some { i with count := i.count + 1 } }) ∨ w = (streamEncode E v b aad seq).1) ∧
    (f = false ∨ r ≠ none → w = (streamEncode E v b aad seq).1)⌝ ∗ isSCtx a w ∗ gives isCRes (streamEncode E v b aad seq).2 r f

/-- The rest of encoding, with an IV. -/
def encodeRest (E : Engine) (v : StreamCtx) (b : Bytes) (aad : Option Bytes) (iv : Bytes) (seq : UInt64) : StreamCtx × Option CipherResult :=
  match (streamEvolve E v seq).2 with
  | none => (v, none)
  | some k => ({ v with key := k, lastSeq := seq }, E.encrypt b aad k.cipherKey iv)

theorem hSEncodeRest_view (hE : E.Fits) (c : Rules) (f : Bool) (hc : c.crash)
    (h : Heap) (a p i : Addr) (q : Ptr) (b : Bytes) (aad : Option Bytes) (v : StreamCtx) (iv : Bytes) (n : Nat) (seq : UInt64)
    (hk : ∀ b ∈ v.key.publics, c.pub b) (hi : c.pub iv)
    (hp : ∀ r, (encodeRest E v b aad (iv.take n) seq).2 = some r → ∀ x ∈ r.publics, c.pub x)
    (hb : Has isBuf h p b) (hq : HasOpt isBuf h q aad) :
    Triple c f (isSCtx a v ∗ isCut i (iv, n) ∗ keep h) (hSEncodeRest E (some a) (some p) q (some i) seq)
      (fun r f' => keep h ∗ Asrt.ex fun w => ⌜(w = v ∨ w = (encodeRest E v b aad (iv.take n) seq).1) ∧
        (f' = false ∨ r ≠ none → w = (encodeRest E v b aad (iv.take n) seq).1)⌝ ∗ isSCtx a w ∗
          gives isCRes (encodeRest E v b aad (iv.take n) seq).2 r f') := by
  unfold hSEncodeRest
  sstep hSEvolve_spec hE c f hc a v seq hk
  intro ok f1 hf
  cases ok with
  | false =>
    dsimp only [evolved]
    sintro
    sstep hBufDestroy_cut c _ i iv n hi
    intro r f2 hf2
    sintro
    refine Triple.ret ?_
    rename_i ho _
    have e : f2 = true ∨ encodeRest E v b aad (iv.take n) seq = (v, none) :=
      ho.imp hf2 fun g => by simp [encodeRest, g]
    rcases e with rfl | e
    · sentail
    · rw [e]
      sentail
  | true =>
    dsimp only [evolved]
    sintro
    rename_i k e
    have e1 : encodeRest E v b aad (iv.take n) seq = ({ v with key := k, lastSeq := seq }, E.encrypt b aad k.cipherKey (iv.take n)) := by
      simp [encodeRest, e]
    rw [e1] at hp ⊢
    vgo

theorem hSEncode_view (hE : E.Fits) (hl : ∀ b k h, E.hmac b k .sha512 = some h → h.length = 64) (c : Rules) (f : Bool) (hc : c.crash)
    (h : Heap) (a p : Addr) (q : Ptr) (b : Bytes) (aad : Option Bytes) (v : StreamCtx) (seq : UInt64)
    (hk : ∀ b ∈ v.key.publics, c.pub b) (hi : ∀ i x, v.iv = some i → E.hmac (le64 i.count) i.seed .sha512 = some x → c.pub x)
    (hp : ∀ r, (streamEncode E v b aad seq).2 = some r → ∀ x ∈ r.publics, c.pub x)
    (hb : Has isBuf h p b) (hq : HasOpt isBuf h q aad) :
    Triple c f (isSCtx a v ∗ keep h) (hSEncode E (some a) (some p) q seq)
      (fun r f' => keep h ∗ encodedAs E a v b aad seq r f') := by
  unfold hSEncode
  obtain ⟨k, iv, last, d, ref⟩ := v
  sopen isSCtx
  rename_i hd
  vgo
  · have e : streamEncode E ⟨k, iv, last, d, ref⟩ b aad seq = (⟨k, iv, last, d, ref⟩, none) := by simp [streamEncode, *]
    refine Triple.ret ?_
    dsimp only [encodedAs, isSCtx]
    rw [e]
    sentail
  · rename_i hs
    obtain ⟨hs, rfl⟩ : ¬ seq ≤ last ∧ d = .encode := by simpa [not_or] using hs
    obtain ⟨i, rfl⟩ := Option.isSome_iff_exists.1 (hd.2 rfl)
    sopt1
    · sabsurd
    · rename_i q1
      sstep hSIvGenerate_spec hE hl c f q1 i
      intro r f1 hf1
      cases r with
      | none =>
        dsimp only [ivGen]
        sintro
        rename_i ho
        refine Triple.ret ?_
        dsimp only [encodedAs, isSCtx]
        rcases ho with rfl | e
        · sentail
        · have e : streamEncode E ⟨k, some i, last, .encode, ref⟩ b aad seq = (⟨k, some i, last, .encode, ref⟩, none) := by
            simp [streamEncode, e]
          rw [e]
          sentail
      | some r =>
        dsimp only [ivGen]
        sintro
        rename_i x hx
        have e : streamEncode E ⟨k, some i, last, .encode, ref⟩ b aad seq =
            encodeRest E ⟨k, some { i with count := i.count + 1 }, last, .encode, ref⟩ b aad (x.take i.cipher.ivLen) seq := by
          have g : (some i).bind (streamIvGenerate E) = some (x.take i.cipher.ivLen, { i with count := i.count + 1 }) := by
            simp [streamIvGenerate, hx]
          unfold streamEncode encodeRest
          rw [if_neg (by simpa using hs)]
          simp only [g]
          split <;> simp_all
        refine Triple.conseq (P := isSCtx a ⟨k, some { i with count := i.count + 1 }, last, .encode, ref⟩ ∗ isCut r (x, i.cipher.ivLen) ∗ keep h)
          (hSEncodeRest_view hE c f1 hc h a p r q b aad _ x i.cipher.ivLen seq hk (hi i x rfl hx) (by rw [← e]; exact hp) hb hq) ?_ ?_
        · dsimp only [isSCtx]
          sentail
        · intro r f2 x1 _ hx1
          rw [← e, Asrt.star_comm] at hx1
          rw [Asrt.star_comm]
          refine Asrt.star_mono ?_ hx1
          rintro y ⟨w, hw⟩
          obtain ⟨hw1, hw2⟩ := Asrt.pure_star.1 hw
          exact ⟨w, Asrt.pure_star.2 ⟨⟨hw1.1.elim (fun g => .inr (.inl ⟨i, rfl, g⟩)) (fun g => .inr (.inr g)), hw1.2⟩, hw2⟩⟩

/-- What decoding makes of a stream. -/
def decodedAs (E : Engine) (a : Addr) (v : StreamCtx) (d : CipherResult) (aad : Option Bytes) (seq : UInt64) (r : Ptr) (f : Bool) : Asrt :=
  Asrt.ex fun w => ⌜(w = v ∨ w = (streamDecode E v d aad seq).1) ∧ (f = false ∨ r ≠ none → w = (streamDecode E v d aad seq).1)⌝ ∗ isSCtx a w ∗
    gives isBuf (streamDecode E v d aad seq).2 r f

theorem hSDecode_view (hE : E.Fits) (c : Rules) (f : Bool) (hc : c.crash)
    (h : Heap) (a p : Addr) (q : Ptr) (x : CipherResult) (aad : Option Bytes) (v : StreamCtx) (seq : UInt64)
    (hk : ∀ b ∈ v.key.publics, c.pub b) (hb : Has isCRes h p x) (hq : HasOpt isBuf h q aad) :
    Triple c f (isSCtx a v ∗ keep h) (hSDecode E (some a) (some p) q seq)
      (fun r f' => keep h ∗ decodedAs E a v x aad seq r f') := by
  unfold hSDecode
  obtain ⟨k, iv, last, d, ref⟩ := v
  sopen isSCtx
  rename_i hd
  vgo
  · have e : streamDecode E ⟨k, iv, last, d, ref⟩ x aad seq = (⟨k, iv, last, d, ref⟩, none) := by simp [streamDecode, *]
    refine Triple.ret ?_
    dsimp only [decodedAs, isSCtx]
    rw [e]
    sentail
  · rename_i hs
    refine Triple.conseq (P := isSCtx a ⟨k, iv, last, d, ref⟩ ∗ keep h) ?_ (by dsimp only [isSCtx]; sentail) (fun _ _ _ _ h => h)
    sstep hSEvolve_spec hE c f hc a _ seq hk
    intro ok f1 hf
    cases ok with
    | false =>
      dsimp only [evolved]
      sintro
      refine Triple.ret ?_
      rename_i ho
      have e : f1 = true ∨ streamDecode E ⟨k, iv, last, d, ref⟩ x aad seq = (⟨k, iv, last, d, ref⟩, none) :=
        ho.imp id fun g => by unfold streamDecode; rw [if_neg hs, g]
      dsimp only [decodedAs]
      rcases e with rfl | e
      · sentail
      · rw [e]
        sentail
    | true =>
      dsimp only [evolved]
      sintro
      rename_i k' e
      have e1 : streamDecode E ⟨k, iv, last, d, ref⟩ x aad seq = (⟨k', iv, seq, d, ref⟩, E.decrypt x aad k'.cipherKey true) := by
        unfold streamDecode; rw [if_neg hs, e]
      dsimp only [decodedAs]
      rw [e1]
      vgo

theorem hTRootRandom_spec (c : Rules) (f : Bool) (hc : c.crash) (ci : Cipher) (m n : UInt32) (b : Bytes) (hb : b.length = ci.keyLen) :
    Triple c f emp (hTRootRandom b ci m n) (fun r f' => emp ∗ gives isTRoot (rootKeyCreate b ci m n) r f') := by
  unfold hTRootRandom
  have e : rootKeyCreate b ci m n = some ⟨b, ci, m, n⟩ := by simp [rootKeyCreate, hb]
  have hv : ValidBuf b := ⟨by rw [hb]; cases ci <;> decide, by rw [hb]; cases ci <;> decide⟩
  rw [e]
  vgo

theorem hTRootStream_null (c : Rules) (f : Bool) (p : Addr) (k : CipherKey) (n : UInt32) :
    Triple c f (isCKey p k) (hTRootStream (some p) none n) (fun r _ => ⌜r = none⌝) := by
  unfold hTRootStream hSKeyCreate
  vgo

theorem hTRootStream_spec (c : Rules) (f : Bool) (p q : Addr) (k : CipherKey) (b : Bytes) (n : UInt32) :
    Triple c f (isCKey p k ∗ isBuf q b) (hTRootStream (some p) (some q) n) (fun r f' => emp ∗ gives isSKey (streamKeyCreate k b n none) r f') := by
  unfold hTRootStream
  by_cases hn : ppeMin ≤ n ∧ n ≤ ppeMax
  · rw [streamKeyCreate_ok hn]
    vgo
  · rw [streamKeyCreate_no hn]
    refine Triple.seq (hSKeyCreate_refuse c f p q n none hn) (by frame) ?_
    intro r _ _
    sintro
    subst r
    vgo

theorem hKdfResLen_view {h : Heap} {a : Addr} {r : KdfResult} (hr : Has isKdfRes h a r) : Reads (keep h) (hKdfResLen (some a)) r.hash.length := by
  intro c f
  unfold hKdfResLen
  sview hr isKdfRes
  vgo

theorem hKdfResSection_view (c : Rules) (f : Bool) (h : Heap) (a : Addr) (r : KdfResult) (s n : Nat) (hr : Has isKdfRes h a r) :
    Triple c f (keep h) (hKdfResSection (some a) s n) (fun x f' => keep h ∗ gives isBuf (copySection r.hash s n) x f') := by
  unfold hKdfResSection
  sview hr isKdfRes
  vgo

theorem hTRootSplit_spec (c : Rules) (f : Bool) (hc : c.crash) (a : Addr) (r : KdfResult) (ci : Cipher) (n : UInt32) (hl : r.hash.length = ci.keyLen * 2)
    (hp : ∀ b ∈ r.publics, c.pub b) :
    Triple c f (isKdfRes a r) (hTRootSplit (some a) ci n) (fun x f' => emp ∗ givesN isSKey
      (((copySection r.hash 0 ci.keyLen).bind (cipherKeyCreate ci)).bind fun ck => (copySection r.hash ci.keyLen ci.keyLen).bind fun ek =>
        streamKeyCreate ck ek n none) x f') := by
  have hl' : ci.keyLen = 32 := by cases ci <;> rfl
  have hb : r.hash.length ≤ maxBuffer := by rw [hl, hl']; decide
  have e1 : copySection r.hash 0 ci.keyLen = some (r.hash.take ci.keyLen) := by
    unfold copySection
    rw [if_pos (by simp only [maxBuffer]; omega)]
    rfl
  have e2 : copySection r.hash ci.keyLen ci.keyLen = some ((r.hash.drop ci.keyLen).take ci.keyLen) := by
    unfold copySection
    rw [if_pos (by simp only [maxBuffer]; omega)]
  have h1 : (r.hash.take ci.keyLen).length = ci.keyLen := by rw [List.length_take]; omega
  have e3 : cipherKeyCreate ci (r.hash.take ci.keyLen) = some ⟨ci, r.hash.take ci.keyLen⟩ := if_neg (fun g => g h1)
  simp only [e1, e2, e3, Option.bind_some]
  unfold hTRootSplit
  vgo
  · simp only [show hCKeyCreate ci none = Pure.pure none from rfl]
    unfold onNull
    vgo
  · rename_i ho f3 hf3
    have h3 : f3 = true := hf3 (ho.resolve_right (by simp [e2]))
    refine Triple.conseq (hTRootStream_null c f3 _ _ n) (fun _ h => h) fun x f4 y h4 hy => ?_
    obtain ⟨rfl, hy⟩ := hy
    have h4 := h4 h3
    subst h4
    rw [Asrt.emp_star]
    exact Asrt.pure_star.2 ⟨.inl rfl, trivial⟩

theorem hTRootDerive_view (hE : E.Fits) (c : Rules) (f : Bool) (hc : c.crash) (h : Heap) (a : Addr) (k : RootKey) (salt sid : Bytes) (d : Dir)
    (hl : ∀ x, E.kdf ⟨hkdfSha512, some salt, some sid⟩ k.secret = some x → x.length = k.cipher.keyLen * 2)
    (hk : KdfRules E c ⟨hkdfSha512, some salt, some sid⟩ k.secret) (hi' : c.pub sid) (hx : Has isTRoot h a k) :
    Triple c f (keep h) (hTRootDerive E (some a) salt sid d)
      (fun x f' => keep h ∗ givesN isSKey (rootKeyToStreamKey E k salt sid d) x f') := by
  unfold hTRootDerive
  sview hx isTRoot
  cases hh : E.kdf ⟨hkdfSha512, some salt, some sid⟩ k.secret with
  | none =>
    have e : rootKeyToStreamKey E k salt sid d = none := by simp [rootKeyToStreamKey, hh]
    rw [e]
    vgo
  | some x =>
    unfold rootKeyToStreamKey
    rw [hh, Option.bind_some, if_neg (by simp [hl x hh])]
    have h2 := hl x hh
    have hp : ∀ b ∈ (KdfResult.mk ⟨hkdfSha512, some salt, some sid⟩ x).publics, c.pub b := by
      intro b hb
      cases List.mem_singleton.1 hb
      exact hi'
    have hg : ∀ v, (E.kdf ⟨hkdfSha512, some salt, some sid⟩ k.secret).map (KdfResult.mk ⟨hkdfSha512, some salt, some sid⟩) = some v →
        v = ⟨⟨hkdfSha512, some salt, some sid⟩, x⟩ := by rw [hh]; intro v e; cases e; rfl
    vgo

theorem hTRootToStream_view (hE : E.Fits) (c : Rules) (f : Bool) (hc : c.crash) (h : Heap) (a p q : Addr) (k : RootKey) (salt sid : Bytes) (d : Dir)
    (hl : ∀ x, E.kdf ⟨hkdfSha512, some salt, some sid⟩ k.secret = some x → x.length = k.cipher.keyLen * 2)
    (hk : KdfRules E c ⟨hkdfSha512, some salt, some sid⟩ k.secret) (hi' : c.pub sid) (hx : Has isTRoot h a k) (hs : Has isBuf h p salt) (hi : Has isBuf h q sid) :
    Triple c f (keep h) (hTRootToStream E (some a) (some p) (some q) d)
      (fun x f' => keep h ∗ givesN isSKey (rootKeyToStreamKey E k salt sid d) x f') := by
  unfold hTRootToStream
  have hd := hTRootDerive_view hE c f hc h a k salt sid d hl hk hi' hx
  dsimp only; sread (readBuf_view hs)
  sread (readBuf_view hi)
  exact hd

end Wickr
