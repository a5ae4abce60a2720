import Verif.Lemmas.StreamRead
import Verif.Lemmas.WitnessPair
import Verif.Props.VerifyMem
/-
C92: streams in memory.
-/
namespace Wickr
open Asrt Spec

variable {E : Engine}

/-! ### Making a stream -/

/-- `wickr_stream_ctx_create` takes over the key if, and only if, it makes a stream; the stream is the one of the value model. -/
theorem C92_create (p : Addr) (k : StreamKey) (d : Dir) (seed : Bytes) (hv : ValidBuf seed) :
    Adopts isSKey p k isSCtx (streamCtxCreate k d seed) (hSCtxCreate (some p) d seed) :=
  Adopts.of (sctx_create_vs p k d seed hv)

/-- Nothing is released unwiped except the seed of the IVs, from which the IVs that the packets carry are computed. -/
theorem C92_create_wipes_partial (p : Addr) (k : StreamKey) (d : Dir) (seed : Bytes) (hv : ValidBuf seed) :
    AdoptsDiscreetly isSKey p k [seed] (hSCtxCreate (some p) d seed) :=
  AdoptsDiscreetly.of (sctx_create_vs p k d seed hv) fun _ h => h

example : ∃ (s : St) (a : Addr), s.oom = false ∧ Has isSKey s.heap a exSKey := exists_has (mkSKey_spec _ _ trivial) (by decide +kernel)
example : (streamCtxCreate exSKey .encode [7, 7]).isSome = true := by decide +kernel

/-- With no memory for the structure the IV factory is leaked: stream_ctx.c:24-28. -/
theorem C92_create_leaks : ¬ ∀ p, AdoptsTidily isSKey p exSKey (hSCtxCreate (some p) .encode [7, 7]) := by
  intro h
  obtain ⟨s, a, h1, h2, h3⟩ := run_of (m := fun p => hSCtxCreate p .encode [7, 7]) (args := fun a h => Has isSKey h a exSKey)
    (fun s o => Out.left 10 s o) [11] (mkSKey_spec _ _ trivial) (fun _ _ h => h) (by decide +kernel)
  have := h a (bump [11]) s h1 h2
  revert this h3
  cases hSCtxCreate (some a) .encode [7, 7] (bump [11]) s with
  | ub => exact fun h => nomatch h
  | crash s' => exact fun h => nomatch h
  | ret r s' =>
    cases r with
    | some b => exact fun h => nomatch h
    | none =>
      intro h h'
      dsimp only at h h'
      simp [Out.left, h'] at h

/-! ### Encoding and decoding -/

/-- `wickr_stream_ctx_encode`: with memory the stream and the result are those of the value model; without, there is no result, and
the stream is as it was, or has used up an IV, or is as with memory.  Nothing is leaked, whatever the allocator does. -/
theorem C92_encode (hE : E.Fits) (hL : E.Lawful) (a p : Addr) (q : Ptr) (b : Bytes) (aad : Option Bytes) (v : StreamCtx) (seq : UInt64) :
    Updates (fun h => Has isBuf h p b ∧ HasOpt isBuf h q aad) isSCtx a v (EncodeMay E v b aad seq)
      (streamEncode E v b aad seq).1 isCRes (streamEncode E v b aad seq).2 (hSEncode E (some a) (some p) q seq) :=
  Updates.of (sctx_encode_vs hE hL a p q b aad v seq)

/-- No key is released unwiped: only the user data of the old key, the HMAC whose first bytes are the IV, and a result. -/
theorem C92_encode_wipes (hE : E.Fits) (hL : E.Lawful) (a p : Addr) (q : Ptr) (b : Bytes) (aad : Option Bytes) (v : StreamCtx) (seq : UInt64) :
    UpdatesDiscreetly (fun h => Has isBuf h p b ∧ HasOpt isBuf h q aad) isSCtx a v (encodePubs E v b aad seq)
      (hSEncode E (some a) (some p) q seq) :=
  UpdatesDiscreetly.of (sctx_encode_vs hE hL a p q b aad v seq) fun _ h => h

/-- `wickr_stream_ctx_decode`: the same, and without a result for lack of memory the stream is as it was or as with memory. -/
theorem C92_decode (hE : E.Fits) (a p : Addr) (q : Ptr) (x : CipherResult) (aad : Option Bytes) (v : StreamCtx) (seq : UInt64) :
    Updates (fun h => Has isCRes h p x ∧ HasOpt isBuf h q aad) isSCtx a v (fun w => w = v ∨ w = (streamDecode E v x aad seq).1)
      (streamDecode E v x aad seq).1 isBuf (streamDecode E v x aad seq).2 (hSDecode E (some a) (some p) q seq) :=
  Updates.of (sctx_decode_vs hE a p q x aad v seq)

theorem C92_decode_wipes (hE : E.Fits) (a p : Addr) (q : Ptr) (x : CipherResult) (aad : Option Bytes) (v : StreamCtx) (seq : UInt64) :
    UpdatesDiscreetly (fun h => Has isCRes h p x ∧ HasOpt isBuf h q aad) isSCtx a v v.key.publics (hSDecode E (some a) (some p) q seq) :=
  UpdatesDiscreetly.of (sctx_decode_vs hE a p q x aad v seq) fun _ h => h

/-- A stream beside a buffer in memory, which encodes. -/
example : ∃ (s : St) (h : Heap) (p a : Addr), s.oom = false ∧ Has isBuf h p [1, 2] ∧ (isSCtx a exSCtx ∗ keep h) s.heap :=
  exists_beside (litBuf_spec _ _ trivial [1, 2] (by decide)) (mkSCtx_spec _ _ trivial) (by decide +kernel)
example : (streamEncode toyEngine exSCtx [1, 2] none 70).2.isSome = true ∧ (streamEncode toyEngine exSCtx [1, 2] none 70).1.key ≠ exSKey := by
  decide +kernel

/-- With no memory for the structure of a cipher result NULL is dereferenced: cipher.c:33-34. -/
theorem C92_encode_crashes : ¬ ∀ a p, UpdatesSturdily (fun h => Has isBuf h p [1, 2] ∧ HasOpt isBuf h none none) isSCtx a exSCtx
    (hSEncode toyEngine (some a) (some p) none 70) := by
  intro h
  have hb : (match built2 (litBuf [1, 2]) mkSCtx with
      | some (p, a, s) => (hSEncode toyEngine (some a) (some p) none 70 (bump [38]) s).isCrash
      | none => false) = true := by decide +kernel
  revert hb
  cases e : built2 (litBuf [1, 2]) mkSCtx with
  | none => exact fun h => nomatch h
  | some x =>
    obtain ⟨p, a, s⟩ := x
    obtain ⟨h1, g, h2, h3⟩ := built2_has (litBuf_spec _ _ trivial [1, 2] (by decide)) (mkSCtx_spec _ _ trivial) e
    have := h a p (bump [38]) s g h1 ⟨h2, trivial⟩ h3
    revert this
    dsimp only
    cases hSEncode toyEngine (some a) (some p) none 70 (bump [38]) s with
    | crash s' => exact fun h _ => h s' rfl
    | ub => exact fun _ h => nomatch h
    | ret r s' => exact fun _ h => nomatch h

/-! ### Histories -/

theorem encodeStep_ok (hE : E.Fits) (hL : E.Lawful) {a : Addr} {v w : StreamCtx} {seq : UInt64} {o : Option CipherResult}
    (h : EncodeStep E a v seq o w) : ∃ b aad, EncodeMay E v b aad seq w ∧
      ∀ r, o = some r → w = (streamEncode E v b aad seq).1 ∧ (streamEncode E v b aad seq).2 = some r := by
  obtain ⟨A, s, h, p, q, b, aad, r, s', h1, h2, h3, h4, h5, h6, h7⟩ := h
  have := C92_encode hE hL a p q b aad v seq A s h h1 ⟨h3, h4⟩ h2
  rw [h5] at this
  obtain ⟨w', k1, k2, k3⟩ := this
  refine ⟨b, aad, ?_⟩
  cases r with
  | none =>
    cases o with
    | some _ => exact h7.elim
    | none =>
      cases sctx_unique h6 (Asrt.le_star (Asrt.le_refl _) (Asrt.le_any _) _ k3.2)
      exact ⟨k1, fun _ h => nomatch h⟩
  | some c =>
    obtain ⟨x, kx, k3⟩ := k3
    cases o with
    | none => exact h7.elim
    | some y =>
      cases cres_unique h7 (Asrt.le_star (Asrt.le_refl _) (Asrt.le_any _) _ k3)
      have : w' = w := by
        refine (sctx_unique h6 ?_).symm
        rw [← Asrt.star_assoc, Asrt.star_comm (isCRes _ _), Asrt.star_assoc] at k3
        exact Asrt.le_star (Asrt.le_refl _) (Asrt.le_any _) _ k3
      subst this
      exact ⟨k1, fun r hr => by cases hr; exact ⟨k2 (Or.inr (by simp)), kx⟩⟩

theorem decodeStep_ok (hE : E.Fits) {a : Addr} {v w : StreamCtx} {seq : UInt64} {o : Option Bytes} (h : DecodeStep E a v seq o w) :
    ∃ x aad, (w = v ∨ w = (streamDecode E v x aad seq).1) ∧
      ∀ r, o = some r → w = (streamDecode E v x aad seq).1 ∧ (streamDecode E v x aad seq).2 = some r := by
  obtain ⟨A, s, h, p, q, x, aad, r, s', h1, h2, h3, h4, h5, h6, h7⟩ := h
  have := C92_decode hE a p q x aad v seq A s h h1 ⟨h3, h4⟩ h2
  rw [h5] at this
  obtain ⟨w', k1, k2, k3⟩ := this
  refine ⟨x, aad, ?_⟩
  cases r with
  | none =>
    cases o with
    | some _ => exact h7.elim
    | none =>
      cases sctx_unique h6 (Asrt.le_star (Asrt.le_refl _) (Asrt.le_any _) _ k3.2)
      exact ⟨k1, fun _ h => nomatch h⟩
  | some c =>
    obtain ⟨z, kx, k3⟩ := k3
    cases o with
    | none => exact h7.elim
    | some y =>
      cases buf_unique h7 (Asrt.le_star (Asrt.le_refl _) (Asrt.le_any _) _ k3)
      have : w' = w := by
        refine (sctx_unique h6 ?_).symm
        rw [← Asrt.star_assoc, Asrt.star_comm (isBuf _ _), Asrt.star_assoc] at k3
        exact Asrt.le_star (Asrt.le_refl _) (Asrt.le_any _) _ k3
      subst this
      exact ⟨k1, fun r hr => by cases hr; exact ⟨k2 (Or.inr (by simp)), kx⟩⟩

/-- What encoding does to the factory: nothing and there is no result, or it uses the next value of the counter. -/
theorem encode_factory (hL : E.Lawful) {v w : StreamCtx} {b : Bytes} {aad : Option Bytes} {seq : UInt64} {i : StreamIv} (hi : v.iv = some i)
    (hm : EncodeMay E v b aad seq w) :
    (w.iv = some i ∨ w.iv = some { i with count := i.count + 1 }) ∧
    ∀ r, w = (streamEncode E v b aad seq).1 → (streamEncode E v b aad seq).2 = some r →
      w.iv = some { i with count := i.count + 1 } ∧ some r.iv = factoryIv E i i.count.toNat := by
  have key : ∀ r, (streamEncode E v b aad seq).2 = some r →
      (streamEncode E v b aad seq).1.iv = some { i with count := i.count + 1 } ∧ some r.iv = factoryIv E i i.count.toNat := by
    intro r hr
    unfold streamEncode at hr ⊢
    split at hr
    · exact nomatch hr
    · rename_i h1
      rw [if_neg h1]
      simp only [hi, Option.bind_some, streamIvGenerate] at hr ⊢
      cases hh : E.hmac (le64 i.count) i.seed .sha512 with
      | none => rw [hh] at hr; exact nomatch hr
      | some h =>
        rw [hh] at hr
        simp only [Option.map_some] at hr ⊢
        revert hr
        cases (streamEvolve E { v with iv := some { i with count := i.count + 1 } } seq).2 with
        | none => exact fun h => nomatch h
        | some k =>
          intro hr
          refine ⟨rfl, ?_⟩
          rw [(hL.enc_out _ _ _ _ _ hr).2]
          simp [factoryIv, hh]
  refine ⟨?_, fun r hw hr => hw ▸ key r hr⟩
  rcases hm with rfl | ⟨j, hj, rfl⟩ | rfl
  · exact Or.inl hi
  · cases hi.symm.trans hj; exact Or.inr rfl
  · unfold streamEncode
    split
    · exact Or.inl hi
    · simp only [hi, Option.bind_some, streamIvGenerate]
      cases E.hmac (le64 i.count) i.seed .sha512 with
      | none => exact Or.inl hi
      | some h =>
        simp only [Option.map_some]
        split
        · exact Or.inr rfl
        · exact Or.inr rfl

/-- In every history of calls of `wickr_stream_ctx_encode` on a stream in memory, of any length up to the capacity of the counter and
whichever allocations fail, the IVs of the results come in order from strictly increasing values of the counter. -/
theorem C92_iv_counters_increase (hE : E.Fits) (hL : E.Lawful) {a : Addr} {v w : StreamCtx} {os : List (UInt64 × Option CipherResult)}
    (h : History (EncodeStep E a) v os w) {i : StreamIv} (hi : v.iv = some i) (hc : i.count.toNat + os.length < 2 ^ 64) :
    ∃ idx : List Nat, idx.Pairwise (· < ·) ∧ (∀ n ∈ idx, i.count.toNat ≤ n ∧ n < i.count.toNat + os.length) ∧
      (os.filterMap (·.2)).map (fun r => some r.iv) = idx.map (factoryIv E i) := by
  induction h generalizing i with
  | none v => exact ⟨[], List.Pairwise.nil, by simp, rfl⟩
  | @call v w u seq o os hs _ ih =>
    obtain ⟨b, aad, hm, ho⟩ := encodeStep_ok hE hL hs
    obtain ⟨k1, k2⟩ := encode_factory hL hi hm
    rw [List.length_cons] at hc
    have hadd : (i.count + 1).toNat = i.count.toNat + 1 := by
      rw [UInt64.toNat_add]; show (i.count.toNat + 1) % _ = _; omega
    have up : w.iv = some { i with count := i.count + 1 } → ∃ idx : List Nat, idx.Pairwise (· < ·) ∧
        (∀ n ∈ idx, i.count.toNat + 1 ≤ n ∧ n < i.count.toNat + 1 + os.length) ∧
        (os.filterMap (·.2)).map (fun r => some r.iv) = idx.map (factoryIv E i) := by
      intro hw
      obtain ⟨idx, h1, h2, h3⟩ := ih hw (by simp only [hadd]; omega)
      exact ⟨idx, h1, by simpa only [hadd] using h2, h3⟩
    cases o with
    | none =>
      simp only [List.filterMap_cons_none, List.length_cons]
      rcases k1 with k1 | k1
      · obtain ⟨idx, h1, h2, h3⟩ := ih k1 (by omega)
        exact ⟨idx, h1, fun n hn => by have := h2 n hn; omega, h3⟩
      · obtain ⟨idx, h1, h2, h3⟩ := up k1
        exact ⟨idx, h1, fun n hn => by have := h2 n hn; omega, h3⟩
    | some r =>
      obtain ⟨hw, hr⟩ := ho r rfl
      obtain ⟨k2, k3⟩ := k2 r hw hr
      obtain ⟨idx, h1, h2, h3⟩ := up k2
      refine ⟨i.count.toNat :: idx, List.pairwise_cons.2 ⟨fun n hn => by have := h2 n hn; omega, h1⟩, ?_, ?_⟩
      · intro n hn
        simp only [List.length_cons]
        rcases List.mem_cons.1 hn with rfl | hn
        · omega
        · have := h2 n hn; omega
      · simp only [List.filterMap_cons, List.map_cons, h3, k3]

/-- A run of encoding on the stream of the example. -/
theorem encodeStep_exists (fail : List Nat) (want : Bool)
    (hb : (match built2 (litBuf [1, 2]) mkSCtx with
      | some (p, a, s) => (match hSEncode toyEngine (some a) (some p) none 70 (bump fail) s with
        | .ret r _ => r.isSome == want
        | _ => false)
      | none => false) = true) : ∃ a o w, EncodeStep toyEngine a exSCtx 70 o w ∧ o.isSome = want := by
  revert hb
  cases e : built2 (litBuf [1, 2]) mkSCtx with
  | none => exact fun h => nomatch h
  | some x =>
    obtain ⟨p, a, s⟩ := x
    obtain ⟨h1, h, h2, h3⟩ := built2_has (litBuf_spec _ _ trivial [1, 2] (by decide)) (mkSCtx_spec _ _ trivial) e
    have := C92_encode toyEngine_fits toyEngine_lawful a p none [1, 2] none exSCtx 70 (bump fail) s h h1 ⟨h2, trivial⟩ h3
    revert this
    dsimp only
    cases hr : hSEncode toyEngine (some a) (some p) none 70 (bump fail) s with
    | ub => exact fun h => h.elim
    | crash s' => exact fun _ h => nomatch h
    | ret r s' =>
      rintro ⟨w, -, -, k⟩ hb
      cases r with
      | none =>
        refine ⟨a, none, w, ⟨bump fail, s, h, p, none, [1, 2], none, none, s', h1, h3, h2, trivial, hr, ?_, trivial⟩, by simpa using hb⟩
        exact Asrt.le_star (Asrt.le_refl _) (Asrt.le_any _) _ k.2
      | some c =>
        obtain ⟨x, -, k⟩ := k
        refine ⟨a, some x, w, ⟨bump fail, s, h, p, none, [1, 2], none, some c, s', h1, h3, h2, trivial, hr, ?_, ?_⟩, by simpa using hb⟩
        · rw [← Asrt.star_assoc, Asrt.star_comm (isCRes _ _), Asrt.star_assoc] at k
          exact Asrt.le_star (Asrt.le_refl _) (Asrt.le_any _) _ k
        · exact Asrt.le_star (Asrt.le_refl _) (Asrt.le_any _) _ k

/-- There are calls that succeed and calls that fail for lack of memory. -/
example : ∃ a o w, EncodeStep toyEngine a exSCtx 70 o w ∧ o.isSome = true := encodeStep_exists [] true (by decide +kernel)
example : ∃ a o w, EncodeStep toyEngine a exSCtx 70 o w ∧ o.isSome = false := encodeStep_exists [20] false (by decide +kernel)
example : ∀ m n, m < n → n < 9 → 5 ≤ m → factoryIv toyEngine exSIv m ≠ factoryIv toyEngine exSIv n := by
  intro m n h1 h2 h3
  have : m = 5 ∨ m = 6 ∨ m = 7 := by omega
  have : n = 6 ∨ n = 7 ∨ n = 8 := by omega
  rcases ‹m = 5 ∨ _› with rfl | rfl | rfl <;> rcases ‹n = 6 ∨ _› with rfl | rfl | rfl <;> first | omega | decide +kernel

/-- So no IV is used twice, even if packets are encoded again after there was no memory, if the factory makes distinct IVs of the
values of the counter. -/
theorem C92_ivs_distinct (hE : E.Fits) (hL : E.Lawful) {a : Addr} {v w : StreamCtx} {os : List (UInt64 × Option CipherResult)}
    (h : History (EncodeStep E a) v os w) {i : StreamIv} (hi : v.iv = some i) (hc : i.count.toNat + os.length < 2 ^ 64)
    (hd : ∀ m n, i.count.toNat ≤ m → m < n → n < i.count.toNat + os.length → factoryIv E i m ≠ factoryIv E i n) :
    ((os.filterMap (·.2)).map (·.iv)).Nodup := by
  obtain ⟨idx, h1, h2, h3⟩ := C92_iv_counters_increase hE hL h hi hc
  have h4 : ((os.filterMap (·.2)).map (fun r => some r.iv)).Nodup := by
    rw [h3]
    refine List.pairwise_map.2 (h1.imp_of_mem fun {m n} hm hn hlt => ?_)
    exact hd m n (h2 m hm).1 hlt (h2 n hn).2
  refine List.pairwise_map.2 ((List.pairwise_map.1 h4).imp fun hne he => hne ?_)
  rw [he]

/-- In every history of calls of `wickr_stream_ctx_decode` on a stream in memory, whichever allocations fail, the sequence numbers of
the packets that are accepted strictly increase: none is accepted twice. -/
theorem C92_no_replay (hE : E.Fits) {a : Addr} {v w : StreamCtx} {os : List (UInt64 × Option Bytes)} (h : History (DecodeStep E a) v os w) :
    ((os.filter (·.2.isSome)).map (·.1)).Pairwise (· < ·) ∧ ∀ n ∈ (os.filter (·.2.isSome)).map (·.1), v.lastSeq < n := by
  induction h with
  | none v => exact ⟨List.Pairwise.nil, by simp⟩
  | @call v w u seq o os hs _ ih =>
    obtain ⟨x, aad, hm, ho⟩ := decodeStep_ok hE hs
    have mono : ((streamDecode E v x aad seq).1 = v ∧ (streamDecode E v x aad seq).2 = none) ∨
        (v.lastSeq < seq ∧ (streamDecode E v x aad seq).1.lastSeq = seq) := by
      unfold streamDecode
      split
      · exact Or.inl ⟨rfl, rfl⟩
      · rename_i h1
        have h2 : v.lastSeq < seq := by
          rcases UInt64.lt_or_le v.lastSeq seq with h | h
          · exact h
          · exact absurd (Or.inl h) h1
        split
        · exact Or.inl ⟨rfl, rfl⟩
        · exact Or.inr ⟨h2, rfl⟩
    have hle : v.lastSeq ≤ w.lastSeq := by
      rcases hm with rfl | rfl
      · exact UInt64.le_refl _
      · rcases mono with h | h
        · rw [h.1]; exact UInt64.le_refl _
        · rw [h.2]; exact UInt64.le_of_lt h.1
    cases o with
    | none => exact ⟨by simpa using ih.1, fun n hn => UInt64.lt_of_le_of_lt hle (ih.2 n (by simpa using hn))⟩
    | some r =>
      obtain ⟨hw, hr⟩ := ho r rfl
      have hs : v.lastSeq < seq ∧ w.lastSeq = seq := by
        rcases mono with h | h
        · exact nomatch h.2.symm.trans hr
        · rw [hw]; exact h
      simp only [List.filter_cons, Option.isSome_some, if_true, List.map_cons, List.pairwise_cons, List.mem_cons]
      refine ⟨⟨fun n hn => hs.2 ▸ ih.2 n hn, ih.1⟩, ?_⟩
      rintro n (rfl | hn)
      · exact hs.1
      · exact UInt64.lt_of_le_of_lt hle (ih.2 n hn)

end Wickr
