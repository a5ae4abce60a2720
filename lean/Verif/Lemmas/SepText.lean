import Verif.Lemmas.SepArr
import Verif.Lemmas.SepFun
import Verif.Lemmas.Base32
import Verif.Lemmas.BaseN2
import Verif.Props.BaseN
import Verif.Props.EcdsaRaw
import Verif.Spec.ReprText
/-
Texts and fingerprints on the heap.
-/
namespace Wickr
open Asrt Spec

variable {E : Engine}

theorem writeAt_spec (c : Rules) (f : Bool) (a : Addr) (d : Bytes) (off : Nat) (b : Bytes) (ho : off + b.length ≤ d.length) :
    Triple c f (a ↦ .bytes d) (writeAt (some a) off b)
      (fun _ _ => a ↦ .bytes (d.take off ++ b ++ d.drop (off + b.length))) := by
  unfold writeAt
  sread loadBytes_reads a d
  unfold memWrite
  rw [if_pos ho]
  dsimp only
  exact store_spec c f a _ _

theorem readText_keep {a : Addr} {t : CBuf} {h : Heap} (hb : isText a t h) : Reads (keep h) (readText (some a)) t := by
  intro c f
  unfold readText
  skeep hb isText
  sread loadObj_reads a _ _
  sread loadBytes_reads _ _
  exact Triple.ret fun h' hh => Asrt.pure_star.2 ⟨⟨rfl, rfl⟩, hh⟩

theorem readText_view {h : Heap} {a : Addr} {t : CBuf} (hb : Has isText h a t) : Reads (keep h) (readText (some a)) t :=
  Reads.view (fun _ hx => readText_keep hx) hb


/-- What a new block of bytes holds. -/
abbrev newCell (n : Nat) (z : Bool) : Cell := if z then .bytes (List.replicate n 0) else .raw n

/-- A new buffer that is tested. -/
theorem Triple.onNew {α : Type} {c : Rules} {f : Bool} {n : Nat} {z : Bool} {F : Asrt} {bad : H α} {k : Ptr → H α} {R : α → Bool → Asrt}
    (hbad : ∀ f', (f = true → f' = true) → (f' = true ∨ ¬ (0 < n ∧ n ≤ maxBuffer)) → Triple c f' F bad R)
    (hk : ∀ f' r q, (f = true → f' = true) → 0 < n → n ≤ maxBuffer →
      Triple c f' ((r ↦ .obj (.len n) [some q]) ∗ (q ↦ newCell n z) ∗ F) (k (some r)) R) :
    Triple c f F (Wickr.onNull (hBufNew n z) bad k) R := by
  unfold Wickr.onNull
  refine Triple.seq (hBufNew_spec c f n z) (by frame) fun r f' hf => ?_
  cases r with
  | none => exact Triple.pure fun h => hbad f' hf h
  | some r =>
    dsimp only
    rw [Asrt.star_assoc]
    refine Triple.pure fun hv => ?_
    rw [Asrt.ex_star]
    refine Triple.ex fun q => ?_
    rw [Asrt.star_assoc]
    exact hk f' r q hf hv.1 hv.2

/-! ### Texts -/

theorem Res.toOption_null {α : Type _} : (Res.null : Res α).toOption = none := rfl
theorem Res.toOption_ok {α : Type _} (a : α) : (Res.ok a).toOption = some a := rfl


theorem hexEncode_opt (fill : Nat → UInt8) (b : Bytes) :
    (hexEncode fill (some b)).toOption = if b.length * 2 + 1 > maxBuffer then none else some ⟨hexText b ++ [0], b.length * 2⟩ := by
  unfold hexEncode
  dsimp only
  split
  · rfl
  · unfold memWrite
    simp [hexText_length, Res.bind, Res.toOption]

theorem hHex_view (c : Rules) (f : Bool) (fill : Nat → UInt8) (h : Heap) (a : Addr) (b : Bytes) (hb : Has isBuf h a b) :
    Triple c f (keep h) (hHex (some a)) (fun r f' => keep h ∗ gives isText (hexEncode fill (some b)).toOption r f') := by
  rw [hexEncode_opt]
  unfold hHex
  sgo1
  refine Triple.onNew (fun f' _ hf => ?_) fun f' r q _ h0 h1 => ?_
  · have : f' = true ∨ (if b.length * 2 + 1 > maxBuffer then none else some (⟨hexText b ++ [0], b.length * 2⟩ : CBuf)) = none := by
      rcases hf with h | h
      · exact Or.inl h
      · exact Or.inr (if_pos (by omega))
    vgo
  · rw [if_neg (by omega)]
    have hl : (hexText b ++ [0]).length = b.length * 2 + 1 := by simp [hexText_length]
    simp only [newCell, Bool.false_eq_true, if_false]
    rw [← hl]
    sgo1
    sstep fill_spec _ _ _ _
    intro _ _ _
    have : b.length * 2 ≤ (hexText b ++ [0]).length := by omega
    vgo

theorem hexPairs_length : ∀ (m : Bytes) (n : Nat), strlen m = .ok n → (hexPairs m).length = n / 2
  | [], n, h => by simp [strlen] at h
  | [a], n, h => by
    unfold strlen at h
    split at h
    · simp at h; subst h; rfl
    · simp [strlen, Res.bind] at h
  | a :: b :: m, n, h => by
    simp only [strlen] at h
    by_cases ha : a = 0
    · simp [ha] at h; subst h; simp [hexPairs, ha]
    · rw [if_neg ha] at h
      by_cases hb : b = 0
      · simp [hb, Res.bind] at h; subst h; simp [hexPairs, hb]
      · rw [if_neg hb] at h
        cases hs : strlen m with
        | ub => simp [hs, Res.bind] at h
        | null => simp [hs, Res.bind] at h
        | ok k =>
          simp [hs, Res.bind] at h
          subst h
          have := hexPairs_length m k hs
          simp [hexPairs, ha, hb, this]
          omega

theorem strlen_not_null : ∀ m : Bytes, strlen m ≠ .null
  | [] => by simp [strlen]
  | a :: m => by
    have := strlen_not_null m
    unfold strlen
    split
    · simp
    · cases h : strlen m <;> simp_all [Res.bind]

theorem hUnhex_view (c : Rules) (f : Bool) (h : Heap) (a : Addr) (t : CBuf) (hb : Has isText h a t) (hu : hexDecode (some t) ≠ .ub) :
    Triple c f (keep h) (hUnhex (some a)) (fun r f' => keep h ∗ gives isBuf (hexDecode (some t)).toOption r f') := by
  unfold hUnhex
  sread readText_view hb
  unfold hexDecode at hu ⊢
  dsimp only at hu ⊢
  cases hs : strlen t.mem with
  | ub => simp [hs, Res.bind] at hu
  | null => exact absurd hs (strlen_not_null _)
  | ok n =>
    have hl := hexPairs_length _ _ hs
    dsimp only [Res.bind]
    refine Triple.onNew (fun f' _ hf => ?_) fun f' r q _ h0 h1 => ?_
    · have : f' = true ∨ (if n / 2 = 0 ∨ n / 2 > maxBuffer then (.null : Res Bytes) else
          memWrite (List.replicate (n / 2) 0) 0 (hexPairs t.mem)).toOption = none := by
        rcases hf with h | h
        · exact Or.inl h
        · rw [if_pos (by omega)]; exact Or.inr rfl
      vgo
    · rw [if_neg (by omega)]
      have hv : ValidBuf (hexPairs t.mem) := by unfold ValidBuf; omega
      have hm : memWrite (List.replicate (n / 2) 0) 0 (hexPairs t.mem) = .ok (hexPairs t.mem) := by
        unfold memWrite
        simp [hl]
      simp only [hm, newCell, Bool.false_eq_true, if_false]
      rw [← hl]
      sgo1
      sstep fill_spec _ _ _ _
      intro _ _ _
      vgo

theorem hBase64_view (c : Rules) (f : Bool) (fill : Nat → UInt8) (h : Heap) (a : Addr) (b : Bytes) (hb : Has isBuf h a b) :
    Triple c f (keep h) (hBase64 (some a)) (fun r f' => keep h ∗ gives isText (base64Encode fill (some b)).toOption r f') := by
  have hv := has_valid hb
  have h0 : b.length ≠ 0 := by have := hv.1; omega
  have hn : strlen (b64Text b ++ [0]) = .ok (b64Text b).length := strlen_append _ [] (b64Text_nonzero b)
  have he : (base64Encode fill (some b)).toOption = if ((b.length + 2) / 3) * 4 + 1 > maxBuffer then none
      else some ⟨b64Text b ++ [0], (b64Text b).length⟩ := by
    unfold base64Encode
    dsimp only
    rw [if_neg h0]
    split
    · rfl
    · have hm : memWrite ((List.range (((b.length + 2) / 3) * 4 + 1)).map fill) 0 (b64Text b ++ [0]) = .ok (b64Text b ++ [0]) := by
        unfold memWrite
        simp [b64Text_length]
      simp only [hm, Res.bind, hn]
      rfl
  rw [he]
  unfold hBase64
  sgo1
  rw [if_neg h0]
  have hl := b64Text_length b
  refine Triple.onNew (fun f' _ hf => ?_) fun f' r q _ h0 h1 => ?_
  · have : f' = true ∨ (if ((b.length + 2) / 3) * 4 + 1 > maxBuffer then none
      else some (⟨b64Text b ++ [0], (b64Text b).length⟩ : CBuf)) = none := by
      rcases hf with h | h
      · exact Or.inl h
      · exact Or.inr (if_pos (by omega))
    vgo
  · rw [if_neg (by omega)]
    have hl : (b64Text b ++ [0]).length = ((b.length + 2) / 3) * 4 + 1 := by simp [b64Text_length]
    simp only [newCell, Bool.false_eq_true, if_false]
    rw [← hl]
    sgo1
    sstep fill_spec _ _ _ _
    intro _ _ _
    sread loadBytes_reads _ _
    rw [hn]
    dsimp only
    have : (b64Text b).length ≤ (b64Text b ++ [0]).length := by simp
    vgo

theorem storeByte_ok {m m' : Bytes} {i : Nat} {v : UInt8} (h : storeByte m i v = .ok m') : i < m.length ∧ m'.length = m.length := by
  unfold storeByte at h
  split at h
  · simp at h; subst h; simp [*]
  · simp at h

theorem orByte_ok {m m' : Bytes} {i : Nat} {v : UInt8} (h : orByte m i v = .ok m') : i < m.length ∧ m'.length = m.length := by
  unfold orByte at h
  split at h
  · simp at h
  · rename_i x hx
    simp at h
    subst h
    exact ⟨(List.getElem?_eq_some_iff.1 hx).1, by simp⟩

theorem b64Put_ok {v : UInt8} {i j j' : Nat} {m m' : Bytes} (h : b64Put v i j m = .ok (j', m')) : m'.length = m.length ∧ j' ≤ m.length := by
  unfold b64Put at h
  split at h
  · cases h1 : storeByte m j (v <<< 2) <;> simp [h1, Res.bind] at h
    obtain ⟨rfl, rfl⟩ := h
    have := storeByte_ok h1
    omega
  · split at h
    · cases h1 : orByte m j (v >>> 4) <;> simp [h1, Res.bind] at h
      rename_i o
      cases h2 : storeByte o (j + 1) ((v &&& 0x0f) <<< 4) <;> simp [h2] at h
      obtain ⟨rfl, rfl⟩ := h
      have := orByte_ok h1
      have := storeByte_ok h2
      omega
    · split at h
      · cases h1 : orByte m j (v >>> 2) <;> simp [h1, Res.bind] at h
        rename_i o
        cases h2 : storeByte o (j + 1) ((v &&& 0x03) <<< 6) <;> simp [h2] at h
        obtain ⟨rfl, rfl⟩ := h
        have := orByte_ok h1
        have := storeByte_ok h2
        omega
      · cases h1 : orByte m j v <;> simp [h1, Res.bind] at h
        obtain ⟨rfl, rfl⟩ := h
        have := orByte_ok h1
        omega

theorem b64Loop_ok : ∀ (mem : Bytes) (n i j : Nat) (out : Bytes) (s : B64State), b64Loop mem n i j out = .ok s → j ≤ out.length →
    s.out.length = out.length ∧ s.j ≤ out.length
  | [], _, _, _, _, _, h, _ => by simp [b64Loop] at h
  | c :: rest, n, i, j, out, s, h, hj => by
    unfold b64Loop at h
    split at h
    · simp at h; subst h; exact ⟨rfl, hj⟩
    · split at h
      · split at h
        · simp at h
        · split at h
          · simp at h
          · exact b64Loop_ok _ _ _ _ _ _ h hj
      · split at h
        · simp at h
        · dsimp only at h
          split at h
          · exact b64Loop_ok _ _ _ _ _ _ h hj
          · split at h
            · simp at h
            · cases hp : b64Put (UInt8.ofNat (b64DecTable.getD c.toNat (-2)).toNat) i j out with
              | ub => rw [hp] at h; simp [Res.bind] at h
              | null => rw [hp] at h; simp [Res.bind] at h
              | ok x =>
                rw [hp] at h
                have h1 := b64Put_ok hp
                have h2 := b64Loop_ok _ _ _ _ _ _ h (by omega)
                omega

theorem b64Finish_ok {s : B64State} {o : Bytes} (h : b64Finish s = .ok o) : o.length = s.out.length := by
  unfold b64Finish at h
  split at h
  · split at h
    · simp at h
    · split at h
      · exact (storeByte_ok h).2
      · split at h
        · exact (storeByte_ok h).2
        · simp at h; rw [h]
  · simp at h; rw [h]

/-- Releasing a buffer that holds only zeros. -/
theorem destroyZeros (c : Rules) (f : Bool) (r q : Addr) (n m : Nat) :
    Triple c f ((r ↦ .obj (.len m) [some q]) ∗ (q ↦ .bytes (List.replicate n 0))) (hBufDestroy (some r)) (fun x _ => ⌜x = none⌝) := by
  unfold hBufDestroy
  dsimp only
  sgo1
  sstep free_bytes c f q _ (Or.inl fun x hx => (List.mem_replicate.1 hx).2)
  intro _ _ _
  vgo

theorem hUnbase64_view (c : Rules) (f : Bool) (h : Heap) (a : Addr) (t : CBuf) (hb : Has isText h a t) (hu : base64Decode (some t) ≠ .ub) :
    Triple c f (keep h) (hUnbase64 (some a)) (fun r f' => keep h ∗ gives isSlack (base64Decode (some t)).toOption r f') := by
  unfold hUnbase64
  sread readText_view hb
  unfold base64Decode at hu ⊢
  dsimp only at hu ⊢
  cases hs : strlen t.mem with
  | ub => simp [hs, Res.bind] at hu
  | null => exact absurd hs (strlen_not_null _)
  | ok n0 =>
    simp only [hs, Res.bind] at hu ⊢
    generalize hn : (if n0 > t.length then t.length else n0) = n at hu ⊢
    refine Triple.onNew (fun f' _ hf => ?_) fun f' r q _ h0 h1 => ?_
    · rcases hf with h | h
      · vgo
      · rw [if_pos (by omega), Res.toOption_null]
        vgo
    · rw [if_neg (by omega)] at hu ⊢
      simp only [newCell, if_true]
      sgo1
      sread loadBytes_reads _ _
      cases hl : b64Loop t.mem n 0 0 (List.replicate n 0) with
      | ub => simp [hl] at hu
      | null =>
        dsimp only
        rw [Res.toOption_null]
        sstep destroyZeros _ _ _ _ _ _
        intro r _ _
        sintro
        rename_i hr
        subst hr
        vgo
      | ok s =>
        have h2 := b64Loop_ok _ _ _ _ _ _ hl (Nat.zero_le _)
        simp only [hl] at hu ⊢
        cases hk : b64Finish s with
        | ub => simp [hk] at hu
        | null =>
          dsimp only
          rw [Res.toOption_null]
          sstep destroyZeros _ _ _ _ _ _
          intro _ _ _
          sintro
          vgo
        | ok out =>
          have h3 := b64Finish_ok hk
          dsimp only
          simp only [List.length_replicate] at h2
          sstep writeAt_spec _ _ q (List.replicate n 0) 0 out (by simp; omega)
          intro _ _ _
          have e : (List.replicate n (0 : UInt8)).take 0 ++ out ++ (List.replicate n 0).drop (0 + out.length) = out := by
            simp; omega
          rw [e]
          sgo1
          rw [Res.toOption_ok]
          have h4 : CBuf.content ⟨out, s.j⟩ = out.take s.j := rfl
          have h5 : s.j ≤ out.length := by omega
          vgo

/-- The text of a buffer. -/
theorem base32_facts (b : Bytes) (hv : ValidBuf b) :
    ∃ t : Bytes, (b32EncodeLength (UInt64.ofNat b.length)).toNat = t.length ∧ b32EncodeMap (b32Digits b) = some t ∧
      (b32Digits b).length = t.length ∧
      base32Encode (some b) = if canAlloc (b32EncodeLength (UInt64.ofNat b.length)) then .ok t else .null := by
  have hmb := maxBuffer_val
  have hl := enclen b.length (by have := hv.2; omega)
  have hd := b32Digits_length b
  have hm := b32EncodeMap_eq (b32Digits b) (b32Digits_lt b)
  refine ⟨_, ?_, hm, by simp, ?_⟩
  · simp [hl, hd]
  · unfold base32Encode
    dsimp only
    by_cases hc : canAlloc (b32EncodeLength (UInt64.ofNat b.length)) = true
    · rw [hc, b32EncodeAll_eq]
      have hw : memWrite (List.replicate (b32EncodeLength (UInt64.ofNat b.length)).toNat 0) 0 (b32Digits b) = .ok (b32Digits b) := by
        unfold memWrite
        rw [if_pos (by simp [hl, hd])]
        simp [hl, hd]
      simp only [Bool.not_true, Bool.false_eq_true, if_false, if_true, hw, Res.bind, hm]
    · simp [hc]

theorem hBase32_view (c : Rules) (f : Bool) (h : Heap) (a : Addr) (b : Bytes) (hb : Has isBuf h a b) :
    Triple c f (keep h) (hBase32 (some a)) (fun r f' => keep h ∗ gives isBuf (base32Encode (some b)).toOption r f') := by
  have hv := has_valid hb
  obtain ⟨t, h1, h2, h3, h4⟩ := base32_facts b hv
  rw [h4]
  unfold hBase32
  sgo1
  have hc := canAlloc_iff (b32EncodeLength (UInt64.ofNat b.length))
  rw [h1] at hc
  rw [h1]
  refine Triple.onNew (fun f' _ hf => ?_) fun f' r q _ h5 h6 => ?_
  · rcases hf with h | h
    · vgo
    · rw [if_neg (by rw [hc]; exact h), Res.toOption_null]
      vgo
  · rw [if_pos (hc.2 ⟨h5, h6⟩), Res.toOption_ok, b32EncodeAll_eq]
    simp only [newCell, if_true]
    sgo1
    sstep writeAt_spec _ _ q (List.replicate t.length 0) 0 (b32Digits b) (by simp; omega)
    intro _ _ _
    have e : (List.replicate t.length (0 : UInt8)).take 0 ++ b32Digits b ++ (List.replicate t.length 0).drop (0 + (b32Digits b).length) =
        b32Digits b := by
      simp; omega
    rw [e]
    sread loadBytes_reads _ _
    rw [h2]
    dsimp only
    sstep writeAt_spec _ _ q (b32Digits b) 0 t (by omega)
    intro _ _ _
    have e : (b32Digits b).take 0 ++ t ++ (b32Digits b).drop (0 + t.length) = t := by
      simp [← h3]
    rw [e]
    have : ValidBuf t := ⟨h5, h6⟩
    vgo

/-! ### Fingerprints -/

theorem hPubFixed_view (c : Rules) (f : Bool) (h : Heap) (a : Addr) (k : EcKey) (hk : Has isKey h a k) :
    Triple c f (keep h) (hPubFixed (some a)) (fun r f' => keep h ∗ gives isBuf (ecKeyPubFixed k) r f') := by
  obtain ⟨cv, pub, pri⟩ := k
  unfold hPubFixed ecKeyPubFixed
  sview hk isKey
  rename Has isBuf _ _ _ => hp
  have hv := has_valid hp
  have hd : dup pub = some pub := by unfold dup; simp [hv]
  have hm : cv.maxPub = 134 := by cases cv; rfl
  have hmb := maxBuffer_val
  simp only [hd]
  sgo1
  sgo1
  sgo1
  by_cases h1 : pub.length = cv.maxPub
  · simp only [h1, if_true]
    vgo
  · by_cases h2 : pub.length > cv.maxPub
    · simp only [if_neg h1, if_pos h2]
      vgo
    · simp only [if_neg h1, if_neg h2]
      refine Triple.onNew (fun f' _ hf => ?_) fun f' r q _ h5 h6 => ?_
      · have hf : f' = true := by rcases hf with h | h; exact h; omega
        vgo
      · simp only [newCell, if_true]
        sgo1
        sstep writeAt_spec _ _ q (List.replicate cv.maxPub 0) 0 pub (by simp; omega)
        intro _ _ _
        have e : (List.replicate cv.maxPub (0 : UInt8)).take 0 ++ pub ++ (List.replicate cv.maxPub 0).drop (0 + pub.length) =
            pub ++ List.replicate (cv.maxPub - pub.length) 0 := by
          simp
        rw [e]
        have hl : (pub ++ List.replicate (cv.maxPub - pub.length) (0 : UInt8)).length = cv.maxPub := by simp; omega
        have : ValidBuf (pub ++ List.replicate (cv.maxPub - pub.length) (0 : UInt8)) := by unfold ValidBuf; omega
        generalize pub ++ List.replicate (cv.maxPub - pub.length) (0 : UInt8) = w at *
        rw [← hl]
        vgo

theorem hFpCreate_spec (c : Rules) (f : Bool) (q : Addr) (b : Bytes) :
    Triple c f (isBuf q b) (hFpCreate (some q)) (orKeep (isBuf q b) isFp b) := by
  unfold hFpCreate
  vgo

theorem hFpDestroy_spec {c : Rules} {a : Addr} {b : Bytes} (hb : c.pub b) : Destroys c (isFp a b) (hFpDestroy (some a)) := by
  intro f
  unfold hFpDestroy
  sopen isFp
  vgo

theorem hFpCopy_view (c : Rules) (f : Bool) (h : Heap) (a : Addr) (b : Bytes) (hp : c.pub b) (hk : Has isFp h a b) :
    Triple c f (keep h) (hFpCopy (some a)) (fun r f' => keep h ∗ fresh isFp b r f') := by
  unfold hFpCopy
  sview hk isFp
  vgo

theorem hFpSha_view (hE : E.Fits) (c : Rules) (f : Bool) (hc : c.crash) (h : Heap) (a : Addr) (b : Bytes)
    (hp : ∀ d, E.digest b none .sha512 = some d → c.pub d) (hk : Has isBuf h a b) :
    Triple c f (keep h) (hFpSha E (some a)) (fun r f' => keep h ∗ gives isFp (E.digest b none .sha512) r f') := by
  unfold hFpSha
  vgo

theorem hFpEncode_view (hE : E.Fits) (c : Rules) (f : Bool) (hc : c.crash) (h : Heap) (a p : Addr) (x y : Bytes)
    (hp : ∀ b, concat2 (some x) (some y) = some b → c.pub b ∧ ∀ d, E.digest b none .sha512 = some d → c.pub d)
    (ha : Has isBuf h a y) (hb : Has isBuf h p x) :
    Triple c f (keep h) (hFpEncode E (some a) (some p))
      (fun r f' => keep h ∗ gives isFp (fpDigest E (concat2 (some x) (some y))) r f') := by
  unfold hFpEncode fpDigest
  vgo

theorem hFpGen_view (hE : E.Fits) (c : Rules) (f : Bool) (hc : c.crash) (h : Heap) (a p : Addr) (k : EcKey) (i : Bytes)
    (hp : ∀ y, ecKeyPubFixed k = some y → c.pub y ∧
      ∀ b, concat2 (some i) (some y) = some b → c.pub b ∧ ∀ d, E.digest b none .sha512 = some d → c.pub d)
    (ha : Has isKey h a k) (hb : Has isBuf h p i) :
    Triple c f (keep h) (hFpGen E (some a) (some p)) (fun r f' => keep h ∗ gives isFp (fpGen E k i) r f') := by
  unfold hFpGen fpGen
  vgo

theorem hFpOrder_spec (c : Rules) (f : Bool) (f1 f2 : Bytes) : ∀ x y : Bytes,
    Triple c f emp (hFpOrder f1 f2 x y) (fun r f' => emp ∗ gives isBuf (fpOrder f1 f2 x y) r f')
  | a :: x, b :: y => by
    unfold hFpOrder fpOrder
    by_cases h1 : a = b
    · simp only [h1, if_true]
      exact hFpOrder_spec c f f1 f2 x y
    · by_cases h2 : a > b
      · simp only [h1, h2, if_true, if_false]
        exact hConcat_spec c f _ _
      · simp only [h1, h2, if_false]
        exact hConcat_spec c f _ _
  | [], [] => by unfold hFpOrder fpOrder; vgo
  | [], _ :: _ => by unfold hFpOrder fpOrder; vgo
  | _ :: _, [] => by unfold hFpOrder fpOrder; vgo

theorem hFpCombine_view (hE : E.Fits) (c : Rules) (f : Bool) (hc : c.crash) (h : Heap) (a p : Addr) (x y : Bytes)
    (hp : x.length = y.length → ∀ b, fpOrder x y x y = some b → c.pub b ∧ ∀ d, E.digest b none .sha512 = some d → c.pub d)
    (ha : Has isFp h a x) (hb : Has isFp h p y) :
    Triple c f (keep h) (hFpCombine E (some a) (some p)) (fun r f' => keep h ∗ gives isFp (fpCombine E x y) r f') := by
  unfold hFpCombine fpCombine fpDigest
  sview ha isFp
  sview hb isFp
  vgo

theorem hIdentityFp_view (hE : E.Fits) (c : Rules) (f : Bool) (hc : c.crash) (h : Heap) (a : Addr) (i : Identity)
    (hp : ∀ y, ecKeyPubFixed i.key = some y → c.pub y ∧
      ∀ b, concat2 (some i.identifier) (some y) = some b → c.pub b ∧ ∀ d, E.digest b none .sha512 = some d → c.pub d)
    (ha : Has isId h a i) :
    Triple c f (keep h) (hIdentityFp E (some a)) (fun r f' => keep h ∗ gives isFp (identityFp E i) r f') := by
  unfold hIdentityFp identityFp
  sview ha isId
  vgo

/-- What a fingerprint releases: the padded key, the text that is hashed, the hash. -/
def Spec.fpPubs (E : Engine) (i : Identity) : List Bytes :=
  (ecKeyPubFixed i.key).toList ++
    ((ecKeyPubFixed i.key).bind fun y => concat2 (some i.identifier) (some y)).toList ++ (identityFp E i).toList

theorem fpPubs_ok (c : Rules) (i : Identity) (h : ∀ x ∈ Spec.fpPubs E i, c.pub x) : ∀ y, ecKeyPubFixed i.key = some y → c.pub y ∧
      ∀ b, concat2 (some i.identifier) (some y) = some b → c.pub b ∧ ∀ d, E.digest b none .sha512 = some d → c.pub d := by
  intro y hy
  refine ⟨h _ (by simp [Spec.fpPubs, hy]), fun b hb => ⟨h _ (by simp [Spec.fpPubs, hy, hb]), fun d hd => h _ ?_⟩⟩
  have : identityFp E i = some d := by simp [identityFp, fpGen, hy, fpDigest, hb, hd]
  simp [Spec.fpPubs, this]

/-- What a bilateral fingerprint releases. -/
def Spec.bilateralPubs (E : Engine) (i j : Identity) : List Bytes :=
  Spec.fpPubs E i ++ Spec.fpPubs E j ++
    ((identityFp E i).bind fun x => (identityFp E j).bind fun y => fpOrder x y x y).toList ++ (bilateralFp E i j).toList

theorem hBilateralFp_view (hE : E.Fits) (c : Rules) (f : Bool) (hc : c.crash) (h : Heap) (a p : Addr) (i j : Identity)
    (hp : ∀ x ∈ Spec.bilateralPubs E i j, c.pub x) (ha : Has isId h a i) (hb : Has isId h p j) :
    Triple c f (keep h) (hBilateralFp E (some a) (some p)) (fun r f' => keep h ∗ gives isFp (bilateralFp E i j) r f') := by
  have h1 := fpPubs_ok (E := E) c i fun x hx => hp x (by simp [Spec.bilateralPubs, hx])
  have h2 := fpPubs_ok (E := E) c j fun x hx => hp x (by simp [Spec.bilateralPubs, hx])
  have h3 : ∀ x, identityFp E i = some x → c.pub x := fun x hx => hp x (by simp [Spec.bilateralPubs, Spec.fpPubs, hx])
  have h4 : ∀ x, identityFp E j = some x → c.pub x := fun x hx => hp x (by simp [Spec.bilateralPubs, Spec.fpPubs, hx])
  have e : bilateralFp E i j = (identityFp E i).bind fun x => (identityFp E j).bind fun y => fpCombine E x y := rfl
  have h5 : ∀ x y, identityFp E i = some x → identityFp E j = some y → x.length = y.length →
      ∀ b, fpOrder x y x y = some b → c.pub b ∧ ∀ d, E.digest b none .sha512 = some d → c.pub d := by
    intro x y hx hy hl b hb
    refine ⟨hp _ (by simp [Spec.bilateralPubs, hx, hy, hb]), fun d hd => ?_⟩
    have : bilateralFp E i j = some d := by rw [e, hx, hy]; simp [fpCombine, fpDigest, hl, hb, hd]
    exact hp _ (by simp [Spec.bilateralPubs, this])
  rw [e]
  unfold hBilateralFp
  vgo

/-! ### Output modes -/

theorem hFpShort_spec (c : Rules) (f : Bool) (a : Addr) (t : CBuf) (ht : t.length / 2 < t.mem.length) :
    Triple c f (isText a t) (hFpShort (some a) true)
      (fun r _ => ⌜r = some a⌝ ∗ isText a ⟨t.mem.take (t.length / 2) ++ [0] ++ t.mem.drop (t.length / 2 + 1), t.length / 2⟩) := by
  unfold hFpShort
  sopen isText
  simp only [if_true]
  sgo1
  dsimp only
  sgo1
  sstep writeAt_spec _ _ _ t.mem (t.length / 2) [0] (by simp; omega)
  intro _ _ _
  have : t.length / 2 ≤ (t.mem.take (t.length / 2) ++ [0] ++ t.mem.drop (t.length / 2 + 1)).length := by simp; omega
  simp only [List.length_singleton]
  vgo

theorem Triple.scalNil {c : Rules} {f : Bool} {A : Asrt} {k : Scal → H β} {R : β → Bool → Asrt} (hc : c.crash) (hf : f = true) :
    Triple c f A (Wickr.scal none >>= k) R := by
  subst hf
  intro B s F hf hp
  exact ⟨hc, hf, fun b hb => Or.inl hb⟩

/-- The step from a text to the form that is asked for. -/
theorem hFpOut_view (c : Rules) (f : Bool) (hc : c.crash) (h : Heap) (x : Res CBuf) (short : Bool)
    (hu : fpOutput x short ≠ .ub) (hn : ∀ t, x = .ok t → t.length / 2 < t.mem.length) (m : H Ptr)
    (hm : Triple c f (keep h) m (fun r f' => keep h ∗ gives isText x.toOption r f')) :
    Triple c f (keep h) (m >>= fun t => hFpShort t short)
      (fun r f' => keep h ∗ gives isText (fpOutput x short).toOption r f') := by
  refine Triple.bind hm fun r f' hf => ?_
  cases x with
  | ub => simp [fpOutput] at hu
  | null =>
    cases short with
    | true => simp [fpOutput] at hu
    | false =>
      unfold hFpShort
      simp only [fpOutput, Res.toOption_null, Bool.false_eq_true, if_false]
      vgo
  | ok t =>
    have ht := hn t rfl
    cases short with
    | false =>
      unfold hFpShort
      simp only [fpOutput, Res.toOption_ok, Bool.false_eq_true, if_false]
      vgo
    | true =>
      have e : fpOutput (.ok t) true = .ok ⟨t.mem.take (t.length / 2) ++ [0] ++ t.mem.drop (t.length / 2 + 1), t.length / 2⟩ := by
        simp only [fpOutput, memWrite, if_true, List.length_singleton]
        rw [if_pos (by omega)]
        rfl
      rw [e, Res.toOption_ok, Res.toOption_ok]
      cases r with
      | none =>
        unfold gives hFpShort
        simp only [if_true]
        rw [Asrt.star_comm]
        exact Triple.pure fun hx => Triple.scalNil hc (by simp_all)
      | some a =>
        unfold gives
        dsimp only
        sintro
        rename_i hx
        cases hx
        sstep hFpShort_spec c f' a t ht
        intro r _ _
        sintro
        rename_i hr
        subst hr
        vgo

theorem hFpHex_view (c : Rules) (f : Bool) (hc : c.crash) (fill : Nat → UInt8) (h : Heap) (a : Addr) (b : Bytes) (short : Bool)
    (hu : fpHex fill b short ≠ .ub) (ha : Has isFp h a b) :
    Triple c f (keep h) (hFpHex (some a) short) (fun r f' => keep h ∗ gives isText (fpHex fill b short).toOption r f') := by
  unfold hFpHex
  sview ha isFp
  sgo1
  refine hFpOut_view c f hc h (hexEncode fill (some b)) short hu ?_ _ (hHex_view c f fill h _ b (by assumption))
  intro t ht
  have := hexEncode_opt fill b
  rw [ht, Res.toOption_ok] at this
  split at this
  · simp at this
  · cases this
    simp [hexText_length]
    omega

theorem isBuf_text {a : Addr} {b : Bytes} : ∀ h, isBuf a b h → isText a ⟨b, b.length⟩ h := by
  intro h hb
  unfold isBuf at hb
  obtain ⟨_, q, hq⟩ := Asrt.pure_star.1 hb
  exact ⟨q, Asrt.pure_star.2 ⟨Nat.le_refl _, hq⟩⟩

theorem gives_buf_text (c : Rules) (f : Bool) (h : Heap) (x : Option Bytes) (m : H Ptr)
    (hm : Triple c f (keep h) m (fun r f' => keep h ∗ gives isBuf x r f')) :
    Triple c f (keep h) m (fun r f' => keep h ∗ gives isText (x.map fun t => ⟨t, t.length⟩) r f') := by
  refine Triple.conseq hm (fun _ h => h) fun r f' y _ hy => ?_
  rw [Asrt.star_comm] at hy ⊢
  refine Asrt.star_mono (fun z hz => ?_) hy
  cases r with
  | none => exact ⟨by simpa [gives] using hz.1, hz.2⟩
  | some a =>
    obtain ⟨v, hv⟩ := hz
    obtain ⟨e, hv⟩ := Asrt.pure_star.1 hv
    exact ⟨⟨v, v.length⟩, Asrt.pure_star.2 ⟨by rw [e]; rfl, isBuf_text _ hv⟩⟩

theorem hFpB32_view (c : Rules) (f : Bool) (hc : c.crash) (h : Heap) (a : Addr) (b : Bytes) (short : Bool)
    (hu : fpB32 b short ≠ .ub) (ha : Has isFp h a b) :
    Triple c f (keep h) (hFpB32 (some a) short) (fun r f' => keep h ∗ gives isText (fpB32 b short).toOption r f') := by
  unfold hFpB32
  sview ha isFp
  sgo1
  rename_i hb
  have hv := has_valid hb
  refine hFpOut_view c f hc h _ short hu ?_ _ ?_
  · obtain ⟨t, h1, h2, h3, h4⟩ := base32_facts b hv
    intro t' ht
    have hl : 0 < t.length := by rw [← h3, b32Digits_length]; have := hv.1; omega
    rw [h4] at ht
    split at ht
    · cases ht
      dsimp only
      omega
    · cases ht
  · have := gives_buf_text c f h _ _ (hBase32_view c f h _ b hb)
    have e : ((base32Encode (some b)).bind fun t => Res.ok (⟨t, t.length⟩ : CBuf)).toOption =
        (base32Encode (some b)).toOption.map fun t => ⟨t, t.length⟩ := by
      cases base32Encode (some b) <;> rfl
    rw [e]
    exact this

/-! ### Raw signatures -/

theorem bnToBin_length (n : Nat) (hn : n % 2 = 0) (r s : Int) : (bnToBin n r s).length = n := by
  have : ∀ z : Int, ((bn2binpad z (n / 2)).getD (List.replicate (n / 2) 0)).length = n / 2 := by
    intro z
    unfold bn2binpad
    split <;> simp [natToBe_length]
  unfold bnToBin
  rw [List.length_append, this, this]
  omega

theorem hToRaw_view (c : Rules) (f : Bool) (h : Heap) (a : Addr) (D : DerSig) (x : EcdsaResult) (ha : Has isSig h a x) :
    Triple c f (keep h) (hToRaw D (some a)) (fun r f' => keep h ∗ gives isBuf (ecdsaToRaw D x) r f') := by
  unfold hToRaw ecdsaToRaw
  sread readSig_view ha
  cases D.d2i x.sig with
  | none => vgo
  | some z =>
    obtain ⟨r, s⟩ := z
    have hl := bnToBin_length x.curve.rawSize (by cases x.curve; rfl) r s
    dsimp only
    generalize bnToBin x.curve.rawSize r s = w at *
    unfold zeroBuf
    refine Triple.onNew (fun f' _ hf => ?_) fun f' r q _ h0 h1 => ?_
    · rcases hf with h | h
      · vgo
      · rw [if_neg h, Option.map_none]
        vgo
    · rw [if_pos ⟨h0, h1⟩, Option.map_some]
      have hv : ValidBuf w := ⟨by omega, by omega⟩
      simp only [newCell, if_true]
      rw [← hl]
      sgo1
      sstep writeAt_spec _ _ q (List.replicate w.length 0) 0 w (by simp)
      intro _ _ _
      have e : (List.replicate w.length (0 : UInt8)).take 0 ++ w ++ (List.replicate w.length 0).drop (0 + w.length) = w := by simp
      rw [e]
      vgo

theorem hFromRaw_view (c : Rules) (f : Bool) (hc : c.crash) (h : Heap) (a : Addr) (D : DerSig) (cv : Curve) (d : Digest) (b : Bytes)
    (ha : Has isBuf h a b) :
    Triple c f (keep h) (hFromRaw D cv d (some a)) (fun r f' => keep h ∗ gives isSig (ecdsaFromRaw D cv d b) r f') := by
  unfold hFromRaw ecdsaFromRaw
  sgo1
  by_cases hb : b.length = cv.rawSize
  · rw [if_neg (by simpa using hb), if_neg (by simpa using hb)]
    dsimp only
    generalize D.i2d (beToNat (List.take (b.length / 2) b)) (beToNat (List.take (b.length / 2) (List.drop (b.length / 2) b))) = w
    unfold zeroBuf
    refine Triple.onNew (fun f' _ hf => ?_) fun f' r q _ h0 h1 => ?_
    · rcases hf with h | h
      · vgo
      · rw [if_neg h, Option.map_none]
        vgo
    · rw [if_pos ⟨h0, h1⟩, Option.map_some]
      have hv : ValidBuf w := ⟨by omega, by omega⟩
      simp only [newCell, if_true]
      sgo1
      sstep writeAt_spec _ _ q (List.replicate w.length 0) 0 w (by simp)
      intro _ _ _
      have e : (List.replicate w.length (0 : UInt8)).take 0 ++ w ++ (List.replicate w.length 0).drop (0 + w.length) = w := by simp
      rw [e]
      refine Triple.conseq (P := isBuf r w ∗ keep h) (Q := fun r f' => keep h ∗ gives isSig (some ⟨cv, d, w⟩) r f') ?_ (fun y hy => ?_)
        fun _ _ _ _ h => h
      · vgo
      · have e' : (q ↦ Cell.bytes w) ∗ (r ↦ Cell.obj (.len w.length) [some q]) ∗ keep h =
            ((r ↦ Cell.obj (.len w.length) [some q]) ∗ (q ↦ Cell.bytes w)) ∗ keep h := by frame
        rw [e'] at hy
        refine Asrt.star_mono (fun z hz => ?_) hy
        exact Asrt.pure_star.2 ⟨hv, q, hz⟩
  · rw [if_pos (by simpa using hb), if_pos (by simpa using hb)]
    vgo

/-! ### Reading base 32 -/

theorem unbase32_facts (b : Bytes) (hv : ValidBuf b) :
    (b32Unmap b = none ∧ base32Decode (some b) = .null) ∨
    ∃ v, b32Unmap b = some v ∧ v.length = b.length ∧
      ((b32DecodeLength (UInt64.ofNat v.length) = 0 ∧ base32Decode (some b) = .null) ∨
        (b32DecodeLength (UInt64.ofNat v.length) ≠ 0 ∧ ∃ o, b32DecodeAll v = some o ∧
          (b32DecodeLength (UInt64.ofNat v.length)).toNat = o.length ∧
          (b32DecodeLength (UInt64.ofNat v.length) + 1).toNat = o.length + 1 ∧ o.length + 1 ≤ maxBuffer ∧
          base32Decode (some b) = .ok o)) := by
  have hm := hv.2
  rw [maxBuffer_val] at hm
  have ht := C09_base32_decode_total b (by omega)
  rcases b32Unmap_iff b with ⟨h1, u, h2, h3, h4⟩ | ⟨⟨x, hx, hx'⟩, h2⟩
  · refine Or.inr ⟨u, h2, h3, ?_⟩
    have hd := declen u.length (by omega)
    obtain ⟨o, ho, hol⟩ := b32DecodeAll_some u.length u (Nat.le_refl _) h4
    by_cases h0 : b32DecodeLength (UInt64.ofNat u.length) = 0
    · refine Or.inl ⟨h0, ?_⟩
      rw [h0, h3] at hd
      rcases ht with ⟨_, _, h, _⟩ | ⟨_, h⟩
      · simp at hd; omega
      · exact h
    · have hpos : (b32DecodeLength (UInt64.ofNat u.length)).toNat ≠ 0 := fun h => h0 (UInt64.toNat_inj.1 h)
      have hp1 : (b32DecodeLength (UInt64.ofNat u.length) + 1).toNat = o.length + 1 := by
        rw [UInt64.toNat_add, hd]
        have : (1 : UInt64).toNat = 1 := rfl
        rw [this, Nat.mod_eq_of_lt (by omega)]
        omega
      have hmx : o.length + 1 ≤ maxBuffer := by rw [maxBuffer_val]; omega
      refine Or.inr ⟨h0, o, ho, by omega, hp1, hmx, ?_⟩
      have hcan : canAlloc (b32DecodeLength (UInt64.ofNat u.length) + 1) = true := by
        rw [canAlloc_iff, hp1]; omega
      have hw : memWrite (List.replicate (o.length + 1) 0) 0 o = .ok (o ++ [0]) := by
        unfold memWrite
        rw [if_pos (by simp)]
        simp
      simp only [base32Decode, bufCopy, bufCreate_eq (show b.length < 2 ^ 64 by omega), if_pos (show 0 < b.length ∧ b.length ≤ maxBuffer from hv),
        h2, if_neg h0, hcan, Bool.not_true, Bool.false_eq_true, if_false, ho, hp1, hw, Res.bind_ok]
      rw [show (b32DecodeLength (UInt64.ofNat u.length)).toNat = o.length by omega]
      simp
  · refine Or.inl ⟨h2, ?_⟩
    rcases ht with ⟨_, h, _⟩ | ⟨_, h⟩
    · exact absurd (h x hx) hx'
    · exact h

theorem Triple.foldBuf {c : Rules} {f : Bool} {r q : Addr} {w : Bytes} {A F : Asrt} {m : H β} {Q : β → Bool → Asrt} (hv : ValidBuf w)
    (hA : A = ((r ↦ Cell.obj (.len w.length) [some q]) ∗ (q ↦ Cell.bytes w)) ∗ F) (hm : Triple c f (isBuf r w ∗ F) m Q) : Triple c f A m Q := by
  subst hA
  exact Triple.conseq hm (fun y hy => Asrt.star_mono (fun z hz => Asrt.pure_star.2 ⟨hv, q, hz⟩) hy) fun _ _ _ _ h => h

theorem readOwned (a : Addr) (b : Bytes) : Reads (isBuf a b) (readBuf (some a)) b := Reads.owned fun _ hx => readBuf_keep hx

theorem hUnbase32_view (c : Rules) (f : Bool) (hp : ∀ x, c.pub x) (h : Heap) (a : Addr) (b : Bytes) (hb : Has isBuf h a b) :
    Triple c f (keep h) (hUnbase32 (some a)) (fun r f' => keep h ∗ gives isSlack (base32Decode (some b)).toOption r f') := by
  have hv := has_valid hb
  have hz := unbase32_facts b hv
  unfold hUnbase32
  refine Triple.onNull (hBufCopy_view c f h a b hb) (by frame) (fun f1 _ h1 => ?_) fun u f1 _ => ?_
  · vgo
  unfold hUnbase32With
  sread readOwned u b
  rcases hz with ⟨h1, h2⟩ | ⟨v, h1, h2, h3⟩
  · rw [h1, h2, Res.toOption_null]
    vgo
  rw [h1]
  dsimp only
  unfold isBuf
  sintro
  sgo1
  rename_i d _
  sstep writeAt_spec _ _ d b 0 v (by omega)
  intro _ f2 _
  have e : b.take 0 ++ v ++ b.drop (0 + v.length) = v := by simp; omega
  have hv' : ValidBuf v := by unfold ValidBuf at *; omega
  rw [e, ← h2]
  refine Triple.foldBuf hv' (by frame) ?_
  rcases h3 with ⟨h3, h4⟩ | ⟨h3, o, h4, h5, h6, h7, h8⟩
  · rw [h4, Res.toOption_null, if_pos h3]
    vgo
  · rw [h8, Res.toOption_ok, if_neg h3, h6]
    refine Triple.onNew (fun f' _ hf => ?_) fun f' r q _ h9 h10 => ?_
    · have : f' = true := hf.elim id fun h => absurd ⟨Nat.succ_pos _, h7⟩ h
      vgo
    · rw [h4, h5]
      simp only [newCell, if_true]
      sgo1
      sgo1
      sstep writeAt_spec _ _ q (List.replicate (o.length + 1) 0) 0 o (by simp)
      intro _ _ _
      have e : (List.replicate (o.length + 1) (0 : UInt8)).take 0 ++ o ++ (List.replicate (o.length + 1) 0).drop (0 + o.length) = o ++ [0] := by
        simp
      rw [e]
      have h11 : CBuf.content ⟨o ++ [0], o.length⟩ = o := by simp [CBuf.content]
      have h12 : o.length ≤ (o ++ [0]).length := by simp
      vgo

end Wickr
