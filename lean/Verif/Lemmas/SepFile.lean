import Verif.Lemmas.SepText
import Verif.Lemmas.SepKeyFun
import Verif.Lemmas.File
import Verif.Spec.FileMem
/-
The file functions on the heap.
-/
namespace Wickr
open Asrt Spec

variable {V : Evp}

/-- `memcpy` over bytes that were written before. -/
theorem fillOver_spec (c : Rules) (f : Bool) (a : Addr) (d b : Bytes) (h : d.length = b.length) :
    Triple c f (a ↦ .bytes d) (fill (some a) b) (fun _ _ => a ↦ .bytes b) := by
  intro A s F hf hp
  obtain ⟨h1, h2⟩ := cell_star.1 hp
  unfold fill
  dsimp only
  rw [h1]
  dsimp only
  rw [if_pos h]
  refine ⟨cell_star.2 ⟨by simp [Heap.set], ?_⟩, fun h => hf.trans h, fun b hb => Or.inl hb⟩
  rwa [del_set]

theorem hThrough_spec (c : Rules) (f : Bool) (p : Addr) (d out : Bytes) (h : out.length ≤ d.length) :
    Triple c f (p ↦ .bytes d) (hThrough (some p) out) (fun b _ => ⌜b = out⌝ ∗ (p ↦ .bytes (out ++ d.drop out.length))) := by
  unfold hThrough
  by_cases h0 : out = []
  · rw [if_pos h0]
    subst h0
    exact Triple.ret fun x hx => Asrt.pure_star.2 ⟨rfl, by simpa using hx⟩
  · rw [if_neg h0]
    refine Triple.bind (writeAt_spec c f p d 0 out (by omega)) fun _ f' _ => ?_
    sread loadBytes_reads p _
    exact Triple.ret fun x hx => Asrt.pure_star.2 ⟨by simp, by simpa using hx⟩

theorem hThrough_null (c : Rules) (hc : c.crash) (out : Bytes) :
    Triple c true emp (hThrough none out) (fun b _ => ⌜b = out⌝) := by
  unfold hThrough
  by_cases h0 : out = []
  · rw [if_pos h0]
    subst h0
    exact Triple.ret fun x hx => ⟨rfl, hx⟩
  · rw [if_neg h0]
    intro A s F hs _
    exact ⟨hc, hs, fun b hb => Or.inl hb⟩

theorem overlay_cons (junk o : Bytes) (os : List Bytes) : overlay junk (o :: os) = overlay (o ++ junk.drop o.length) os := rfl

theorem decBuffer_nil (st : V.Dec) (body junk : Bytes) : DecBuffer V st body junk junk :=
  ⟨[], ⟨body, rfl⟩, rfl⟩

theorem decBuffer_cons {st st' : V.Dec} {body junk out e : Bytes} {n : Nat} (hu : V.decUpdate st (body.take n) = some (st', out))
    (h : DecBuffer V st' (body.drop n) (out ++ junk.drop out.length) e) : DecBuffer V st body junk e := by
  obtain ⟨cs, ⟨t, h1⟩, h2⟩ := h
  refine ⟨body.take n :: cs, ⟨t, ?_⟩, ?_⟩
  · rw [List.flatten_cons, List.append_assoc, h1, List.take_append_drop]
  · rw [h2, decSteps, hu]
    rfl

theorem encBuffer_nil (st : V.Enc) (body junk : Bytes) : EncBuffer V st body junk junk :=
  ⟨[], ⟨body, rfl⟩, rfl⟩

theorem encBuffer_cons {st st' : V.Enc} {body junk out e : Bytes} {n : Nat} (hu : V.encUpdate st (body.take n) = some (st', out))
    (h : EncBuffer V st' (body.drop n) (out ++ junk.drop out.length) e) : EncBuffer V st body junk e := by
  obtain ⟨cs, ⟨t, h1⟩, h2⟩ := h
  refine ⟨body.take n :: cs, ⟨t, ?_⟩, ?_⟩
  · rw [List.flatten_cons, List.append_assoc, h1, List.take_append_drop]
  · rw [h2, encSteps, hu]
    rfl

theorem hDecLoop_spec (hV : V.Fits) (c : Rules) (acc : Nat → Option Nat) (p : Addr) : ∀ (fuel : Nat) (f : Bool) (st : V.Dec)
    (input : Bytes) (o : OutFile) (d : Bytes), chunkSize ≤ d.length →
    Triple c f (p ↦ .bytes d) (hDecLoop V acc (some p) fuel st input o)
      (fun x _ => Asrt.ex fun e => ⌜x = decLoop V acc fuel st input o ∧ DecBuffer V st input d e⌝ ∗ (p ↦ .bytes e)) := by
  intro fuel
  induction fuel with
  | zero =>
    intro f st input o d hd
    exact Triple.ret fun x hx => ⟨d, Asrt.pure_star.2 ⟨⟨rfl, decBuffer_nil _ _ _⟩, hx⟩⟩
  | succ fuel ih =>
    intro f st input o d hd
    unfold hDecLoop decLoop
    dsimp only
    cases hu : V.decUpdate st (input.take chunkSize) with
    | none => exact Triple.ret fun x hx => ⟨d, Asrt.pure_star.2 ⟨⟨rfl, decBuffer_nil _ _ _⟩, hx⟩⟩
    | some r =>
      obtain ⟨st', out⟩ := r
      have hl := hV.dec _ _ _ _ hu
      have hle : out.length ≤ d.length := by
        have := List.length_take (l := input) (i := chunkSize)
        omega
      dsimp only
      refine Triple.bind (hThrough_spec c f p d out hle) fun b f' _ => Triple.pure fun hb => ?_
      subst hb
      have h1 : DecBuffer V st input d (b ++ d.drop b.length) := decBuffer_cons hu (decBuffer_nil _ _ _)
      cases hw : (fwrite acc o b).2 with
      | false =>
        simp only [Bool.not_false, if_true]
        exact Triple.ret fun x hx => ⟨_, Asrt.pure_star.2 ⟨⟨rfl, h1⟩, hx⟩⟩
      | true =>
        simp only [Bool.not_true, Bool.false_eq_true, if_false]
        by_cases hc : (input.take chunkSize).length < chunkSize
        · simp only [hc, if_true]
          exact Triple.ret fun x hx => ⟨_, Asrt.pure_star.2 ⟨⟨rfl, h1⟩, hx⟩⟩
        · simp only [hc, if_false]
          refine Triple.conseq (ih f' st' (input.drop chunkSize) (fwrite acc o b).1 (b ++ d.drop b.length) ?_) (fun _ h => h)
            fun x f'' z _ hz => ?_
          · simp; omega
          · obtain ⟨e, hz⟩ := hz
            obtain ⟨⟨h2, h3⟩, hz⟩ := Asrt.pure_star.1 hz
            exact ⟨e, Asrt.pure_star.2 ⟨⟨h2, decBuffer_cons hu h3⟩, hz⟩⟩

theorem hDecLoop_null (c : Rules) (hc : c.crash) (acc : Nat → Option Nat) : ∀ (fuel : Nat) (st : V.Dec)
    (input : Bytes) (o : OutFile),
    Triple c true emp (hDecLoop V acc none fuel st input o) (fun x _ => ⌜x = decLoop V acc fuel st input o⌝) := by
  intro fuel
  induction fuel with
  | zero => intro st input o; exact Triple.ret fun x hx => ⟨rfl, hx⟩
  | succ fuel ih =>
    intro st input o
    unfold hDecLoop decLoop
    dsimp only
    cases hu : V.decUpdate st (input.take chunkSize) with
    | none => exact Triple.ret fun x hx => ⟨rfl, hx⟩
    | some r =>
      obtain ⟨st', out⟩ := r
      dsimp only
      refine Triple.bind (hThrough_null c hc out) fun b f' hf => Triple.pure' fun hb => ?_
      subst hb
      have hf := hf rfl
      subst hf
      cases hw : (fwrite acc o b).2 with
      | false =>
        simp only [Bool.not_false, if_true]
        exact Triple.ret fun x hx => ⟨rfl, hx⟩
      | true =>
        simp only [Bool.not_true, Bool.false_eq_true, if_false]
        by_cases hc : (input.take chunkSize).length < chunkSize
        · simp only [hc, if_true]
          exact Triple.ret fun x hx => ⟨rfl, hx⟩
        · simp only [hc, if_false]
          exact ih _ _ _

theorem hEncLoop_spec (hV : V.Fits) (c : Rules) (acc : Nat → Option Nat) (p : Addr) : ∀ (fuel : Nat) (f : Bool) (st : V.Enc)
    (input : Bytes) (o : OutFile) (d : Bytes), chunkSize ≤ d.length →
    Triple c f (p ↦ .bytes d) (hEncLoop V acc (some p) fuel st input o)
      (fun x _ => Asrt.ex fun e => ⌜x = encLoop V acc fuel st input o ∧ EncBuffer V st input d e⌝ ∗ (p ↦ .bytes e)) := by
  intro fuel
  induction fuel with
  | zero =>
    intro f st input o d hd
    exact Triple.ret fun x hx => ⟨d, Asrt.pure_star.2 ⟨⟨rfl, encBuffer_nil _ _ _⟩, hx⟩⟩
  | succ fuel ih =>
    intro f st input o d hd
    unfold hEncLoop encLoop
    dsimp only
    cases hu : V.encUpdate st (input.take chunkSize) with
    | none => exact Triple.ret fun x hx => ⟨d, Asrt.pure_star.2 ⟨⟨rfl, encBuffer_nil _ _ _⟩, hx⟩⟩
    | some r =>
      obtain ⟨st', out⟩ := r
      have hl := hV.enc _ _ _ _ hu
      have hle : out.length ≤ d.length := by
        have := List.length_take (l := input) (i := chunkSize)
        omega
      dsimp only
      refine Triple.bind (hThrough_spec c f p d out hle) fun b f' _ => Triple.pure fun hb => ?_
      subst hb
      have h1 : EncBuffer V st input d (b ++ d.drop b.length) := encBuffer_cons hu (encBuffer_nil _ _ _)
      cases hw : (fwrite acc o b).2 with
      | false =>
        simp only [Bool.not_false, if_true]
        exact Triple.ret fun x hx => ⟨_, Asrt.pure_star.2 ⟨⟨rfl, h1⟩, hx⟩⟩
      | true =>
        simp only [Bool.not_true, Bool.false_eq_true, if_false]
        by_cases hc : (input.take chunkSize).length < chunkSize
        · simp only [hc, if_true]
          exact Triple.ret fun x hx => ⟨_, Asrt.pure_star.2 ⟨⟨rfl, h1⟩, hx⟩⟩
        · simp only [hc, if_false]
          refine Triple.conseq (ih f' st' (input.drop chunkSize) (fwrite acc o b).1 (b ++ d.drop b.length) ?_) (fun _ h => h)
            fun x f'' z _ hz => ?_
          · simp; omega
          · obtain ⟨e, hz⟩ := hz
            obtain ⟨⟨h2, h3⟩, hz⟩ := Asrt.pure_star.1 hz
            exact ⟨e, Asrt.pure_star.2 ⟨⟨h2, encBuffer_cons hu h3⟩, hz⟩⟩

theorem hEncLoop_null (c : Rules) (hc : c.crash) (acc : Nat → Option Nat) : ∀ (fuel : Nat) (st : V.Enc)
    (input : Bytes) (o : OutFile),
    Triple c true emp (hEncLoop V acc none fuel st input o) (fun x _ => ⌜x = encLoop V acc fuel st input o⌝) := by
  intro fuel
  induction fuel with
  | zero => intro st input o; exact Triple.ret fun x hx => ⟨rfl, hx⟩
  | succ fuel ih =>
    intro st input o
    unfold hEncLoop encLoop
    dsimp only
    cases hu : V.encUpdate st (input.take chunkSize) with
    | none => exact Triple.ret fun x hx => ⟨rfl, hx⟩
    | some r =>
      obtain ⟨st', out⟩ := r
      dsimp only
      refine Triple.bind (hThrough_null c hc out) fun b f' hf => Triple.pure' fun hb => ?_
      subst hb
      have hf := hf rfl
      subst hf
      cases hw : (fwrite acc o b).2 with
      | false =>
        simp only [Bool.not_false, if_true]
        exact Triple.ret fun x hx => ⟨rfl, hx⟩
      | true =>
        simp only [Bool.not_true, Bool.false_eq_true, if_false]
        by_cases hc : (input.take chunkSize).length < chunkSize
        · simp only [hc, if_true]
          exact Triple.ret fun x hx => ⟨rfl, hx⟩
        · simp only [hc, if_false]
          exact ih _ _ _

/-- What decryption makes of the header `b` and what follows it. -/
def decValue (V : Evp) (acc : Nat → Option Nat) (k : CipherKey) (r : CipherResult) (body : Bytes) (o : OutFile) : Bool × OutFile :=
  if k.key.length ≠ r.cipher.keyLen then (false, o)
  else decLoop V acc (body.length / chunkSize + 1) (V.decInit r.cipher k.key r.iv r.tag) body o

/-- The output buffer, if there is one. -/
def bufCell : Ptr → Bytes → Asrt
  | none, _ => emp
  | some p, e => p ↦ .bytes e

theorem hFileDone_spec (c : Rules) (f : Bool) (x : Bool × OutFile) (s : Ptr) (a : Addr) (buf : Ptr) (v : Option Bytes) (r : CipherResult)
    (e : Bytes) (hs : ∀ b, v = some b → c.pub b) (hp : ∀ b ∈ r.publics, c.pub b) (he : buf ≠ none → c.pub e) :
    Triple c f (optRep isBuf s v ∗ isCRes a r ∗ bufCell buf e) (hFileDone x s (some a) buf) (fun y _ => ⌜y = x⌝) := by
  unfold hFileDone
  sdestroy hBufDestroy_opt (fun b hb => Or.inr (hs b hb))
  intro f1 _
  sdestroy hCResDestroy_spec hp
  intro f2 _
  cases buf with
  | none =>
    refine Triple.bind (free_null c f2) fun _ _ _ => ?_
    exact Triple.ret fun z hz => ⟨rfl, hz⟩
  | some p =>
    refine Triple.bind (free_bytes c f2 p e (Or.inr (he (by simp)))) fun _ _ _ => ?_
    exact Triple.ret fun z hz => ⟨rfl, hz⟩

/-- The call at the end of a function, with whatever else is in memory. -/
theorem Triple.fileDone {c : Rules} {f : Bool} {x : Bool × OutFile} {s : Ptr} {a : Addr} {buf : Ptr} {v : Option Bytes}
    {r : CipherResult} {e : Bytes} {A F : Asrt} {R : Bool × OutFile → Bool → Asrt} (hs : ∀ b, v = some b → c.pub b)
    (hp : ∀ b ∈ r.publics, c.pub b) (he : buf ≠ none → c.pub e) (ha : A = (optRep isBuf s v ∗ isCRes a r ∗ bufCell buf e) ∗ F)
    (hr : ∀ f', (f = true → f' = true) → Asrt.le F (R x f')) : Triple c f A (hFileDone x s (some a) buf) R := by
  subst ha
  refine Triple.conseq (Triple.frame F (hFileDone_spec c f x s a buf v r e hs hp he)) (fun _ h => h) fun y f' z hf hz => ?_
  obtain ⟨h1, hz⟩ := Asrt.pure_star.1 hz
  rw [h1]
  exact hr f' hf z hz

theorem Triple.readCResNil {β : Type} {c : Rules} {f : Bool} {A : Asrt} {k : CipherResult → H β} {R : β → Bool → Asrt} (hc : c.crash)
    (hf : f = true) : Triple c f A (readCRes none >>= k) R := by
  subst hf
  intro B s F hf hp
  exact ⟨hc, hf, fun b hb => Or.inl hb⟩

theorem hDecBody_view (hV : V.Fits) (c : Rules) (f : Bool) (hc : c.crash) (acc : Nat → Option Nat) (h : Heap) (a q : Addr)
    (k : CipherKey) (b junk body : Bytes) (o : OutFile) (r : CipherResult) (hk : Has isCKey h a k) (hj : chunkSize ≤ junk.length)
    (hr : cipherResultFromBuffer b = some r) (hb : c.pub b) (hh : ∀ x ∈ cresHead b, c.pub x) (hp : ∀ x ∈ r.publics, c.pub x)
    (hd : ∀ e, DecBuffer V (V.decInit r.cipher k.key r.iv r.tag) body junk e → c.pub e) :
    Triple c f (keep h ∗ isBuf q b) (hDecBody V acc (some a) (some q) junk body o)
      (fun x _ => keep h ∗ ⌜x = decValue V acc k r body o⌝) := by
  unfold hDecBody decValue
  have hh' : ∀ x ∈ cresHead b, c.pub x ∨ c.lax := fun x hx => Or.inl (hh x hx)
  vgo
  · exact Triple.readCResNil hc (by simp_all)
  · rename_i v hv _ _ hn
    obtain rfl : v = r := by simp_all
    rw [if_pos hn]
    refine Triple.fileDone (v := some b) (e := []) (F := keep h) (by simp_all) hp (by simp) ?_ fun f' _ z hz => ?_
    · simp only [optRep, bufCell]; frame
    · rw [Asrt.star_comm]; exact Asrt.pure_star.2 ⟨rfl, hz⟩
  · rename_i v hv _ _ hn f' _ hf
    obtain rfl : v = r := by simp_all
    subst hf
    rw [if_neg hn]
    sstep hDecLoop_null c hc acc _ _ _ _
    intro x f2 _
    refine Triple.pureAt (by frame) fun hx => ?_
    subst hx
    refine Triple.fileDone (v := some b) (e := []) (F := keep h) (by simp_all) hp (by simp) ?_ fun f' _ z hz => ?_
    · simp only [optRep, bufCell]; frame
    · rw [Asrt.star_comm]; exact Asrt.pure_star.2 ⟨rfl, hz⟩
  · rename_i v hv _ _ hn _ _ p f' _ x1 x2 e hx
    obtain rfl : v = r := by simp_all
    rw [if_neg hn]
    refine Triple.fileDone (v := some b) (e := e) (F := keep h) (by simp_all) hp (fun _ => hd e hx.2) ?_ fun f' _ z hz => ?_
    · simp only [optRep, bufCell]; frame
    · rw [Asrt.star_comm]; exact Asrt.pure_star.2 ⟨hx.1, hz⟩

/-- The header of a file, split. -/
theorem header_split (ci : Cipher) (m : UInt8) (rest : Bytes) (hm : Cipher.find m = some ci)
    (hl : (rest.take (ci.ivLen + ci.tagLen)).length = ci.ivLen + ci.tagLen) :
    ∃ iv tag, m :: rest.take (ci.ivLen + ci.tagLen) = ci.id :: iv ++ optBytes tag ∧
      cipherResultFromBuffer (m :: rest.take (ci.ivLen + ci.tagLen)) = some ⟨ci, iv, none, tag⟩ := by
  have hm' : m = ci.id := by
    unfold Cipher.find at hm
    grind [Cipher.id]
  subst hm'
  have hl' : ci.ivLen + ci.tagLen ≤ rest.length := by simp at hl; omega
  have hiv : (rest.take ci.ivLen).length = ci.ivLen := by simp; omega
  let tag : Option Bytes := if ci.isAuth then some ((rest.drop ci.ivLen).take ci.tagLen) else none
  have ht : if ci.isAuth then ∃ t, tag = some t ∧ t.length = ci.tagLen else tag = none := by
    cases ci <;> simp [tag, Cipher.isAuth, Cipher.tagLen, Cipher.ivLen] at hl' ⊢
    omega
  have he : rest.take (ci.ivLen + ci.tagLen) = rest.take ci.ivLen ++ optBytes tag := by
    cases ci
    · simp [tag, Cipher.isAuth, optBytes, List.take_add]
    · simp [tag, Cipher.isAuth, optBytes, Cipher.tagLen]
  refine ⟨rest.take ci.ivLen, tag, by rw [he]; rfl, ?_⟩
  rw [he]
  exact (header_ok ci _ tag hiv ht).2.2

theorem infix_copySection {b d : Bytes} {s n : Nat} (h : copySection b s n = some d) : d <:+: b := by
  unfold copySection at h
  split at h
  · simp only [Option.some.injEq] at h
    subst h
    exact (List.take_prefix _ _).isInfix.trans (List.drop_suffix _ _).isInfix
  · simp at h

theorem infix_cresHead {b x : Bytes} (h : x ∈ cresHead b) : x <:+: b := by
  unfold cresHead at h
  split at h
  · simp at h
  · split at h
    · simp at h
    · simp only [List.mem_append, Option.mem_toList] at h
      rcases h with h | h <;> exact infix_copySection h

theorem hDecryptFile_view (hV : V.Fits) (c : Rules) (f : Bool) (hc : c.crash) (acc : Nat → Option Nat) (h : Heap) (a : Addr)
    (k : CipherKey) (junk : Bytes) (i : InFile) (o : OutFile) (onlyAuth : Bool) (hk : Has isCKey h a k) (hj : chunkSize ≤ junk.length)
    (hp : ∀ b, DecReleases V k i.bytes junk b → c.pub b) :
    Triple c f (keep h) (hDecryptFile V acc (some a) junk i o onlyAuth)
      (fun x f' => keep h ∗ ⌜decryptFile V acc k i o onlyAuth = .ok x ∨ (f' = true ∧ x = (false, o))⌝) := by
  unfold hDecryptFile decryptFile
  dsimp only
  cases hi : i.bytes with
  | nil => exact Triple.ret fun z hz => by rw [Asrt.star_comm]; exact Asrt.pure_star.2 ⟨Or.inl rfl, hz⟩
  | cons m rest =>
    dsimp only
    cases hm : Cipher.find m with
    | none => exact Triple.ret fun z hz => by rw [Asrt.star_comm]; exact Asrt.pure_star.2 ⟨Or.inl rfl, hz⟩
    | some ci =>
      dsimp only
      by_cases ho : (onlyAuth && !ci.isAuth) = true
      · simp only [ho, if_true]
        exact Triple.ret fun z hz => by rw [Asrt.star_comm]; exact Asrt.pure_star.2 ⟨Or.inl rfl, hz⟩
      · simp only [ho, if_false]
        unfold Wickr.onNull
        refine Triple.seq (alloc_spec c f _) (by frame) fun p f1 hf1 => ?_
        cases p with
        | none =>
          refine Triple.pure fun hf => ?_
          exact Triple.ret fun z hz => by rw [Asrt.star_comm]; exact Asrt.pure_star.2 ⟨Or.inr ⟨hf, rfl⟩, hz⟩
        | some p =>
          dsimp only
          by_cases hl : (rest.take (ci.ivLen + ci.tagLen)).length = ci.ivLen + ci.tagLen
          · simp only [hl, ne_eq, not_true, if_false]
            obtain ⟨iv, tag, h1, h2⟩ := header_split ci m rest hm hl
            rw [h2]
            have hlen : 1 + (ci.ivLen + ci.tagLen) = (m :: rest.take (ci.ivLen + ci.tagLen)).length := by simp [hl]; omega
            have hin : m :: rest.take (ci.ivLen + ci.tagLen) <:+: i.bytes := by
              rw [hi]
              exact ⟨[], rest.drop (ci.ivLen + ci.tagLen), by simp⟩
            have hsp : (ci.id :: iv ++ optBytes tag) ++ rest.drop (ci.ivLen + ci.tagLen) = i.bytes := by
              rw [← h1, hi]; simp
            have hpi : ∀ x, x <:+: m :: rest.take (ci.ivLen + ci.tagLen) → c.pub x := fun x hx => hp x (Or.inl (hx.trans hin))
            generalize m :: rest.take (ci.ivLen + ci.tagLen) = b at *
            rw [hlen]
            sstep fill_spec _ _ _ _
            intro _ f2 _
            sread loadBytes_reads _ _
            sstep hBufCreate_spec _ _ _
            intro cb f3 _
            refine Triple.seq (free_bytes c f3 p b (Or.inr (hpi b (List.infix_refl b)))) (by frame) fun _ f4 _ => ?_
            rw [Asrt.emp_star]
            cases cb with
            | none =>
              unfold newBuf
              refine Triple.pure fun hv => ?_
              have hb : ValidBuf b := by
                have : ci.ivLen + ci.tagLen ≤ 28 := by cases ci <;> decide
                unfold ValidBuf
                rw [← hlen]
                have := maxBuffer_val
                omega
              unfold hDecBody hCResFromBuffer
              refine Triple.pureBind ?_
              exact Triple.readCResNil hc (by simp_all)
            | some cb =>
              unfold newBuf
              dsimp only
              refine Triple.conseq (hDecBody_view hV c f4 hc acc h a cb k b junk (rest.drop (ci.ivLen + ci.tagLen)) o
                ⟨ci, iv, none, tag⟩ hk hj h2 (hpi b (List.infix_refl b)) (fun x hx => hpi x (infix_cresHead hx)) ?_ ?_)
                (fun z hz => by rwa [Asrt.star_comm] at hz) fun x f' z _ hz => ?_
              · intro x hx
                refine hpi x ?_
                rw [h1]
                simp only [CipherResult.publics, Option.toList_none, List.append_nil, List.mem_append, List.mem_cons, List.not_mem_nil,
                  or_false, Option.mem_toList] at hx
                rcases hx with rfl | rfl
                · exact ⟨[ci.id], optBytes tag, by simp⟩
                · exact ⟨ci.id :: iv, [], by simp [optBytes]⟩
              · intro e he
                exact hp e (Or.inr ⟨ci, iv, tag, _, hsp, he⟩)
              · rw [Asrt.star_comm] at hz ⊢
                obtain ⟨hx, hz⟩ := Asrt.pure_star.1 hz
                refine Asrt.pure_star.2 ⟨Or.inl ?_, hz⟩
                rw [hx]
                unfold decValue
                dsimp only
                by_cases hkl : k.key.length = ci.keyLen <;> simp [hkl]
          · simp only [hl, ne_eq, not_false_eq_true, if_true]
            refine Triple.seq (free_spec c f1 p (.raw (1 + (ci.ivLen + ci.tagLen))) (by intro b hb; cases hb)) (by frame) fun _ f2 _ => ?_
            exact Triple.ret fun z hz => by
              rw [Asrt.emp_star] at hz
              rw [Asrt.star_comm]; exact Asrt.pure_star.2 ⟨Or.inl rfl, hz⟩

theorem hSha2File_view (hV : V.Fits) (c : Rules) (f : Bool) (h : Heap) (i : InFile) (d : Digest) :
    Triple c f (keep h) (hSha2File V i d) (fun x f' => keep h ∗ gives isBuf (sha2File V i d) x f') := by
  unfold hSha2File sha2File
  have hd : 0 < d.size ∧ d.size ≤ maxBuffer := by cases d <;> decide
  have hloop : ∀ (err : Bool) (fuel : Nat) (cs : List Bytes) (input : Bytes) (st : V.Md),
      mdLoop V err fuel (cs.foldl V.mdUpdate (V.mdInit d)) input = some st → (V.mdFinal st).length = d.size := by
    intro err fuel
    induction fuel with
    | zero => intro cs input st h; simp [mdLoop] at h
    | succ fuel ih =>
      intro cs input st h
      have e : ∀ x, V.mdUpdate (cs.foldl V.mdUpdate (V.mdInit d)) x = (cs ++ [x]).foldl V.mdUpdate (V.mdInit d) := by simp
      simp only [mdLoop] at h
      split at h
      · simp at h
      · split at h
        · simp only [Option.some.injEq] at h
          rw [← h, e]
          exact hV.md d _
        · rw [e] at h
          exact ih _ _ _ h
  refine Triple.onNew (fun f' _ hf => ?_) fun f' r q _ h0 h1 => ?_
  · have : f' = true := by rcases hf with h | h; exact h; exact absurd hd h
    vgo
  · cases hm : mdLoop V i.err (i.bytes.length / chunkSize + 1) (V.mdInit d) i.bytes with
    | none =>
      have hw : Wiped (List.replicate d.size (0 : UInt8)) := by intro x hx; exact List.eq_of_mem_replicate hx
      have hv : ValidBuf (List.replicate d.size (0 : UInt8)) := by unfold ValidBuf; simp; exact hd
      simp only [newCell, if_true, Option.map_none]
      refine Triple.foldBuf (w := List.replicate d.size 0) (F := keep h) hv (by simp only [List.length_replicate]; frame) ?_
      vgo
    | some st =>
      have hl := hloop i.err _ [] i.bytes st hm
      have hv : ValidBuf (V.mdFinal st) := by unfold ValidBuf; omega
      simp only [newCell, if_true, Option.map_some]
      sgo1
      sstep fillOver_spec c _ q (List.replicate d.size 0) (V.mdFinal st) (by simp [hl])
      intro _ _ _
      rw [← hl]
      vgo

/-! ### Encryption -/

/-- The cipher result once the tag is in it. -/
def encTagged (V : Evp) (st : V.Enc) (r : CipherResult) : CipherResult :=
  match r.cipher with
  | .gcm => { r with tag := some (V.encTag st) }
  | .ctr => r

theorem bufFill_spec (c : Rules) (f : Bool) (t : Addr) (d b : Bytes) (h : d.length = b.length) :
    Triple c f (isBuf t d) (do let q ← field (some t) 0; fill q b) (fun _ _ => isBuf t b) := by
  unfold isBuf
  refine Triple.pure fun hv => ?_
  sintro
  sgo1
  sstep fillOver_spec c f _ d b h
  intro _ f' _
  refine Triple.ret fun z hz => ?_
  have hv' : ValidBuf b := by unfold ValidBuf at hv ⊢; omega
  rw [Asrt.star_comm, h] at hz
  exact Asrt.pure_star.2 ⟨hv', _, hz⟩

theorem hEncTag_spec (hV : V.Fits) (c : Rules) (f : Bool) (a : Addr) (st : V.Enc) (ci : Cipher) (iv : Bytes) (tag : Option Bytes) :
    Triple c f (isCRes a ⟨ci, iv, none, tag⟩) (hEncTag V ci (some a) st) (fun _ _ => isCRes a (encTagged V st ⟨ci, iv, none, tag⟩)) := by
  unfold hEncTag encTagged
  cases ci with
  | ctr => exact Triple.ret fun z hz => hz
  | gcm =>
    dsimp only
    have hl := hV.tag st
    sopen isCRes
    rename_i qa p t hok
    obtain ⟨h1, h2, h3⟩ := id hok
    dsimp only at h1 h2 h3
    cases tag with
    | none => simp [Cipher.isAuth] at h2
    | some t0 =>
      have h3 := h3 _ rfl
      have hok' : CipherResult.Ok ⟨.gcm, iv, none, some (V.encTag st)⟩ := ⟨h1, fun _ => rfl, by simp [hl, Cipher.tagLen]⟩
      sopt
      rename_i t
      simp only [optRep, Asrt.emp_star]
      sgo1
      refine Triple.seq' (bufFill_spec c _ t t0 (V.encTag st) (by rw [h3, hl]; rfl)) (by frame) fun _ f' _ => ?_
      refine Triple.ret fun z hz => ?_
      refine ⟨qa, none, some t, Asrt.pure_star.2 ⟨hok', ?_⟩⟩
      simp only [optRep, Asrt.emp_star]
      rw [Asrt.star_comm, Asrt.star_assoc] at hz
      exact hz

/-- What the last step of encryption gives. -/
def encFin (acc : Nat → Option Nat) (r : CipherResult) (o : OutFile) : Bool × OutFile :=
  match cipherResultSerialize r with
  | none => (true, o)
  | some s => ((fwrite acc o.rewind s).2, (fwrite acc o.rewind s).1)

theorem hEncFinish_spec (hV : V.Fits) (c : Rules) (f : Bool) (acc : Nat → Option Nat) (a : Addr) (buf : Ptr) (st : V.Enc) (ci : Cipher)
    (iv e : Bytes) (tag : Option Bytes) (o : OutFile) (hs : ∀ s, cipherResultSerialize (encTagged V st ⟨ci, iv, none, tag⟩) = some s → c.pub s)
    (hp : ∀ b ∈ (encTagged V st ⟨ci, iv, none, tag⟩).publics, c.pub b) (he : buf ≠ none → c.pub e) :
    Triple c f (isCRes a ⟨ci, iv, none, tag⟩ ∗ bufCell buf e) (hEncFinish V acc ci (some a) buf st o)
      (fun x f' => ⌜x = encFin acc (encTagged V st ⟨ci, iv, none, tag⟩) o ∨ (f' = true ∧ x = (true, o))⌝) := by
  unfold hEncFinish encFin
  sstep hEncTag_spec hV c f a st ci iv tag
  intro _ f1 _
  generalize encTagged V st ⟨ci, iv, none, tag⟩ = r at *
  refine Triple.seq (Triple.owned fun h hx => hCResSerialize_view c f1 h a r (has_of hx)) (by frame) fun s f2 _ => ?_
  cases s with
  | none =>
    unfold gives
    rw [Asrt.star_assoc]
    refine Triple.pureAt (by frame) fun hx => ?_
    refine Triple.fileDone (v := none) (e := e) (F := emp) (by simp) hp he (by simp only [optRep]; frame) fun f' hf z hz => ?_
    refine ⟨?_, hz⟩
    rcases hx with hx | hx
    · exact Or.inr ⟨hf hx, rfl⟩
    · left; rw [hx]
  | some s =>
    unfold gives
    dsimp only
    sintro
    rename_i b hb
    sread readOwned s b
    refine Triple.fileDone (v := some b) (e := e) (F := emp) (by simp_all) hp he (by simp only [optRep]; frame) fun f' hf z hz => ?_
    exact ⟨Or.inl (by rw [hb]), hz⟩

/-- What encryption gives once the header has been written. -/
def encBody (V : Evp) (acc : Nat → Option Nat) (k : CipherKey) (iv : Bytes) (tag : Option Bytes) (i : InFile) (o : OutFile) :
    Bool × OutFile :=
  match encLoop V acc (i.bytes.length / chunkSize + 1) (V.encInit k.cipher k.key iv) i.bytes o with
  | (none, o) => (false, o)
  | (some st, o) => encFin acc (encTagged V st ⟨k.cipher, iv, none, tag⟩) o

/-- The header is left as it was. -/
def encStale (V : Evp) (acc : Nat → Option Nat) (k : CipherKey) (iv : Bytes) (i : InFile) (o : OutFile) (x : Bool × OutFile) : Prop :=
  ∃ st, encLoop V acc (i.bytes.length / chunkSize + 1) (V.encInit k.cipher k.key iv) i.bytes o = (some st, x.2) ∧ x.1 = true

theorem hEncBody_view (hV : V.Fits) (c : Rules) (f : Bool) (hc : c.crash) (acc : Nat → Option Nat) (h : Heap) (a r : Addr) (k : CipherKey)
    (iv junk : Bytes) (tag : Option Bytes) (i : InFile) (o : OutFile) (hk : Has isCKey h a k) (hj : chunkSize ≤ junk.length)
    (hp0 : ∀ b ∈ CipherResult.publics ⟨k.cipher, iv, none, tag⟩, c.pub b)
    (hp : ∀ st o', encLoop V acc (i.bytes.length / chunkSize + 1) (V.encInit k.cipher k.key iv) i.bytes o = (some st, o') →
      (∀ b ∈ (encTagged V st ⟨k.cipher, iv, none, tag⟩).publics, c.pub b) ∧
      ∀ s, cipherResultSerialize (encTagged V st ⟨k.cipher, iv, none, tag⟩) = some s → c.pub s)
    (he : ∀ e, EncBuffer V (V.encInit k.cipher k.key iv) i.bytes junk e → c.pub e) :
    Triple c f (keep h ∗ isCRes r ⟨k.cipher, iv, none, tag⟩) (hEncBody V acc (some a) k.cipher (some r) junk i o)
      (fun x f' => keep h ∗ ⌜x = encBody V acc k iv tag i o ∨ (f' = true ∧ encStale V acc k iv i o x)⌝) := by
  unfold hEncBody encBody encStale
  have fin : ∀ (f : Bool) (y : Option V.Enc × OutFile) (buf : Ptr) (e : Bytes) (A : Asrt),
      y = encLoop V acc (i.bytes.length / chunkSize + 1) (V.encInit k.cipher k.key iv) i.bytes o → (buf ≠ none → c.pub e) →
      A = (isCRes r ⟨k.cipher, iv, none, tag⟩ ∗ bufCell buf e) ∗ keep h →
      Triple c f A (match y with
        | (none, o) => hFileDone (false, o) none (some r) buf
        | (some st, o) => hEncFinish V acc k.cipher (some r) buf st o)
        (fun x f' => keep h ∗ ⌜x = encBody V acc k iv tag i o ∨ (f' = true ∧ encStale V acc k iv i o x)⌝) := by
    intro f y buf e A hy hb hA
    subst hA
    obtain ⟨st, o2⟩ := y
    unfold encBody encStale
    rw [← hy]
    cases st with
    | none =>
      refine Triple.fileDone (v := none) (e := e) (F := keep h) (by simp) hp0 hb (by simp only [optRep]; frame) fun f' _ z hz => ?_
      rw [Asrt.star_comm]; exact Asrt.pure_star.2 ⟨Or.inl rfl, hz⟩
    | some st =>
      obtain ⟨p1, p2⟩ := hp st o2 hy.symm
      refine Triple.conseq (Triple.frame (keep h) (hEncFinish_spec hV c f acc r buf st k.cipher iv e tag o2 p2 p1 hb)) (fun _ h => h)
        fun x f' z _ hz => ?_
      obtain ⟨h1, hz⟩ := Asrt.pure_star.1 hz
      rw [Asrt.star_comm]
      refine Asrt.pure_star.2 ⟨?_, hz⟩
      rcases h1 with h1 | ⟨h1, rfl⟩
      · exact Or.inl h1
      · exact Or.inr ⟨h1, st, rfl, rfl⟩
  unfold encBody encStale at fin
  vgo
  · rename_i hf
    subst hf
    sstep hEncLoop_null c hc acc _ _ _ _
    intro x f2 _
    refine Triple.pureAt (by frame) fun hx => ?_
    exact fin _ x none [] _ hx (by simp) (by simp only [bufCell]; frame)
  · rename_i p _ _ y o2 e hx
    exact fin _ (y, o2) (some p) e _ hx.1 (fun _ => he e hx.2) (by simp only [bufCell]; frame)

theorem zeroBuf_spec (c : Rules) (f : Bool) (n : Nat) (h0 : 0 < n) (hm : n ≤ maxBuffer) :
    Triple c f emp (hBufNew n true) (fun r f' => match r with
      | none => ⌜f' = true⌝
      | some a => isBuf a (List.replicate n 0)) := by
  refine Triple.conseq (hBufNew_spec c f n true) (fun _ h => h) fun r f' z _ hz => ?_
  cases r with
  | none => exact ⟨hz.1.resolve_right (fun h => h ⟨h0, hm⟩), hz.2⟩
  | some a =>
    unfold isBuf ValidBuf
    simpa using hz

theorem fileSwap (A B C D : Asrt) : A ∗ B ∗ C ∗ D = D ∗ A ∗ C ∗ B := by
  rw [Asrt.star_comm C D, ← Asrt.star_assoc B D C, Asrt.star_comm B D, Asrt.star_assoc D B C, ← Asrt.star_assoc A D,
    Asrt.star_comm A D, Asrt.star_assoc D A, Asrt.star_comm B C]

theorem hEncRest_view (hV : V.Fits) (c : Rules) (f : Bool) (hc : c.crash) (acc : Nat → Option Nat) (h : Heap) (a r : Addr) (k : CipherKey)
    (iv junk : Bytes) (tag : Option Bytes) (i : InFile) (o : OutFile) (hk : Has isCKey h a k) (hj : chunkSize ≤ junk.length)
    (hp0 : ∀ b ∈ CipherResult.publics ⟨k.cipher, iv, none, tag⟩, c.pub b)
    (hz : c.pub (List.replicate k.cipher.tagLen 0))
    (hp : ∀ st o', encLoop V acc (i.bytes.length / chunkSize + 1) (V.encInit k.cipher k.key iv) i.bytes o = (some st, o') →
      (∀ b ∈ (encTagged V st ⟨k.cipher, iv, none, tag⟩).publics, c.pub b) ∧
      ∀ s, cipherResultSerialize (encTagged V st ⟨k.cipher, iv, none, tag⟩) = some s → c.pub s)
    (he : ∀ e, EncBuffer V (V.encInit k.cipher k.key iv) i.bytes junk e → c.pub e) :
    Triple c f (keep h ∗ isCRes r ⟨k.cipher, iv, none, tag⟩) (hEncRest V acc (some a) k.cipher (some r) junk i o)
      (fun x f' => keep h ∗ ⌜x = (if k.key.length ≠ k.cipher.keyLen then (false, o) else encBody V acc k iv tag i o) ∨
        (f' = true ∧ (x = (false, o) ∨ encStale V acc k iv i o x))⌝) := by
  unfold hEncRest
  obtain ⟨ci, key⟩ := k
  vgo
  · rename_i hn _ _
    refine Triple.seq (free_null c _) (by frame) fun _ f2 _ => ?_
    exact Triple.ret fun z hz => by rw [Asrt.star_comm]; exact Asrt.pure_star.2 ⟨Or.inl (by rw [if_pos hn]), by rwa [Asrt.emp_star] at hz⟩
  · rename_i hn ha
    dsimp only at *
    rw [if_neg hn]
    cases ci with
    | ctr => simp [Cipher.isAuth] at ha
    | gcm =>
      sopen isCRes
      rename_i qa p t hok
      obtain ⟨h1, h2, h3⟩ := id hok
      dsimp only at h1 h2 h3
      cases tag with
      | none => simp [Cipher.isAuth] at h2
      | some t0 =>
        have h3 := h3 _ rfl
        have hok' : CipherResult.Ok ⟨.gcm, iv, none, some (List.replicate 16 0)⟩ := ⟨h1, fun _ => rfl, by simp [Cipher.tagLen]⟩
        simp [CipherResult.publics] at hp0
        sopt
        sgo1
        refine Triple.seq (zeroBuf_spec c _ 16 (by decide) (by rw [maxBuffer_val]; omega)) (by frame) fun q f1 _ => ?_
        cases q with
        | none =>
          refine Triple.pureAt rfl fun hf => ?_
          sgo1
          unfold hFileDone hCResDestroy
          rw [show hBufDestroy none = Pure.pure none from rfl]
          sgo
          rename_i f3 hf3
          refine Triple.seq (free_null c _) (by frame) fun _ f2 hf2 => ?_
          exact Triple.ret fun z hz => by
            rw [Asrt.emp_star] at hz
            rw [Asrt.star_comm]; exact Asrt.pure_star.2 ⟨Or.inr ⟨by grind, Or.inl rfl⟩, hz⟩
        | some q =>
          dsimp only
          sgo1
          refine Triple.conseq (hEncBody_view hV c _ hc acc h a r ⟨.gcm, key⟩ iv junk (some (List.replicate 16 0)) i o hk hj ?_ hp he)
            (fun z hz => ?_) fun x f' z _ hz => ?_
          · intro b hb
            simp [CipherResult.publics] at hb
            rcases hb with rfl | rfl
            · exact hp0.1
            · exact hz
          · rw [fileSwap] at hz
            refine Asrt.star_mono_r (fun z hz => ?_) hz
            refine ⟨qa, none, some q, Asrt.pure_star.2 ⟨hok', ?_⟩⟩
            simpa only [optRep, Asrt.emp_star] using hz
          · rw [Asrt.star_comm] at hz ⊢
            obtain ⟨h1, hz⟩ := Asrt.pure_star.1 hz
            refine Asrt.pure_star.2 ⟨?_, hz⟩
            rcases h1 with h1 | h1
            · exact Or.inl h1
            · exact Or.inr ⟨h1.1, Or.inr h1.2⟩

/-- The tag of the first header. -/
def firstTag (ci : Cipher) (fresh : Bytes) : Option Bytes := if 0 < ci.tagLen then some fresh else none

theorem firstTag_ok (ci : Cipher) (fresh : Bytes) (hf : fresh.length = ci.tagLen) :
    if ci.isAuth then ∃ t, firstTag ci fresh = some t ∧ t.length = ci.tagLen else firstTag ci fresh = none := by
  unfold firstTag
  cases ci <;> simp [Cipher.isAuth, Cipher.tagLen] at hf ⊢
  exact hf

theorem encryptFile_unfold (acc : Nat → Option Nat) (k : CipherKey) (iv fresh : Bytes) (i : InFile) (o : OutFile)
    (hiv : iv.length = k.cipher.ivLen) (hf : fresh.length = k.cipher.tagLen) :
    encryptFile V acc k iv fresh i o =
      (if !(fwrite acc o.rewind (k.cipher.id :: iv ++ optBytes (firstTag k.cipher fresh))).2 then
        (false, (fwrite acc o.rewind (k.cipher.id :: iv ++ optBytes (firstTag k.cipher fresh))).1)
      else if k.key.length ≠ k.cipher.keyLen then
        (false, (fwrite acc o.rewind (k.cipher.id :: iv ++ optBytes (firstTag k.cipher fresh))).1)
      else encBody V acc k iv (firstTag k.cipher fresh) i (fwrite acc o.rewind (k.cipher.id :: iv ++ optBytes (firstTag k.cipher fresh))).1) := by
  have hh := header_ok k.cipher iv (firstTag k.cipher fresh) hiv (firstTag_ok _ _ hf)
  have h1 := hh.1
  unfold encryptFile encBody encFin encTagged
  dsimp only
  unfold firstTag at *
  rw [h1]
  simp only [Option.bind_some, hh.2.1, Option.map_some]
  split
  · rfl
  split
  · rfl
  generalize encLoop V acc (i.bytes.length / chunkSize + 1) (V.encInit k.cipher k.key iv) i.bytes _ = y
  obtain ⟨_ | st, o2⟩ := y
  · rfl
  · dsimp only
    cases k.cipher <;> rfl

/-- What the answer of an encryption may be if an allocation failed. -/
def encFails (V : Evp) (acc : Nat → Option Nat) (k : CipherKey) (iv fresh : Bytes) (i : InFile) (o : OutFile) (x : Bool × OutFile) : Prop :=
  x.1 = false ∨ ((fwrite acc o.rewind (k.cipher.id :: iv ++ optBytes (firstTag k.cipher fresh))).2 = true ∧
    encStale V acc k iv i (fwrite acc o.rewind (k.cipher.id :: iv ++ optBytes (firstTag k.cipher fresh))).1 x)

theorem hCResCreate_noTag (c : Rules) (f : Bool) (q : Addr) (iv : Bytes) :
    Triple c f (isBuf q iv) (hCResCreate .gcm (some q) none none) (fun r _ => ⌜r = none⌝ ∗ isBuf q iv) := by
  unfold hCResCreate
  sgo
  all_goals exact absurd rfl (by assumption : ¬(Cipher.gcm.isAuth && (none : Ptr).isNone) = true)

theorem le_spill (f : Bool) (P : Asrt) : Asrt.le P (P ∗ spill f) := by
  intro z hz
  cases f with
  | false => unfold spill; rwa [Asrt.star_emp]
  | true => exact Asrt.star_mono_r (P := P) (F := emp) (fun _ _ => trivial) (by rwa [Asrt.star_emp])

theorem hEncryptFile_view (hV : V.Fits) (c : Rules) (f : Bool) (hc : c.crash) (acc : Nat → Option Nat) (h : Heap) (a : Addr) (k : CipherKey)
    (iv fresh junk : Bytes) (i : InFile) (o : OutFile) (hk : Has isCKey h a k) (hj : chunkSize ≤ junk.length)
    (hiv : iv.length = k.cipher.ivLen) (hf : fresh.length = k.cipher.tagLen)
    (hp : ∀ b, EncReleases V k iv fresh i.bytes junk b → c.pub b) :
    Triple c f (keep h) (hEncryptFile V acc (some a) iv fresh junk i o)
      (fun x f' => keep h ∗ ⌜x = encryptFile V acc k iv fresh i o ∨ (f' = true ∧ encFails V acc k iv fresh i o x)⌝ ∗ spill f') := by
  have hh := header_ok k.cipher iv (firstTag k.cipher fresh) hiv (firstTag_ok _ _ hf)
  have hok : CipherResult.Ok ⟨k.cipher, iv, none, firstTag k.cipher fresh⟩ := by
    have := firstTag_ok _ _ hf
    refine ⟨hiv, ?_, ?_⟩
    · intro ha; dsimp only at ha; rw [if_pos ha] at this; obtain ⟨t, ht, -⟩ := this; simp [ht]
    · intro t ht; dsimp only at ht; simp only [firstTag] at ht; split at ht <;> simp at ht; exact ht ▸ hf
  have hp0 : ∀ b ∈ CipherResult.publics ⟨k.cipher, iv, none, firstTag k.cipher fresh⟩, c.pub b := by
    intro b hb
    refine hp b (Or.inl ?_)
    simp [CipherResult.publics] at hb
    rcases hb with rfl | hb
    · exact ⟨[k.cipher.id], fresh, by simp⟩
    · unfold firstTag at hb
      split at hb <;> simp at hb
      exact ⟨k.cipher.id :: iv, [], by simp [hb]⟩
  have hs0 : c.pub (k.cipher.id :: iv ++ optBytes (firstTag k.cipher fresh)) := by
    refine hp _ (Or.inl ?_)
    unfold firstTag
    split
    · exact List.infix_refl _
    · exact ⟨[], fresh, by simp [optBytes]⟩
  have hgo : ∀ (f : Bool) (r : Addr), Triple c f (isCRes r ⟨k.cipher, iv, none, firstTag k.cipher fresh⟩ ∗ keep h)
      (do
        let s ← hCResSerialize (some r)
        match s with
        | none => hFileDone (false, o.rewind) none (some r) none
        | some _ => do
          let b ← readBuf s
          if !(fwrite acc o.rewind b).2 then hFileDone (false, (fwrite acc o.rewind b).1) s (some r) none
          else do
            let _ ← hBufDestroy s
            hEncRest V acc (some a) k.cipher (some r) junk i (fwrite acc o.rewind b).1)
      (fun x f' => keep h ∗ ⌜x = encryptFile V acc k iv fresh i o ∨ (f' = true ∧ encFails V acc k iv fresh i o x)⌝) := by
    intro f r
    rw [encryptFile_unfold acc k iv fresh i o hiv hf]
    refine Triple.seq (Triple.owned fun h' hx => hCResSerialize_view c f h' r _ (has_of hx)) (by frame) fun s f2 _ => ?_
    rw [hh.2.1]
    cases s with
    | none =>
      unfold gives
      rw [Asrt.star_assoc]
      refine Triple.pureAt (by frame) fun hx => ?_
      refine Triple.fileDone (v := none) (e := []) (F := keep h) (by simp) hp0 (by simp) (by simp only [optRep, bufCell]; frame)
        fun f' hf z hz => ?_
      rw [Asrt.star_comm]
      exact Asrt.pure_star.2 ⟨Or.inr ⟨hf (hx.resolve_right (by simp)), Or.inl rfl⟩, hz⟩
    | some s =>
      unfold gives
      dsimp only
      sintro
      rename_i b hb
      simp only [Option.some.injEq] at hb
      subst hb
      sread readOwned s _
      generalize hw : fwrite acc o.rewind (k.cipher.id :: iv ++ optBytes (firstTag k.cipher fresh)) = w
      obtain ⟨w1, w2⟩ := w
      cases w2 with
      | false =>
        simp only [Bool.not_false, if_true]
        refine Triple.fileDone (v := some (k.cipher.id :: iv ++ optBytes (firstTag k.cipher fresh))) (e := []) (F := keep h)
          (fun b hb => by simp only [Option.some.injEq] at hb; exact hb ▸ hs0) hp0 (by simp) (by simp only [optRep, bufCell]; frame)
          fun f' hf z hz => ?_
        rw [Asrt.star_comm]
        exact Asrt.pure_star.2 ⟨Or.inl rfl, hz⟩
      | true =>
        simp only [Bool.not_true, Bool.false_eq_true, if_false]
        sdestroy hBufDestroy_spec (Or.inr hs0)
        intro f3 _
        have ho1 := fwrite_full (acc := acc) (outAt_rewind o) (b := k.cipher.id :: iv ++ optBytes (firstTag k.cipher fresh)) (by rw [hw])
        rw [hw] at ho1
        refine Triple.conseq (hEncRest_view hV c _ hc acc h a r k iv junk (firstTag k.cipher fresh) i w1 hk hj hp0 (hp _ (Or.inr (Or.inl rfl)))
          ?_ (fun e he => hp e (Or.inr (Or.inr (Or.inr he))))) (fun z hz => by rwa [Asrt.star_comm]) fun x f' z _ hz => ?_
        · intro st o' hl
          obtain ⟨cs, out, h1, h2, h3⟩ := encLoop_sound _ _ _ _ _ _ _ ho1 hl
          have hx : ∀ b, b <:+: k.cipher.id :: iv ++ V.encTag st → c.pub b := fun b hb => hp b (Or.inr (Or.inr (Or.inl ⟨cs, st, out, h1, h2, hb⟩)))
          unfold encTagged
          cases hk : k.cipher with
          | ctr =>
            rw [hk] at hp0 hh hs0
            refine ⟨hp0, fun s hs => ?_⟩
            dsimp only at hs
            rw [hh.2.1] at hs
            simp only [Option.some.injEq] at hs
            exact hs ▸ hs0
          | gcm =>
            rw [hk] at hx hiv
            constructor
            · intro b hb
              simp [CipherResult.publics] at hb
              rcases hb with rfl | rfl
              · exact hx _ ⟨[Cipher.gcm.id], V.encTag st, by simp⟩
              · exact hx _ ⟨Cipher.gcm.id :: iv, [], by simp⟩
            · intro s hs
              have := header_ok .gcm iv (some (V.encTag st)) hiv (by simp [Cipher.isAuth, Cipher.tagLen, hV.tag st])
              dsimp only at hs
              rw [this.2.1] at hs
              simp only [Option.some.injEq] at hs
              exact hs ▸ hx _ (List.infix_refl _)
        · rw [Asrt.star_comm] at hz ⊢
          obtain ⟨h1, hz⟩ := Asrt.pure_star.1 hz
          refine Asrt.pure_star.2 ⟨?_, hz⟩
          rcases h1 with h1 | ⟨h1, h2⟩
          · exact Or.inl h1
          · refine Or.inr ⟨h1, ?_⟩
            unfold encFails
            rw [hw]
            rcases h2 with rfl | h2
            · exact Or.inl rfl
            · exact Or.inr ⟨rfl, h2⟩
  have hmb := maxBuffer_val
  have hvi : ValidBuf iv := by
    unfold ValidBuf; rw [hiv]; cases k.cipher <;> simp [Cipher.ivLen] <;> omega
  unfold hEncryptFile
  dsimp only
  sread readCKey_view hk
  refine Triple.seq (hRandom_spec c f hc iv hvi) (by frame) fun q f1 _ => ?_
  cases q with
  | none => exact Triple.pure fun h => h.elim
  | some q =>
    dsimp only [made]
    have done : ∀ (f : Bool) (t : Ptr),
        Triple c f ((isBuf q iv ∗ optRep isBuf none none ∗ optRep isBuf t (firstTag k.cipher fresh)) ∗ keep h)
        (do
          let r ← hCResCreate k.cipher (some q) none t
          let s ← hCResSerialize r
          match s with
          | none => hFileDone (false, o.rewind) none r none
          | some _ => do
            let b ← readBuf s
            if !(fwrite acc o.rewind b).2 then hFileDone (false, (fwrite acc o.rewind b).1) s r none
            else do
              let _ ← hBufDestroy s
              hEncRest V acc (some a) k.cipher r junk i (fwrite acc o.rewind b).1)
        (fun x f' => keep h ∗ ⌜x = encryptFile V acc k iv fresh i o ∨ (f' = true ∧ encFails V acc k iv fresh i o x)⌝ ∗ spill f') := by
      intro f t
      refine Triple.seq (hCResCreate_spec c f hc k.cipher q none t iv none (firstTag k.cipher fresh) hok) rfl fun r f2 _ => ?_
      cases r with
      | none => exact Triple.pure fun h => h.elim
      | some r =>
        refine Triple.conseq (hgo f2 r) (fun _ h => h) fun x f' z _ hz => ?_
        rw [← Asrt.star_assoc]
        exact le_spill f' _ z hz
    cases hci : k.cipher with
    | ctr =>
      rw [hci] at hf done
      have hf : fresh = [] := List.length_eq_zero_iff.1 hf
      subst hf
      rw [show hOut [] = Pure.pure none from rfl]
      refine Triple.pureBind ?_
      have := done f1 none
      simp only [firstTag, Cipher.tagLen, Nat.lt_irrefl, if_false, optRep, Asrt.star_emp] at this
      exact this
    | gcm =>
      rw [hci] at hf done
      have hvf : ValidBuf fresh := by unfold ValidBuf; rw [hf]; simp [Cipher.tagLen]; omega
      refine Triple.seq (hOut_spec c f1 fresh hvf) (by frame) fun t f2 _ => ?_
      cases t with
      | none =>
        refine Triple.pure fun hf2 => ?_
        refine Triple.seq (hCResCreate_noTag c f2 q iv) (by frame) fun r f3 hf3 => ?_
        rw [Asrt.star_assoc]
        refine Triple.pure fun hr => ?_
        subst hr
        rw [show hCResSerialize none = Pure.pure none from rfl]
        refine Triple.pureBind ?_
        unfold hFileDone
        rw [show hBufDestroy none = Pure.pure none from rfl, show hCResDestroy none = Pure.pure none from rfl]
        refine Triple.pureBind ?_
        refine Triple.pureBind ?_
        refine Triple.seq (free_null c _) (by frame) fun _ f4 hf4 => ?_
        refine Triple.ret fun z hz => ?_
        have h4 := hf4 (hf3 hf2)
        rw [Asrt.emp_star, Asrt.star_comm] at hz
        refine Asrt.star_mono_r (fun y _ => ?_) hz
        exact Asrt.pure_star.2 ⟨Or.inr ⟨h4, Or.inl rfl⟩, by rw [h4]; trivial⟩
      | some t =>
        have := done f2 (some t)
        simp only [firstTag, Cipher.tagLen, optRep, Asrt.emp_star] at this
        refine Triple.conseq this (fun z hz => ?_) fun _ _ _ _ h => h
        dsimp only [Wickr.fresh] at hz
        rw [← Asrt.star_assoc, Asrt.star_comm (isBuf t fresh)] at hz
        exact hz

end Wickr
