import Verif.Lemmas.SepFile
import Verif.Lemmas.Compute
import Verif.Lemmas.ViewSpecs
import Verif.Props.FilePath
/-
The file functions that work on paths, and from triples to statements about runs, for functions that give an answer.
-/
namespace Wickr
open Asrt Spec

variable {V : Evp} {α : Type}

/-! ### From triples to runs -/

/-- A function that gives an answer, as it is proved. -/
def AnswerSpec (c : Rules) (S : Bool → Asrt) (args : Heap → Prop) (Q : α → Bool → Prop) (m : H α) : Prop :=
  ∀ f h, args h → Triple c f (keep h) m (fun x f' => keep h ∗ ⌜Q x f'⌝ ∗ S f')

theorem AnswerSpec.run {c : Rules} {S : Bool → Asrt} {args : Heap → Prop} {Q : α → Bool → Prop} {m : H α} (hk : AnswerSpec c S args Q m)
    (A : Alloc) {s : St} (hx : args s.heap) :
    match m A s with
    | .ub => False
    | .crash s' => c.crash ∧ s'.oom = true ∧ ∀ b ∈ s'.log, b ∈ s.log ∨ c.May s'.oom b
    | .ret r s' => (keep s.heap ∗ S s'.oom) s'.heap ∧ Q r s'.oom ∧ ∀ b ∈ s'.log, b ∈ s.log ∨ c.May s'.oom b := by
  have := hk s.oom s.heap hx A s emp rfl (by rw [Asrt.star_emp]; rfl)
  revert this
  cases m A s with
  | ub => exact id
  | crash s' => exact id
  | ret r s' =>
    rintro ⟨hq, -, h3⟩
    dsimp only at hq
    rw [Asrt.star_emp, ← Asrt.star_assoc, Asrt.star_comm (keep _), Asrt.star_assoc] at hq
    obtain ⟨h1, h2⟩ := Asrt.pure_star.1 hq
    exact ⟨h2, h1, h3⟩

theorem Answers.of {c : Rules} {args : Heap → Prop} {Q : α → Bool → Prop} {m : H α} (hk : AnswerSpec c spill args Q m) :
    Answers args Q m := by
  intro A s hf hx
  have := hk.run A hx
  revert this
  cases m A s with
  | ub => exact id
  | crash s' => exact fun h => h.2.1
  | ret r s' =>
    rintro ⟨h1, h2, -⟩
    rw [Asrt.star_comm] at h1
    refine ⟨keep_sub h1, fun h => ?_, h2⟩
    rw [h] at h1
    exact emp_keep h1

theorem AnswerSpec.weaken {c : Rules} {args : Heap → Prop} {Q : α → Bool → Prop} {m : H α} (hk : AnswerSpec c (fun _ => emp) args Q m) :
    AnswerSpec c spill args Q m := fun f h hx =>
  Triple.conseq (hk f h hx) (fun _ h => h) fun x f' z _ hz => by
    rw [Asrt.star_emp] at hz
    rw [← Asrt.star_assoc]
    exact le_spill f' _ z hz

theorem AnswerSpec.mono {c : Rules} {S : Bool → Asrt} {args : Heap → Prop} {Q Q' : α → Bool → Prop} {m : H α} (hk : AnswerSpec c S args Q m)
    (h : ∀ x f, Q x f → Q' x f) : AnswerSpec c S args Q' m := fun f h' hx =>
  Triple.conseq (hk f h' hx) (fun _ h => h) fun x f' z _ hz =>
    Asrt.star_mono_r (fun y hy => by
      obtain ⟨h1, h2⟩ := Asrt.pure_star.1 hy
      exact Asrt.pure_star.2 ⟨h x f' h1, h2⟩) hz

theorem LeavesNothing.of {c : Rules} {args : Heap → Prop} {Q : α → Bool → Prop} {m : H α} (hk : AnswerSpec c (fun _ => emp) args Q m) :
    LeavesNothing args m := by
  intro A s hf hx r s' e
  have := hk.run A hx
  rw [e] at this
  have h1 := this.1
  rw [Asrt.star_emp] at h1
  exact h1

theorem ReleasesWiped.of {c : Rules} {S : Bool → Asrt} {args : Heap → Prop} {Q : α → Bool → Prop} {m : H α} {pub : Bytes → Prop}
    (hk : AnswerSpec c S args Q m) (hp : ∀ b, c.pub b → pub b) (hl : ¬ c.lax) : ReleasesWiped args pub m := by
  intro A s hf hx
  have := hk.run A hx
  revert this
  cases m A s with
  | ub => exact id
  | crash s' => exact fun h b hb => (h.2.2 b hb).imp_right fun h => (Rules.May.strict hl h).imp_right (hp b)
  | ret r s' => exact fun h b hb => (h.2.2 b hb).imp_right fun h => (Rules.May.strict hl h).imp_right (hp b)

/-! ### The functions on open files -/

/-- Rules under which only what `pub` says may be released unwiped. -/
def letting (pub : Bytes → Prop) : Rules := { pub := pub, crash := True }

theorem decrypt_file_vs (hV : V.Fits) (acc : Nat → Option Nat) (a : Addr) (k : CipherKey) (junk : Bytes) (i : InFile) (o : OutFile)
    (onlyAuth : Bool) (hj : chunkSize ≤ junk.length) (pub : Bytes → Prop) (hp : ∀ b, DecReleases V k i.bytes junk b → pub b) :
    AnswerSpec (letting pub) (fun _ => emp) (fun h => Has isCKey h a k)
      (fun x f => decryptFile V acc k i o onlyAuth = .ok x ∨ (f = true ∧ x = (false, o))) (hDecryptFile V acc (some a) junk i o onlyAuth) :=
  fun f h hx => Triple.conseq (hDecryptFile_view hV (letting pub) f trivial acc h a k junk i o onlyAuth hx hj hp) (fun _ h => h)
    fun _ _ _ _ hz => by rwa [Asrt.star_emp]

theorem encrypt_file_vs (hV : V.Fits) (acc : Nat → Option Nat) (a : Addr) (k : CipherKey) (iv fresh junk : Bytes) (i : InFile) (o : OutFile)
    (hj : chunkSize ≤ junk.length) (hiv : iv.length = k.cipher.ivLen) (hf : fresh.length = k.cipher.tagLen) (pub : Bytes → Prop)
    (hp : ∀ b, EncReleases V k iv fresh i.bytes junk b → pub b) :
    AnswerSpec (letting pub) spill (fun h => Has isCKey h a k)
      (fun x f => x = encryptFile V acc k iv fresh i o ∨ (f = true ∧ encFails V acc k iv fresh i o x))
      (hEncryptFile V acc (some a) iv fresh junk i o) :=
  fun f h hx => hEncryptFile_view hV (letting pub) f trivial acc h a k iv fresh junk i o hx hj hiv hf hp

/-! ### Paths -/

/-- The answer of an operation on paths whose work gave an answer as `W` says. -/
def pathQ (v : Env) (W : Bool × OutFile → Bool → Prop) (src dst : Bytes) (fs : Fs) (x : Bool × Fs × List Fs) (f : Bool) : Prop :=
  (∃ y, ((fs src).isSome → v.openOk = true → v.createOk = true → W y f) ∧ fileOp v (fun _ _ => .ok y) src dst fs = .ok x) ∨
  (f = true ∧ (x = (false, fs, []) ∨ x = (false, fs.set (tempPath dst) (some []), [fs])))

theorem spill_mono {f f' : Bool} (h : f = true → f' = true) : Asrt.le (spill f) (spill f') := by
  cases f with
  | false => exact fun z hz => spill_of_emp _ hz
  | true => rw [h rfl]; exact fun z hz => hz

theorem hFileOp_view (c : Rules) (f : Bool) (S : Bool → Asrt) (h : Heap) (v : Env) (work : InFile → OutFile → H (Bool × OutFile))
    (W : Bool × OutFile → Bool → Prop) (src dst : Bytes) (fs : Fs)
    (hS : ∀ f f', (f = true → f' = true) → Asrt.le (S f) (S f')) (hS0 : ∀ f, Asrt.le emp (S f))
    (hW : ∀ y f f', (f = true → f' = true) → W y f → W y f') (hp : c.pub (tempPath dst ++ [0]))
    (hw : ∀ f, Triple c f (keep h) (work (v.reads (((fs.set (tempPath dst) (some [])) src).getD [])) ⟨[], 0, 0⟩)
      (fun y f' => keep h ∗ ⌜W y f'⌝ ∗ S f')) :
    Triple c f (keep h) (hFileOp v work src dst fs) (fun x f' => keep h ∗ ⌜pathQ v W src dst fs x f'⌝ ∗ S f') := by
  have ret : ∀ (f : Bool) (x : Bool × Fs × List Fs), pathQ v W src dst fs x f →
      Triple c f (keep h) (Pure.pure x) (fun x f' => keep h ∗ ⌜pathQ v W src dst fs x f'⌝ ∗ S f') := by
    intro f x hx
    refine Triple.ret fun z hz => ?_
    rw [← Asrt.star_emp (keep h)] at hz
    exact Asrt.star_mono_r (fun y hy => Asrt.pure_star.2 ⟨hx, hS0 f y hy⟩) hz
  unfold hFileOp
  cases hs : fs src with
  | none => exact ret _ _ (Or.inl ⟨(false, ⟨[], 0, 0⟩), by simp [hs], by simp [fileOp, hs]⟩)
  | some cont =>
    dsimp only
    cases ho : v.openOk with
    | false => exact ret _ _ (Or.inl ⟨(false, ⟨[], 0, 0⟩), by simp [ho], by simp [fileOp, hs, ho]⟩)
    | true =>
      simp only [Bool.not_true, Bool.false_eq_true, if_false]
      unfold onNull
      refine Triple.seq (alloc_spec c f _) (by frame) fun t f1 _ => ?_
      cases t with
      | none =>
        refine Triple.pure fun hf => ?_
        exact ret _ _ (Or.inr ⟨hf, Or.inl rfl⟩)
      | some t =>
        dsimp only
        cases hc : v.createOk with
        | false =>
          simp only [Bool.not_false, if_true]
          refine Triple.seq (free_bytes c f1 t _ (Or.inr hp)) (by frame) fun _ f2 _ => ?_
          rw [Asrt.emp_star]
          exact ret _ _ (Or.inl ⟨(false, ⟨[], 0, 0⟩), by simp [hc], by simp [fileOp, hs, ho, hc]⟩)
        | true =>
          simp only [Bool.not_true, Bool.false_eq_true, if_false]
          refine Triple.seq (alloc_spec c f1 _) (by frame) fun op f2 _ => ?_
          cases op with
          | none =>
            refine Triple.pure fun hf => ?_
            refine Triple.seq (free_bytes c f2 t _ (Or.inr hp)) (by frame) fun _ f3 hf3 => ?_
            rw [Asrt.emp_star]
            exact ret _ _ (Or.inr ⟨hf3 hf, Or.inr rfl⟩)
          | some op =>
            dsimp only
            refine Triple.seq (hw f2) (by frame) fun y f3 _ => ?_
            obtain ⟨ok, o⟩ := y
            rw [Asrt.star_comm (keep h), Asrt.star_assoc, Asrt.star_assoc]
            refine Triple.pure fun hy => ?_
            have fin : ∀ x : Bool × Fs × List Fs, fileOp v (fun _ _ => .ok (ok, o)) src dst fs = .ok x →
                Triple c f3 (S f3 ∗ keep h ∗ (op ↦ .obj .plain [some t]) ∗ t ↦ .bytes (tempPath dst ++ [0])) (hFreeOp (some op) x)
                (fun x f' => keep h ∗ ⌜pathQ v W src dst fs x f'⌝ ∗ S f') := by
              intro x hx
              unfold hFreeOp
              sgo1
              refine Triple.seq (free_bytes c _ t _ (Or.inr hp)) (by frame) fun _ f4 hf4 => ?_
              refine Triple.seq (free_spec c f4 op (.obj .plain [some t]) (by intro b hb; cases hb)) (by frame) fun _ f5 hf5 => ?_
              refine Triple.ret fun z hz => ?_
              rw [Asrt.emp_star, Asrt.star_comm] at hz
              refine Asrt.star_mono_r (fun w hw => Asrt.pure_star.2 ⟨Or.inl ⟨(ok, o), fun _ _ _ => hW _ _ _ (fun h => hf5 (hf4 h)) hy, hx⟩,
                hS _ _ (fun h => hf5 (hf4 h)) w hw⟩) hz
            dsimp only
            cases ok with
            | false =>
              simp only [Bool.false_eq_true, if_false]
              exact fin _ (by simp [fileOp, hs, ho, hc, Res.bind])
            | true =>
              simp only [if_true]
              exact fin _ (by simp [fileOp, hs, ho, hc, Res.bind])

theorem pathQ_installs {v : Env} {W : Bool × OutFile → Bool → Prop} {src dst : Bytes} {fs : Fs} {x : Bool × Fs × List Fs} {f : Bool}
    {new : Bytes → Prop} (h : pathQ v W src dst fs x f) (hn : ∀ y, W y f → y.1 = true → new (v.flush y.2.data)) :
    Installs dst fs new x := by
  have ht := tempPath_ne dst
  have ht' : dst ≠ tempPath dst := fun e => ht e.symm
  obtain ⟨b, fin, states⟩ := x
  rcases h with ⟨⟨ok, o⟩, h1, h2⟩ | ⟨-, h2 | h2⟩
  · rcases fileOp_states h2 with ⟨rfl, rfl, rfl⟩ | ⟨ok', o', g1, g2, g3, g4, g5, g6, g7, g8, -⟩
    · exact ⟨by simp, by simp⟩
    · injection g4 with g4
      obtain ⟨rfl, rfl⟩ : ok = ok' ∧ o = o' := by simpa using g4
      have hw := h1 g1 g2 g3
      have hnew : b = true → new (v.flush o.data) := fun hb => by
        rw [hb] at g5
        have : ok = true := by
          cases ok with
          | true => rfl
          | false => exact nomatch g5
        exact hn _ hw this
      refine ⟨fun s hs => ⟨g6 s hs, ?_⟩, fun hb => ⟨_, g8 hb, hnew hb⟩⟩
      exact (g7 s hs).imp id fun ⟨hb, h⟩ => ⟨hb, _, h, hnew hb⟩
  · simp only [Prod.mk.injEq] at h2
    obtain ⟨rfl, rfl, rfl⟩ := h2
    exact ⟨by simp, by simp⟩
  · simp only [Prod.mk.injEq] at h2
    obtain ⟨rfl, rfl, rfl⟩ := h2
    refine ⟨fun s hs => ?_, by simp⟩
    simp only [List.mem_cons, List.not_mem_nil, or_false] at hs
    rcases hs with rfl | rfl
    · exact ⟨fun p _ hp => by simp [Fs.set, hp], Or.inl (by simp [Fs.set, ht'])⟩
    · exact ⟨fun _ _ _ => rfl, Or.inl rfl⟩

theorem pathQ_value {v : Env} {W : Bool × OutFile → Bool → Prop} {src dst : Bytes} {fs : Fs} {x : Bool × Fs × List Fs}
    {work : InFile → OutFile → Res (Bool × OutFile)} (h : pathQ v W src dst fs x false)
    (hn : ∀ y, W y false → work (v.reads (((fs.set (tempPath dst) (some [])) src).getD [])) ⟨[], 0, 0⟩ = .ok y) :
    fileOp v work src dst fs = .ok x := by
  rcases h with ⟨y, h1, h2⟩ | ⟨h, -⟩
  · rw [← h2]
    unfold fileOp
    cases hs : fs src with
    | none => rfl
    | some cont =>
      dsimp only
      cases ho : v.openOk with
      | false => rfl
      | true =>
        cases hc : v.createOk with
        | false => rfl
        | true => rw [hn y (h1 (by rw [hs]; rfl) ho hc)]
  · cases h

theorem file_decrypt_vs (hV : V.Fits) (v : Env) (a : Addr) (k : CipherKey) (junk src dst : Bytes) (onlyAuth : Bool) (fs : Fs)
    (hj : chunkSize ≤ junk.length) (pub : Bytes → Prop) (hp : ∀ b, DecReleases V k (v.reads (((fs.set (tempPath dst) (some [])) src).getD [])).bytes junk b → pub b)
    (ht : pub (tempPath dst ++ [0])) :
    AnswerSpec (letting pub) (fun _ => emp) (fun h => Has isCKey h a k)
      (pathQ v (fun x f => decryptFile V v.accept k (v.reads (((fs.set (tempPath dst) (some [])) src).getD [])) ⟨[], 0, 0⟩ onlyAuth = .ok x ∨
        (f = true ∧ x = (false, ⟨[], 0, 0⟩))) src dst fs) (hFileDecrypt V v (some a) junk src dst onlyAuth fs) := by
  intro f h hx
  unfold hFileDecrypt
  exact hFileOp_view _ f (fun _ => emp) h v _ _ src dst fs (fun _ _ _ => Asrt.le_refl _) (fun _ => Asrt.le_refl _)
    (fun y f f' hf => Or.imp id (And.imp hf id)) ht (fun f => decrypt_file_vs hV v.accept a k junk _ _ onlyAuth hj pub hp f h hx)

theorem file_encrypt_vs (hV : V.Fits) (v : Env) (a : Addr) (k : CipherKey) (iv fresh junk src dst : Bytes) (fs : Fs)
    (hj : chunkSize ≤ junk.length) (hiv : iv.length = k.cipher.ivLen) (hf : fresh.length = k.cipher.tagLen) (pub : Bytes → Prop)
    (hp : ∀ b, EncReleases V k iv fresh (v.reads (((fs.set (tempPath dst) (some [])) src).getD [])).bytes junk b → pub b)
    (ht : pub (tempPath dst ++ [0])) :
    AnswerSpec (letting pub) spill (fun h => Has isCKey h a k)
      (pathQ v (fun x f => x = encryptFile V v.accept k iv fresh (v.reads (((fs.set (tempPath dst) (some [])) src).getD [])) ⟨[], 0, 0⟩ ∨
        (f = true ∧ encFails V v.accept k iv fresh (v.reads (((fs.set (tempPath dst) (some [])) src).getD [])) ⟨[], 0, 0⟩ x)) src dst fs)
      (hFileEncrypt V v (some a) iv fresh junk src dst fs) := by
  intro f h hx
  unfold hFileEncrypt
  exact hFileOp_view _ f spill h v _ _ src dst fs (fun _ _ h => spill_mono h) (fun f z hz => spill_of_emp _ hz)
    (fun y f f' hf => Or.imp id (And.imp hf id)) ht
    (fun f => encrypt_file_vs hV v.accept a k iv fresh junk _ _ hj hiv hf pub hp f h hx)

/-- What is in the file if the header was not written again. -/
theorem encFails_image {P : Prim} (hL : V.Lawful P) {acc : Nat → Option Nat} {k : CipherKey} {iv fresh : Bytes} {i : InFile} {o : OutFile}
    {x : Bool × OutFile} (h : encFails V acc k iv fresh i o x) (hx : x.1 = true) :
    x.2.data = staleImage P k iv fresh i.bytes ++ o.data.drop (staleImage P k iv fresh i.bytes).length := by
  rcases h with h | ⟨hw, st, hl, -⟩
  · rw [h] at hx; cases hx
  · have ho1 := fwrite_full (outAt_rewind o) hw
    rw [List.nil_append] at ho1
    obtain ⟨cs, out, h1, h2, h3⟩ := encLoop_sound _ _ _ _ _ _ _ ho1 hl
    have e : staleImage P k iv fresh i.bytes = k.cipher.id :: iv ++ optBytes (firstTag k.cipher fresh) ++ out := by
      obtain ⟨c, key⟩ := k
      cases c with
      | gcm =>
        have hg := hL.enc_gcm key iv cs st out h2
        rw [h1] at hg
        simp [staleImage, ← hg, firstTag, optBytes, Cipher.id, Cipher.tagLen]
      | ctr =>
        have hg := hL.enc_ctr key iv cs st out h2
        rw [h1] at hg
        simp [staleImage, fileImage, ← hg, firstTag, optBytes, Cipher.id, Cipher.tagLen]
    rw [e]
    exact h3.1

end Wickr
