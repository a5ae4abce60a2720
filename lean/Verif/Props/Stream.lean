import Verif.Lemmas.Stream
import Verif.Lemmas.Engine
import Verif.Lemmas.ProtoSize
import Verif.Props.Codec
set_option linter.unusedSimpArgs false
/-
C18-C23, C53, C54, C57: stream contexts.
-/
namespace Wickr
open Spec

/-! ### C18 -/

theorem streamEncode_step (E : Engine) (c : StreamCtx) (d : Bytes) (a : Option Bytes) (s : UInt64) :
    StreamOp.step E c (.encode d a s) =
      ((streamEncode E c d a s).1,
        match (streamEncode E c d a s).2 with | some r => [.encoded s d a r] | none => []) := by
  simp only [StreamOp.step]; split <;> simp_all

theorem streamDecode_step (E : Engine) (c : StreamCtx) (r : CipherResult) (a : Option Bytes) (s : UInt64) :
    StreamOp.step E c (.decode r a s) =
      ((streamDecode E c r a s).1,
        match (streamDecode E c r a s).2 with | some d => [.decoded s r a d] | none => []) := by
  simp only [StreamOp.step]; split <;> simp_all

theorem step_seq (E : Engine) (c : StreamCtx) (op : StreamOp) :
    c.lastSeq ≤ (op.step E c).1.lastSeq ∧
      ((op.step E c).2 = [] ∨ ∃ ev, (op.step E c).2 = [ev] ∧ c.lastSeq < ev.seq ∧
        ev.seq = (op.step E c).1.lastSeq) := by
  cases op with
  | encode d a s =>
    rw [streamEncode_step]
    have h := streamEncode_seq E c d a s
    simp only [] at h ⊢
    refine ⟨h.2.1, ?_⟩
    cases hr : (streamEncode E c d a s).2 with
    | none => exact Or.inl rfl
    | some r =>
      obtain ⟨h1, -, h2⟩ := h.1 (by rw [hr]; simp)
      exact Or.inr ⟨_, rfl, h1, h2.symm⟩
  | decode r a s =>
    rw [streamDecode_step]
    have h := streamDecode_seq E c r a s
    simp only [] at h ⊢
    refine ⟨h.2.1, ?_⟩
    cases hr : (streamDecode E c r a s).2 with
    | none => exact Or.inl rfl
    | some r =>
      obtain ⟨h1, -, h2⟩ := h.1 (by rw [hr]; simp)
      exact Or.inr ⟨_, rfl, h1, h2.symm⟩
  | copy =>
    simp only [StreamOp.step]
    refine ⟨?_, Or.inl trivial⟩
    cases hc : streamCtxCopy c with
    | none => simp
    | some c' => rw [Option.getD_some, (streamCtxCopy_some hc).2.1]; simp

/-- C18: whatever the engine, the state and the calls, the sequence numbers for which data comes out
are strictly increasing, larger than the one the context started at (hence never 0), and the context
remembers one at least as large as all of them. -/
theorem C18_sequence_strictly_increasing (E : Engine) (c : StreamCtx) (ops : List StreamOp) :
    ((streamRun E c ops).2.map StreamEv.seq).Pairwise (· < ·) ∧
    ∀ ev ∈ (streamRun E c ops).2, c.lastSeq < ev.seq ∧ ev.seq ≤ (streamRun E c ops).1.lastSeq := by
  have key : ∀ (ops : List StreamOp) (c : StreamCtx),
      c.lastSeq ≤ (streamRun E c ops).1.lastSeq ∧
      ((streamRun E c ops).2.map StreamEv.seq).Pairwise (· < ·) ∧
      ∀ ev ∈ (streamRun E c ops).2, c.lastSeq < ev.seq ∧ ev.seq ≤ (streamRun E c ops).1.lastSeq := by
    intro ops
    induction ops with
    | nil => intro c; exact ⟨UInt64.le_refl _, List.Pairwise.nil, by simp [streamRun]⟩
    | cons op ops ih =>
      intro c
      obtain ⟨h1, h2⟩ := step_seq E c op
      obtain ⟨i1, i2, i3⟩ := ih (op.step E c).1
      have e1 : (streamRun E c (op :: ops)).1 = (streamRun E (op.step E c).1 ops).1 := rfl
      have e2 : (streamRun E c (op :: ops)).2 = (op.step E c).2 ++ (streamRun E (op.step E c).1 ops).2 := rfl
      rw [e1, e2]
      have tr : ∀ {a b c : UInt64}, a ≤ b → b ≤ c → a ≤ c := fun h h' => UInt64.le_trans h h'
      refine ⟨tr h1 i1, ?_, ?_⟩
      · rcases h2 with h2 | ⟨ev, h2, h3, h4⟩
        · rw [h2, List.nil_append]; exact i2
        · rw [h2, List.singleton_append, List.map_cons, List.pairwise_cons]
          refine ⟨?_, i2⟩
          intro s hs
          obtain ⟨e, he, rfl⟩ := List.mem_map.1 hs
          rw [h4]; exact (i3 e he).1
      · intro ev hev
        rcases List.mem_append.1 hev with hev | hev
        · rcases h2 with h2 | ⟨ev', h2, h3, h4⟩
          · rw [h2] at hev; simp at hev
          · rw [h2, List.mem_singleton] at hev
            subst hev
            exact ⟨h3, by rw [h4]; exact i1⟩
        · obtain ⟨j1, j2⟩ := i3 ev hev
          refine ⟨?_, j2⟩
          rw [UInt64.lt_iff_toNat_lt] at j1 ⊢
          rw [UInt64.le_iff_toNat_le] at h1
          omega
  exact (key ops c).2

/-- C18: an accepted number, or any smaller one, is never accepted again. -/
theorem C18_no_replay (E : Engine) (c : StreamCtx) (ops₁ ops₂ : List StreamOp) (ev : StreamEv)
    (hev : ev ∈ (streamRun E c ops₁).2) :
    ∀ ev' ∈ (streamRun E (streamRun E c ops₁).1 ops₂).2, ev.seq < ev'.seq := by
  intro ev' h'
  have h1 := ((C18_sequence_strictly_increasing E c ops₁).2 ev hev).2
  have h2 := ((C18_sequence_strictly_increasing E (streamRun E c ops₁).1 ops₂).2 ev' h').1
  rw [UInt64.le_iff_toNat_le] at h1
  rw [UInt64.lt_iff_toNat_lt] at h2 ⊢
  omega

/-! Concrete stream for the examples. -/

/-- A stream key: AES-GCM key of 32 sevens, evolution key, new key every second packet. -/
def toyStreamKey : StreamKey := ⟨⟨.gcm, List.replicate 32 7⟩, List.replicate 32 9, 2, none⟩
theorem toyStreamKey_wf : WfStreamKey toyStreamKey :=
  ⟨rfl, rfl, ⟨by decide, by decide⟩, by decide, by simp [toyStreamKey]⟩
def toySeed : Bytes := List.replicate 64 3
def toyEncoder : StreamCtx := ⟨toyStreamKey, some ⟨.gcm, toySeed, 0⟩, 0, .encode, 1⟩
def toyDecoder : StreamCtx := ⟨toyStreamKey, none, 0, .decode, 1⟩
theorem toyEncoder_created : streamCtxCreate toyStreamKey .encode toySeed = some toyEncoder := by decide
theorem toyDecoder_created : streamCtxCreate toyStreamKey .decode [] = some toyDecoder := by decide

/-- Three messages; AAD is the encoded sequence number. -/
def toySends : List StreamOp :=
  [.encode [1, 2] (some (le64 1)) 1, .encode [3] (some (le64 4)) 4, .copy, .encode [8] (some (le64 4)) 4,
   .encode [5, 5] (some (le64 5)) 5]

def Spec.StreamEv.result : StreamEv → CipherResult
  | .encoded _ _ _ r => r
  | .decoded _ r _ _ => r
def Spec.StreamEv.data : StreamEv → Bytes
  | .encoded _ d _ _ => d
  | .decoded _ _ _ d => d
def Spec.StreamEv.aad : StreamEv → Option Bytes
  | .encoded _ _ a _ => a
  | .decoded _ _ a _ => a

set_option maxRecDepth 8192 in
/-- The example run produces data for the numbers 1, 4, 5 (4 not twice). -/
example : (streamRun toyEngine toyEncoder toySends).2.map StreamEv.seq = [1, 4, 5] := by decide +kernel

/-! ### C19 -/

/-- C19: after any history the context holds the initial key evolved `lastSeq / ppe` times, and every
result was produced with the initial key evolved `s / ppe` times, `s` being its sequence number. -/
theorem C19_key_depends_only_on_sequence (E : Engine) (hE : E.Lawful) (k : StreamKey) (hw : WfStreamKey k)
    (d : Dir) (seed : Bytes) (c : StreamCtx) (hc : streamCtxCreate k d seed = some c) (ops : List StreamOp) :
    keyBytes (streamRun E c ops).1.key =
      evo E (keyBytes k) ((streamRun E c ops).1.lastSeq.toNat / k.ppe.toNat) ∧
    ∀ ev ∈ (streamRun E c ops).2, match ev with
      | .encoded s pt a r => ∃ iv, E.encrypt pt a
          ⟨k.cipherKey.cipher, (evo E (keyBytes k) (s.toNat / k.ppe.toNat)).1⟩ iv = some r
      | .decoded s r a pt => E.decrypt r a
          ⟨k.cipherKey.cipher, (evo E (keyBytes k) (s.toNat / k.ppe.toNat)).1⟩ true = some pt := by
  have key : ∀ (ops : List StreamOp) (c : StreamCtx), StreamInv E k c → DirIv c →
      ∀ ev ∈ (streamRun E c ops).2, match ev with
      | .encoded s pt a r => ∃ iv, E.encrypt pt a
          ⟨k.cipherKey.cipher, (evo E (keyBytes k) (s.toNat / k.ppe.toNat)).1⟩ iv = some r
      | .decoded s r a pt => E.decrypt r a
          ⟨k.cipherKey.cipher, (evo E (keyBytes k) (s.toNat / k.ppe.toNat)).1⟩ true = some pt := by
    intro ops
    induction ops with
    | nil => intro c _ _ ev h; simp [streamRun] at h
    | cons op ops ih =>
      intro c hI hD ev hev
      have e2 : (streamRun E c (op :: ops)).2 = (op.step E c).2 ++ (streamRun E (op.step E c).1 ops).2 := rfl
      rw [e2] at hev
      rcases List.mem_append.1 hev with hev | hev
      · cases op with
        | encode pt a s =>
          rw [streamEncode_step] at hev
          by_cases hr : s ≤ c.lastSeq ∨ c.dir ≠ .encode
          · rw [streamEncode_refused hr] at hev; simp at hev
          · have h1 : c.lastSeq < s := not_le_u64.1 fun hc => hr (Or.inl hc)
            have h2 : c.dir = .encode := Decidable.byContradiction fun hc => hr (Or.inr hc)
            obtain ⟨f, hf⟩ := hD h2
            obtain ⟨hm, -, -, he⟩ := streamEncode_eq hE hw hI hf h2 h1 pt a
            rw [he] at hev
            simp only [] at hev
            split at hev
            · next r hr2 =>
              rw [List.mem_singleton] at hev
              subst hev
              exact ⟨_, hr2⟩
            · simp at hev
        | decode r a s =>
          rw [streamDecode_step] at hev
          by_cases hr : s ≤ c.lastSeq ∨ c.dir ≠ .decode
          · rw [streamDecode_refused hr] at hev; simp at hev
          · have h1 : c.lastSeq < s := not_le_u64.1 fun hc => hr (Or.inl hc)
            have h2 : c.dir = .decode := Decidable.byContradiction fun hc => hr (Or.inr hc)
            rw [streamDecode_eq hE hw hI h2 h1] at hev
            simp only [] at hev
            split at hev
            · next pt hr2 =>
              rw [List.mem_singleton] at hev
              subst hev
              exact hr2
            · simp at hev
        | copy => simp [StreamOp.step] at hev
      · obtain ⟨i1, i2, -⟩ := step_inv hE hw hI hD op
        exact ih _ i1 i2 ev hev
  refine ⟨?_, key ops c (streamCtxCreate_inv hc) (create_dirIv hc)⟩
  obtain ⟨h1, -, -⟩ := run_inv hE hw ops (streamCtxCreate_inv (E := E) hc) (create_dirIv hc)
  rw [h1.key]; rfl

/-- C19: a packet encoded for number `s` by one side, after any history there, is decoded by the
other side after any history there (any packets lost, refused or forged) in which `s` was not yet
passed. -/
theorem C19_lost_packets_do_not_matter (E : Engine) (hE : E.Lawful) (k : StreamKey) (hw : WfStreamKey k)
    (seed seed' : Bytes) (ce cd : StreamCtx) (hce : streamCtxCreate k .encode seed = some ce)
    (hcd : streamCtxCreate k .decode seed' = some cd) (sends recvs : List StreamOp)
    (pt : Bytes) (aad : Option Bytes) (s : UInt64) (hpt : 0 < pt.length ∧ pt.length + 1 ≤ maxBuffer)
    (hs : (streamRun E ce sends).1.lastSeq < s) (hr : (streamRun E cd recvs).1.lastSeq < s) :
    ∃ r, (streamEncode E (streamRun E ce sends).1 pt aad s).2 = some r ∧
      (streamDecode E (streamRun E cd recvs).1 r aad s).2 = some pt := by
  obtain ⟨e1, e2, e3⟩ := run_inv hE hw sends (streamCtxCreate_inv (E := E) hce) (create_dirIv hce)
  obtain ⟨d1, -, d3⟩ := run_inv hE hw recvs (streamCtxCreate_inv (E := E) hcd) (create_dirIv hcd)
  have he : (streamRun E ce sends).1.dir = .encode := by rw [e3, (streamCtxCreate_some hce).1]
  have hd : (streamRun E cd recvs).1.dir = .decode := by rw [d3, (streamCtxCreate_some hcd).1]
  obtain ⟨f, hf⟩ := e2 he
  have hkw := evoKeyObj_wf hE (epoch k s) hw
  -- the IV factory keeps the cipher of the stream, so the IV has the right length
  have hfc : ∀ (ops : List StreamOp) (c : StreamCtx), (∀ g, c.iv = some g → g.cipher = .gcm) →
      ∀ g, (streamRun E c ops).1.iv = some g → g.cipher = .gcm := by
    intro ops
    induction ops with
    | nil => intro c h; exact h
    | cons op ops ih =>
      intro c h
      refine ih _ ?_
      cases op with
      | encode d a s =>
        rw [streamEncode_step]
        simp only [streamEncode]
        split
        · exact h
        · cases hci : c.iv with
          | none => intro g hg; simp [hci] at hg
          | some j =>
            have hj := h j hci
            simp only [Option.bind_some, streamIvGenerate]
            cases hmj : E.hmac (le64 j.count) j.seed .sha512 with
            | none => intro g hg; simp [hci] at hg; rw [← hg]; exact hj
            | some m =>
              simp only [Option.map_some]
              split <;> (intro g hg; simp at hg; rw [← hg]; exact hj)
      | decode r a s =>
        rw [streamDecode_step]
        simp only [streamDecode]
        split
        · exact h
        · split <;> exact h
      | copy =>
        simp only [StreamOp.step]
        cases hc : streamCtxCopy c with
        | none => exact h
        | some c' =>
          intro g hg
          simp only [Option.getD_some] at hg
          unfold streamCtxCopy at hc
          split at hc
          · simp at hc
          · simp only [] at hc
            split at hc
            · simp at hc
            · injection hc with hc
              subst hc
              simp only [] at hg
              cases hci : c.iv with
              | none => rw [hci] at hg; simp at hg
              | some j =>
                rw [hci, Option.bind_some, streamIvCopy] at hg
                cases hdj : dup j.seed with
                | none => rw [hdj] at hg; simp at hg
                | some x => rw [hdj] at hg; simp at hg; rw [← hg]; exact h j hci
  have hauth : ∀ c : Cipher, c.isAuth = true → c = .gcm := by intro c h; cases c <;> simp_all [Cipher.isAuth]
  have hkc : k.cipherKey.cipher = .gcm := hauth _ hw.auth
  have hfg : f.cipher = .gcm := by
    refine hfc sends ce ?_ f hf
    intro g hg
    rw [(streamCtxCreate_some hce).1] at hg
    simp at hg; rw [← hg]; exact hkc
  obtain ⟨hm, -, hl, hee⟩ := streamEncode_eq hE hw e1 hf he hs pt aad
  have hiv : (hm.take f.cipher.ivLen).length = (evoKeyObj E k (epoch k s)).cipherKey.cipher.ivLen := by
    have : (evoKeyObj E k (epoch k s)).cipherKey.cipher = .gcm := hkc
    rw [this, hfg, List.length_take, hl]; rfl
  obtain ⟨r, ct, hr1, -, -, -, -, -, hdec⟩ := hE.enc_dec pt aad (evoKeyObj E k (epoch k s)).cipherKey
    (hm.take f.cipher.ivLen) hpt.1 hpt.2 (by rw [keyLen_32]; exact hkw.key) hiv (fun _ => hkw.auth)
  refine ⟨r, by rw [hee, hr1], ?_⟩
  rw [streamDecode_eq hE hw d1 hd hr]
  exact hdec true (fun _ => hkw.auth)

/-- The hypotheses hold: after the example history, number 9 decodes at a receiver that saw nothing. -/
example : ∃ r, (streamEncode toyEngine (streamRun toyEngine toyEncoder toySends).1 [1, 1] none 9).2 = some r ∧
    (streamDecode toyEngine (streamRun toyEngine toyDecoder []).1 r none 9).2 = some [1, 1] :=
  C19_lost_packets_do_not_matter toyEngine toyEngine_lawful toyStreamKey toyStreamKey_wf toySeed []
    toyEncoder toyDecoder toyEncoder_created toyDecoder_created toySends [] [1, 1] none 9
    ⟨by decide, by decide⟩ (by decide +kernel) (by decide)

/-! ### C20 -/

/-- What was sent: sequence number, plaintext. -/
def sentOf (evs : List StreamEv) : List (UInt64 × Bytes) := evs.filterMap fun
  | .encoded s d _ _ => some (s, d)
  | .decoded .. => none

/-- What was delivered: sequence number, plaintext. -/
def deliveredOf (evs : List StreamEv) : List (UInt64 × Bytes) := evs.filterMap fun
  | .decoded s _ _ d => some (s, d)
  | .encoded .. => none

/-- The calls of a sender whose packets carry the header `hdr seq` as AAD. -/
def sendOps (hdr : UInt64 → Bytes) (msgs : List (UInt64 × Bytes)) : List StreamOp :=
  msgs.map fun m => .encode m.2 (some (hdr m.1)) m.1

/-- The calls of a receiver for an arbitrary list of packets chosen by the network. -/
def recvOps (hdr : UInt64 → Bytes) (net : List (UInt64 × CipherResult)) : List StreamOp :=
  net.map fun m => .decode m.2 (some (hdr m.1)) m.1

theorem pairwise_filterMap_seq {evs : List StreamEv} (f : StreamEv → Option (UInt64 × Bytes))
    (hf : ∀ ev p, f ev = some p → p.1 = ev.seq) (h : (evs.map StreamEv.seq).Pairwise (· < ·)) :
    (evs.filterMap f).Pairwise (fun x y => x.1 < y.1) := by
  induction evs with
  | nil => exact List.Pairwise.nil
  | cons e evs ih =>
    rw [List.map_cons, List.pairwise_cons] at h
    rw [List.filterMap_cons]
    cases hfe : f e with
    | none => exact ih h.2
    | some p =>
      simp only []
      rw [List.pairwise_cons]
      refine ⟨?_, ih h.2⟩
      intro q hq
      obtain ⟨e', he', hq'⟩ := List.mem_filterMap.1 hq
      rw [hf e p hfe, hf e' q hq']
      exact h.1 _ (List.mem_map_of_mem he')

/-- C20: for every list of messages and every network schedule, what the decoder delivers is, in order
and without duplicates, a sublist of what the encoder sent, and this holds for the pairs of sequence
number and plaintext.  The unforgeability assumption concerns this run only: a packet of the schedule
that decrypts under the stream's key for its number carries a header and a plaintext the sender did encrypt. -/
theorem C20_delivery_is_sublist (E : Engine) (hE : E.Lawful) (k : StreamKey) (hw : WfStreamKey k)
    (seed' : Bytes) (ce cd : StreamCtx) (hcd : streamCtxCreate k .decode seed' = some cd)
    (hdr : UInt64 → Bytes) (hinj : ∀ s s', hdr s = hdr s' → s = s')
    (msgs : List (UInt64 × Bytes)) (net : List (UInt64 × CipherResult))
    (unforgeable : ∀ s r pt, (s, r) ∈ net →
      E.decrypt r (some (hdr s)) ⟨k.cipherKey.cipher, (evo E (keyBytes k) (s.toNat / k.ppe.toNat)).1⟩ true
        = some pt →
      ∃ s' ct, .encoded s' pt (some (hdr s)) ct ∈ (streamRun E ce (sendOps hdr msgs)).2) :
    (deliveredOf (streamRun E cd (recvOps hdr net)).2).Sublist
      (sentOf (streamRun E ce (sendOps hdr msgs)).2) := by
  -- the AAD of a sent packet is the header of its number
  have sentAad : ∀ (msgs : List (UInt64 × Bytes)) (c : StreamCtx) s pt a ct,
      .encoded s pt a ct ∈ (streamRun E c (sendOps hdr msgs)).2 → a = some (hdr s) := by
    intro msgs
    induction msgs with
    | nil => intro c s pt a ct h; simp [sendOps, streamRun] at h
    | cons m msgs ih =>
      intro c s pt a ct h
      have e2 : (streamRun E c (sendOps hdr (m :: msgs))).2 =
        (StreamOp.step E c (.encode m.2 (some (hdr m.1)) m.1)).2 ++
          (streamRun E (StreamOp.step E c (.encode m.2 (some (hdr m.1)) m.1)).1 (sendOps hdr msgs)).2 := rfl
      rw [e2] at h
      rcases List.mem_append.1 h with h | h
      · rw [streamEncode_step] at h
        simp only [] at h
        split at h
        · rw [List.mem_singleton] at h; cases h; rfl
        · simp at h
      · exact ih _ _ _ _ _ h
  have recvNet : ∀ (net : List (UInt64 × CipherResult)) (c : StreamCtx) s r a pt,
      .decoded s r a pt ∈ (streamRun E c (recvOps hdr net)).2 → a = some (hdr s) ∧ (s, r) ∈ net := by
    intro net
    induction net with
    | nil => intro c s r a pt h; simp [recvOps, streamRun] at h
    | cons m net ih =>
      intro c s r a pt h
      have e2 : (streamRun E c (recvOps hdr (m :: net))).2 =
        (StreamOp.step E c (.decode m.2 (some (hdr m.1)) m.1)).2 ++
          (streamRun E (StreamOp.step E c (.decode m.2 (some (hdr m.1)) m.1)).1 (recvOps hdr net)).2 := rfl
      rw [e2] at h
      rcases List.mem_append.1 h with h | h
      · rw [streamDecode_step] at h
        simp only [] at h
        split at h
        · rw [List.mem_singleton] at h; cases h; exact ⟨rfl, List.mem_cons_self⟩
        · simp at h
      · obtain ⟨h1, h2⟩ := ih _ _ _ _ _ h
        exact ⟨h1, List.mem_cons_of_mem _ h2⟩
  refine sublist_of_sorted Prod.fst _ _ ?_ ?_ ?_
  · refine pairwise_filterMap_seq _ ?_ (C18_sequence_strictly_increasing E cd _).1
    intro ev p h; cases ev <;> simp at h; rw [← h]; rfl
  · refine pairwise_filterMap_seq _ ?_ (C18_sequence_strictly_increasing E ce _).1
    intro ev p h; cases ev <;> simp at h; rw [← h]; rfl
  · intro p hp
    obtain ⟨ev, hev, hp⟩ := List.mem_filterMap.1 hp
    cases ev with
    | encoded s d a r => simp at hp
    | decoded s r a d =>
      simp only [Option.some.injEq] at hp
      obtain ⟨ha, hn⟩ := recvNet net cd s r a d hev
      have hd := (C19_key_depends_only_on_sequence E hE k hw .decode seed' cd hcd (recvOps hdr net)).2 _ hev
      simp only [] at hd
      rw [ha] at hd
      obtain ⟨s', ct, hs'⟩ := unforgeable s r d hn hd
      have := hinj _ _ (Option.some.inj (sentAad msgs ce _ _ _ _ hs'))
      refine List.mem_filterMap.2 ⟨_, hs', ?_⟩
      rw [← hp, this]

/-- Three sent messages, of which the network loses one, duplicates one, swaps two and adds a forged
packet; the toy cipher detects the forgery. -/
def toyMsgs : List (UInt64 × Bytes) := [(1, [10]), (2, [20, 21]), (3, [30])]
def toySent : List StreamEv := (streamRun toyEngine toyEncoder (sendOps le64 toyMsgs)).2
def toyNet : List (UInt64 × CipherResult) :=
  match toySent with
  | [e1, _, e3] => [(1, e1.result), (1, e1.result), (2, { e3.result with tag := some (List.replicate 16 0) }),
      (3, e3.result), (2, e3.result)]
  | _ => []

set_option maxRecDepth 8192 in
example : deliveredOf (streamRun toyEngine toyDecoder (recvOps le64 toyNet)).2 = [(1, [10]), (3, [30])] ∧
    sentOf toySent = toyMsgs := by decide +kernel

set_option maxRecDepth 8192 in
/-- The unforgeability hypothesis holds for that schedule. -/
theorem toyNet_unforgeable : ∀ p ∈ toyNet, ∀ pt, toyEngine.decrypt p.2 (some (le64 p.1))
    ⟨.gcm, (evo toyEngine (keyBytes toyStreamKey) (p.1.toNat / 2)).1⟩ true = some pt →
    toySent.any (fun ev => match ev with
      | .encoded _ d a _ => d == pt && a == some (le64 p.1)
      | .decoded .. => false) = true := by
  have h : (toyNet.all fun p => (toyEngine.decrypt p.2 (some (le64 p.1))
      ⟨.gcm, (evo toyEngine (keyBytes toyStreamKey) (p.1.toNat / 2)).1⟩ true).all fun pt =>
        toySent.any (fun ev => match ev with
        | .encoded _ d a _ => d == pt && a == some (le64 p.1)
        | .decoded .. => false)) = true := by decide +kernel
  intro p hp pt hpt
  have := List.all_eq_true.1 h p hp
  rw [hpt] at this
  exact this

example : (deliveredOf (streamRun toyEngine toyDecoder (recvOps le64 toyNet)).2).Sublist (sentOf toySent) := by
  refine C20_delivery_is_sublist toyEngine toyEngine_lawful toyStreamKey toyStreamKey_wf [] toyEncoder
    toyDecoder toyDecoder_created le64 (fun _ _ h => le64_inj h) toyMsgs toyNet ?_
  intro s r pt hp hd
  have := toyNet_unforgeable (s, r) hp pt hd
  obtain ⟨ev, hev, hm⟩ := List.any_eq_true.1 this
  cases ev with
  | decoded => simp at hm
  | encoded s' d a ct =>
    simp at hm
    rw [← hm.1, ← hm.2]
    exact ⟨s', ct, hev⟩

/-! ### C21 -/

/-- IV number `i` of a seed. -/
def ivAt (E : Engine) (c : Cipher) (seed : Bytes) (i : Nat) : Option Bytes :=
  (E.hmac (le64 (UInt64.ofNat i)) seed .sha512).map fun h => h.take c.ivLen

/-- The IVs of everything encrypted in a history. -/
def ivsOf (evs : List StreamEv) : List Bytes := evs.filterMap fun
  | .encoded _ _ _ r => some r.iv
  | .decoded .. => none

structure IvInv (k : StreamKey) (seed : Bytes) (c : StreamCtx) (f : StreamIv) : Prop where
  iv : c.iv = some f
  cipher : f.cipher = k.cipherKey.cipher
  seed : f.seed = seed
  le : f.count.toNat ≤ c.lastSeq.toNat

theorem streamIvs_aux (E : Engine) (hE : E.Lawful) (k : StreamKey) (hw : WfStreamKey k) (seed : Bytes) :
    ∀ (ops : List StreamOp) (c : StreamCtx) (f : StreamIv), StreamInv E k c → c.dir = .encode →
      IvInv k seed c f →
      ∃ (f' : StreamIv) (idx : List Nat), IvInv k seed (streamRun E c ops).1 f' ∧
        f.count.toNat ≤ f'.count.toNat ∧
        (∀ i ∈ idx, f.count.toNat ≤ i ∧ i < f'.count.toNat) ∧ idx.Pairwise (· < ·) ∧
        (ivsOf (streamRun E c ops).2).map some = idx.map (ivAt E k.cipherKey.cipher seed) := by
  intro ops
  induction ops with
  | nil => intro c f _ _ hf; exact ⟨f, [], hf, Nat.le_refl _, by simp, List.Pairwise.nil, rfl⟩
  | cons op ops ih =>
    intro c f hI hd hf
    have hD : DirIv c := fun _ => ⟨f, hf.iv⟩
    obtain ⟨s1, s2, s3⟩ := step_inv hE hw hI hD op
    have e1 : (streamRun E c (op :: ops)).1 = (streamRun E (op.step E c).1 ops).1 := rfl
    have e2 : (streamRun E c (op :: ops)).2 = (op.step E c).2 ++ (streamRun E (op.step E c).1 ops).2 := rfl
    have eiv : ∀ a b, ivsOf (a ++ b) = ivsOf a ++ ivsOf b := fun a b => List.filterMap_append
    -- every call either leaves the factory alone, or uses exactly the next counter value
    have hstep : (∃ f1, IvInv k seed (op.step E c).1 f1 ∧ f1.count = f.count ∧ (op.step E c).2 = []) ∨
        (∃ f1 : StreamIv, IvInv k seed (op.step E c).1 f1 ∧ f1.count.toNat = f.count.toNat + 1 ∧
          ((ivsOf (op.step E c).2).map some = [] ∨
           (ivsOf (op.step E c).2).map some = [ivAt E k.cipherKey.cipher seed f.count.toNat])) := by
      cases op with
      | encode pt a s =>
        rw [streamEncode_step]
        by_cases hr : s ≤ c.lastSeq ∨ c.dir ≠ .encode
        · rw [streamEncode_refused hr]; exact Or.inl ⟨f, hf, rfl, rfl⟩
        · right
          have h1 : c.lastSeq < s := not_le_u64.1 fun hc => hr (Or.inl hc)
          obtain ⟨hm, hh, hl, he⟩ := streamEncode_eq hE hw hI hf.iv hd h1 pt a
          rw [he]
          have hlt := UInt64.lt_iff_toNat_lt.1 h1
          have hle := hf.le
          have hsb := s.toNat_lt
          have hadd : (f.count + 1).toNat = f.count.toNat + 1 := by
            rw [UInt64.toNat_add]; show (f.count.toNat + 1) % _ = _; omega
          refine ⟨{ f with count := f.count + 1 }, ⟨rfl, hf.cipher, hf.seed, ?_⟩, hadd, ?_⟩
          · simp only [hadd]; omega
          · simp only []
            cases hen : E.encrypt pt a (evoKeyObj E k (epoch k s)).cipherKey (hm.take f.cipher.ivLen) with
            | none => exact Or.inl rfl
            | some r =>
              right
              have := (hE.enc_out _ _ _ _ _ hen).2
              have hi : ivAt E k.cipherKey.cipher seed f.count.toNat = some (hm.take f.cipher.ivLen) := by
                rw [ivAt, UInt64.ofNat_toNat, ← hf.seed, hh, hf.cipher]; rfl
              rw [hi]
              simp [ivsOf, this]
      | decode r a s =>
        left
        rw [streamDecode_step, streamDecode_refused (Or.inr (by rw [hd]; decide))]
        exact ⟨f, hf, rfl, rfl⟩
      | copy =>
        left
        simp only [StreamOp.step]
        cases hc : streamCtxCopy c with
        | none => exact ⟨f, hf, rfl, trivial⟩
        | some c' =>
          obtain ⟨q1, q2, q3, q4⟩ := streamCtxCopy_some hc
          refine ⟨f, ⟨?_, hf.cipher, hf.seed, ?_⟩, rfl, trivial⟩
          · rw [Option.getD_some, q4 hd]; exact hf.iv
          · rw [Option.getD_some, q2]; exact hf.le
    have hd1 : (op.step E c).1.dir = .encode := s3.trans hd
    rw [e1, e2, eiv, List.map_append]
    rcases hstep with ⟨f1, g1, g2, g3⟩ | ⟨f1, g1, g2, g3⟩
    · obtain ⟨f', idx, i1, i2, i3, i4, i5⟩ := ih _ f1 s1 hd1 g1
      rw [g2] at i2 i3
      exact ⟨f', idx, i1, i2, i3, i4, by rw [g3]; exact i5⟩
    · obtain ⟨f', idx, i1, i2, i3, i4, i5⟩ := ih _ f1 s1 hd1 g1
      rw [g2] at i2 i3
      rcases g3 with g3 | g3
      · exact ⟨f', idx, i1, by omega, fun i hi => ⟨by have := i3 i hi; omega, (i3 i hi).2⟩, i4,
          by rw [g3]; exact i5⟩
      · refine ⟨f', f.count.toNat :: idx, i1, by omega, ?_, ?_, ?_⟩
        · intro i hi
          rcases List.mem_cons.1 hi with rfl | hi
          · omega
          · have := i3 i hi; omega
        · rw [List.pairwise_cons]; exact ⟨fun i hi => by have := i3 i hi; omega, i4⟩
        · rw [g3, List.map_cons, i5]; rfl

/-- C21: in every history of an encoding context (of any length, with failed calls, and including
replacing the context by a copy of itself) the IVs come, in order, from strictly increasing counter
values of the one seed.  The counter never exceeds the last sequence number, so it does not wrap. -/
theorem C21_iv_counters_increase (E : Engine) (hE : E.Lawful) (k : StreamKey) (hw : WfStreamKey k)
    (seed : Bytes) (c : StreamCtx) (hc : streamCtxCreate k .encode seed = some c) (ops : List StreamOp) :
    ∃ idx : List Nat, idx.Pairwise (· < ·) ∧
      (∀ i ∈ idx, i < (streamRun E c ops).1.lastSeq.toNat) ∧
      (ivsOf (streamRun E c ops).2).map some = idx.map (ivAt E k.cipherKey.cipher seed) := by
  have hcs := (streamCtxCreate_some hc).1
  obtain ⟨f', idx, i1, i2, i3, i4, i5⟩ := streamIvs_aux E hE k hw seed ops c ⟨k.cipherKey.cipher, seed, 0⟩
    (streamCtxCreate_inv hc) (by rw [hcs]) ⟨by rw [hcs]; rfl, rfl, rfl, by simp⟩
  refine ⟨idx, i4, fun i hi => ?_, i5⟩
  have := (i3 i hi).2
  have := i1.le
  omega

/-- C21: if the generator maps the counter values below the last sequence number to distinct IVs, no
IV is ever used twice. -/
theorem C21_ivs_distinct (E : Engine) (hE : E.Lawful) (k : StreamKey) (hw : WfStreamKey k)
    (seed : Bytes) (c : StreamCtx) (hc : streamCtxCreate k .encode seed = some c) (ops : List StreamOp)
    (noCollision : ∀ i j, i < (streamRun E c ops).1.lastSeq.toNat → j < (streamRun E c ops).1.lastSeq.toNat →
      ivAt E k.cipherKey.cipher seed i = ivAt E k.cipherKey.cipher seed j → i = j) :
    (ivsOf (streamRun E c ops).2).Nodup := by
  obtain ⟨idx, h1, h2, h3⟩ := C21_iv_counters_increase E hE k hw seed c hc ops
  have key : ∀ (idx : List Nat) (ivs : List Bytes), idx.Pairwise (· < ·) →
      (∀ i ∈ idx, i < (streamRun E c ops).1.lastSeq.toNat) →
      ivs.map some = idx.map (ivAt E k.cipherKey.cipher seed) → ivs.Nodup := by
    intro idx
    induction idx with
    | nil => intro ivs _ _ h; simp at h; rw [h]; exact List.nodup_nil
    | cons i idx ih =>
      intro ivs hp hb h
      cases ivs with
      | nil => simp at h
      | cons v ivs =>
        rw [List.map_cons, List.map_cons, List.cons.injEq] at h
        rw [List.pairwise_cons] at hp
        rw [List.nodup_cons]
        refine ⟨?_, ih ivs hp.2 (fun j hj => hb j (by simp [hj])) h.2⟩
        intro hv
        have : some v ∈ ivs.map some := List.mem_map_of_mem hv
        rw [h.2] at this
        obtain ⟨j, hj, hij⟩ := List.mem_map.1 this
        have := noCollision j i (hb j (by simp [hj])) (hb i (by simp)) (by rw [hij, h.1])
        have := hp.1 j hj
        omega
  exact key idx _ h1 h2 h3

set_option maxRecDepth 8192 in
/-- The collision hypothesis can be met: the toy generator maps the five counter values below the
last sequence number of the example history to distinct IVs, and three IVs are used. -/
example : (streamRun toyEngine toyEncoder toySends).1.lastSeq = 5 ∧
    (ivsOf (streamRun toyEngine toyEncoder toySends).2).length = 3 ∧
    ∀ i ∈ List.range 5, ∀ j ∈ List.range 5,
      ivAt toyEngine .gcm toySeed i = ivAt toyEngine .gcm toySeed j → i = j := by decide +kernel

/-! ### C22 -/

/-- C22 is false: a copy and its original, both still in use, encrypt their next packet under the same
IV, and under the same key whenever the two sequence numbers belong to the same evolution. -/
theorem C22_copy_reuses_key_and_iv (E : Engine) (hE : E.Lawful) (k : StreamKey) (hw : WfStreamKey k)
    (seed : Bytes) (c₀ : StreamCtx) (hc₀ : streamCtxCreate k .encode seed = some c₀) (ops : List StreamOp)
    (c' : StreamCtx) (hcopy : streamCtxCopy (streamRun E c₀ ops).1 = some c')
    (m m' : Bytes) (a a' : Option Bytes) (s s' : UInt64)
    (hs : (streamRun E c₀ ops).1.lastSeq < s) (hs' : (streamRun E c₀ ops).1.lastSeq < s')
    (hep : s.toNat / k.ppe.toNat = s'.toNat / k.ppe.toNat) :
    ∃ key iv, (streamEncode E (streamRun E c₀ ops).1 m a s).2 = E.encrypt m a key iv ∧
      (streamEncode E c' m' a' s').2 = E.encrypt m' a' key iv := by
  obtain ⟨e1, e2, e3⟩ := run_inv hE hw ops (streamCtxCreate_inv (E := E) hc₀) (create_dirIv hc₀)
  have hd : (streamRun E c₀ ops).1.dir = .encode := by rw [e3, (streamCtxCreate_some hc₀).1]
  obtain ⟨f, hf⟩ := e2 hd
  obtain ⟨q1, q2, q3, q4⟩ := streamCtxCopy_some hcopy
  have hI' : StreamInv E k c' := ⟨by rw [q1, q2]; exact e1.key⟩
  obtain ⟨hm, g1, g2, g3⟩ := streamEncode_eq hE hw e1 hf hd hs m a
  obtain ⟨hm', g1', g2', g3'⟩ := streamEncode_eq hE hw hI' ((q4 hd).trans hf) (q3.trans hd)
    (by rw [q2]; exact hs') m' a'
  have : hm' = hm := by rw [g1] at g1'; exact (Option.some.inj g1').symm
  subst this
  have hee : epoch k s' = epoch k s := hep.symm
  exact ⟨_, _, by rw [g3], by rw [g3', hee]⟩

set_option maxRecDepth 8192 in
/-- Concretely: original and copy encrypt different messages for number 1, both get the same IV, and
the two cipher texts reveal the difference of the plaintexts. -/
theorem C22_copy_leaks_plaintext_difference :
    ∃ c' r r', streamCtxCopy toyEncoder = some c' ∧
      (streamEncode toyEngine toyEncoder [0x50, 0x51] none 1).2 = some r ∧
      (streamEncode toyEngine c' [0x60, 0x71] none 1).2 = some r' ∧ r.iv = r'.iv ∧
      List.zipWith (· ^^^ ·) (r.ct.getD []) (r'.ct.getD []) = [0x50 ^^^ 0x60, 0x51 ^^^ 0x71] :=
  ⟨toyEncoder, _, _, by decide, rfl, rfl, by decide +kernel, by decide +kernel⟩

/-- What remains of C22: if only one of original and copy is used to encrypt from the moment of
copying on, no IV repeats; a copy behaves exactly like its original.  Missing: independent use of
both, which the theorem above refutes. -/
theorem C22_handover_partial (E : Engine) (hE : E.Lawful) (k : StreamKey) (hw : WfStreamKey k)
    (seed : Bytes) (c : StreamCtx) (hc : streamCtxCreate k .encode seed = some c)
    (before after : List StreamOp) (c' : StreamCtx)
    (hcopy : streamCtxCopy (streamRun E c before).1 = some c')
    (noCollision : ∀ i j, i < (streamRun E c' after).1.lastSeq.toNat →
      j < (streamRun E c' after).1.lastSeq.toNat →
      ivAt E k.cipherKey.cipher seed i = ivAt E k.cipherKey.cipher seed j → i = j) :
    (ivsOf (streamRun E c before).2 ++ ivsOf (streamRun E c' after).2).Nodup := by
  have app : ∀ (a b : List StreamOp) (c : StreamCtx),
      streamRun E c (a ++ b) = ((streamRun E (streamRun E c a).1 b).1,
        (streamRun E c a).2 ++ (streamRun E (streamRun E c a).1 b).2) := by
    intro a b
    induction a with
    | nil => intro c; rfl
    | cons op a ih =>
      intro c
      show ((streamRun E (op.step E c).1 (a ++ b)).1, (op.step E c).2 ++ (streamRun E (op.step E c).1 (a ++ b)).2) = _
      rw [ih]
      simp [streamRun]
  have hrun : streamRun E c (before ++ (.copy :: after)) =
      ((streamRun E c' after).1, (streamRun E c before).2 ++ (streamRun E c' after).2) := by
    rw [app]
    have : (StreamOp.step E (streamRun E c before).1 .copy) = (c', []) := by
      simp [StreamOp.step, hcopy]
    show ((streamRun E (StreamOp.step E (streamRun E c before).1 .copy).1 after).1, _) = _
    simp [streamRun, this]
  have := C21_ivs_distinct E hE k hw seed c hc (before ++ (.copy :: after)) (by rw [hrun]; exact noCollision)
  rw [hrun] at this
  simpa [ivsOf, List.filterMap_append] using this

/-! ### C23 -/

/-- C23 is false: any packet with a number above the last one, however invalid, makes the decoder
refuse every genuine packet up to that number. -/
theorem C23_forged_packet_blocks_genuine (E : Engine) (hE : E.Lawful) (k : StreamKey) (hw : WfStreamKey k)
    (seed : Bytes) (c₀ : StreamCtx) (hc₀ : streamCtxCreate k .decode seed = some c₀) (ops : List StreamOp)
    (forged : CipherResult) (a : Option Bytes) (s : UInt64) (hs : (streamRun E c₀ ops).1.lastSeq < s) :
    ∀ (genuine : CipherResult) (a' : Option Bytes) (s' : UInt64), s' ≤ s →
      (streamDecode E (streamDecode E (streamRun E c₀ ops).1 forged a s).1 genuine a' s').2 = none := by
  intro g a' s' hle
  obtain ⟨e1, -, e3⟩ := run_inv hE hw ops (streamCtxCreate_inv (E := E) hc₀) (create_dirIv hc₀)
  have hd : (streamRun E c₀ ops).1.dir = .decode := by rw [e3, (streamCtxCreate_some hc₀).1]
  rw [streamDecode_eq hE hw e1 hd hs, streamDecode_refused (Or.inl hle)]

set_option maxRecDepth 8192 in
/-- Concretely: the genuine packet 1 is accepted by a fresh decoder, but not after a packet with
number 3 that fails authentication. -/
theorem C23_concrete :
    ∃ r bad, (streamEncode toyEngine toyEncoder [1, 2] (some (le64 1)) 1).2 = some r ∧
      (streamDecode toyEngine toyDecoder r (some (le64 1)) 1).2 = some [1, 2] ∧
      (streamDecode toyEngine toyDecoder bad (some (le64 3)) 3).2 = none ∧
      (streamDecode toyEngine (streamDecode toyEngine toyDecoder bad (some (le64 3)) 3).1 r
        (some (le64 1)) 1).2 = none :=
  ⟨_, ⟨.gcm, List.replicate 12 0, some [1], some (List.replicate 16 0)⟩, rfl, by decide +kernel,
    by decide +kernel, by decide +kernel⟩

/-- What remains of C23: a packet whose number is not above the last one changes nothing at all, and
one that is rejected does not change how packets with larger numbers are treated.  Missing: genuine
packets that arrive late. -/
theorem C23_later_packets_partial (E : Engine) (hE : E.Lawful) (k : StreamKey) (hw : WfStreamKey k)
    (seed : Bytes) (c₀ : StreamCtx) (hc₀ : streamCtxCreate k .decode seed = some c₀) (ops : List StreamOp)
    (forged : CipherResult) (a : Option Bytes) (s : UInt64) :
    (s ≤ (streamRun E c₀ ops).1.lastSeq →
      streamDecode E (streamRun E c₀ ops).1 forged a s = ((streamRun E c₀ ops).1, none)) ∧
    ∀ (r : CipherResult) (a' : Option Bytes) (s' : UInt64), s < s' →
      streamDecode E (streamDecode E (streamRun E c₀ ops).1 forged a s).1 r a' s' =
        streamDecode E (streamRun E c₀ ops).1 r a' s' := by
  refine ⟨fun h => streamDecode_refused (Or.inl h), ?_⟩
  intro r a' s' hlt
  obtain ⟨e1, -, e3⟩ := run_inv hE hw ops (streamCtxCreate_inv (E := E) hc₀) (create_dirIv hc₀)
  have hd : (streamRun E c₀ ops).1.dir = .decode := by rw [e3, (streamCtxCreate_some hc₀).1]
  by_cases hs : s ≤ (streamRun E c₀ ops).1.lastSeq
  · rw [streamDecode_refused (Or.inl hs)]
  · have hs := not_le_u64.1 hs
    rw [streamDecode_eq hE hw e1 hd hs,
      streamDecode_eq (c := { (streamRun E c₀ ops).1 with key := evoKeyObj E k (epoch k s), lastSeq := s })
        hE hw ⟨rfl⟩ hd hlt,
      streamDecode_eq hE hw e1 hd (by rw [UInt64.lt_iff_toNat_lt] at *; omega)]

/-! ### C53 -/

/-- Calls on a shared handle. -/
inductive RefOp where
  | up
  | destroy
deriving DecidableEq

/-- Calls one after the other on one context: the number of `ref_up` calls that returned true, and
the context (`none` once released).  Touching a released context is undefined. -/
def refRun : Nat × Option StreamCtx → List RefOp → Res (Nat × Option StreamCtx)
  | st, [] => .ok st
  | (_, none), _ :: _ => .ub
  | (n, some c), .up :: ops =>
    let r := streamRefUp c
    refRun (if r.2 then n + 1 else n, some r.1) ops
  | (n, some c), .destroy :: ops => refRun (n, streamDestroy c) ops

theorem refRun_inv (c₀ : StreamCtx) : ∀ (ops : List RefOp) (n m : Nat) (st : Option StreamCtx) (n' : Nat)
    (st' : Option StreamCtx),
    (∀ c, st = some c → c = { c₀ with ref := c.ref } ∧ c.ref ≠ 0 ∧ c.ref.toNat + m = n + 1) →
    (st = none → m = n + 1) →
    refRun (n, st) ops = .ok (n', st') →
    (∀ c, st' = some c → c = { c₀ with ref := c.ref } ∧ c.ref ≠ 0 ∧
      c.ref.toNat + (m + ops.count .destroy) = n' + 1) ∧
    (st' = none → m + ops.count .destroy = n' + 1) := by
  intro ops
  induction ops with
  | nil =>
    intro n m st n' st' h1 h2 h
    simp only [refRun, Res.ok.injEq, Prod.mk.injEq] at h
    obtain ⟨rfl, rfl⟩ := h
    simpa using ⟨h1, h2⟩
  | cons op ops ih =>
    intro n m st n' st' h1 h2 h
    cases st with
    | none => simp [refRun] at h
    | some c =>
      obtain ⟨g1, g2, g3⟩ := h1 c rfl
      have g2' : c.ref.toNat ≠ 0 := fun hc => g2 (UInt64.toNat_inj.1 hc)
      cases op with
      | up =>
        simp only [refRun] at h
        have hcount : (RefOp.up :: ops).count .destroy = ops.count .destroy := by
          rw [List.count_cons]; rfl
        rw [hcount]
        by_cases hmax : c.ref = 0xFFFFFFFFFFFFFFFF
        · simp only [streamRefUp, if_pos hmax] at h
          exact ih n m (some c) n' st' h1 h2 h
        · simp only [streamRefUp, if_neg hmax] at h
          have hlt : c.ref.toNat + 1 < 2 ^ 64 := by
            have := c.ref.toNat_lt
            have hne : c.ref.toNat ≠ 18446744073709551615 := fun hc => hmax (UInt64.toNat_inj.1 hc)
            omega
          have hadd : (c.ref + 1).toNat = c.ref.toNat + 1 := by
            rw [UInt64.toNat_add]; show (c.ref.toNat + 1) % _ = _; omega
          refine ih (n + 1) m (some { c with ref := c.ref + 1 }) n' st' ?_ (by simp) h
          intro c' hc'
          injection hc' with hc'
          subst hc'
          refine ⟨by rw [g1], ?_, by simp only [hadd]; omega⟩
          intro h0
          have : (c.ref + 1).toNat = 0 := by simp only [] at h0; rw [h0]; rfl
          omega
      | destroy =>
        simp only [refRun] at h
        have hcount : (RefOp.destroy :: ops).count .destroy = ops.count .destroy + 1 := by
          rw [List.count_cons]; rfl
        rw [hcount]
        have hsub : (c.ref - 1).toNat = c.ref.toNat - 1 := by
          rw [UInt64.toNat_sub_of_le _ _ (by rw [UInt64.le_iff_toNat_le]; show 1 ≤ _; omega)]; rfl
        have hd : streamDestroy c = if c.ref - 1 = 0 then none else some { c with ref := c.ref - 1 } := by
          simp [streamDestroy, g2]
        rw [hd] at h
        have := ih n (m + 1) (if c.ref - 1 = 0 then none else some { c with ref := c.ref - 1 }) n' st' ?_ ?_ h
        · rw [show m + (ops.count .destroy + 1) = m + 1 + ops.count .destroy by omega]; exact this
        · intro c' hc'
          split at hc'
          · simp at hc'
          · next h0 =>
            injection hc' with hc'
            subst hc'
            exact ⟨by rw [g1], h0, by simp only [hsub]; omega⟩
        · intro hn
          split at hn
          · next h0 =>
            have : (c.ref - 1).toNat = 0 := by rw [h0]; rfl
            omega
          · simp at hn

/-- C53: for every interleaving of `ref_up` and `destroy` on a new context that does not touch it
after its release, with `n` successful `ref_up`s so far the context is released exactly if `n + 1`
destroys have happened, and otherwise it is intact and its counter is the number of owners. -/
theorem C53_released_exactly_once (c₀ : StreamCtx) (h₀ : c₀.ref = 1) (ops : List RefOp) (n : Nat)
    (st : Option StreamCtx) (h : refRun (0, some c₀) ops = .ok (n, st)) :
    (st = none ↔ ops.count .destroy = n + 1) ∧ ops.count .destroy ≤ n + 1 ∧
    (∀ c, st = some c → c = { c₀ with ref := c.ref } ∧ c.ref.toNat = n + 1 - ops.count .destroy) := by
  have := refRun_inv c₀ ops 0 0 (some c₀) n st
    (by intro c hc; injection hc with hc; subst hc; rw [h₀]; exact ⟨by rw [← h₀], by decide, rfl⟩)
    (by simp) h
  obtain ⟨h1, h2⟩ := this
  cases st with
  | none => exact ⟨by simp; have := h2 rfl; omega, by have := h2 rfl; omega, by simp⟩
  | some c =>
    obtain ⟨g1, g2, g3⟩ := h1 c rfl
    have g2' : c.ref.toNat ≠ 0 := fun hc => g2 (UInt64.toNat_inj.1 hc)
    refine ⟨by simp; omega, by omega, ?_⟩
    intro c' hc'; injection hc' with hc'; subst hc'
    exact ⟨g1, by omega⟩

theorem refRun_append (a b : List RefOp) : ∀ st, refRun st (a ++ b) = (refRun st a).bind fun st => refRun st b := by
  induction a with
  | nil => intro st; rfl
  | cons op a ih =>
    rintro ⟨n, st⟩
    cases st with
    | none => rfl
    | some c => cases op <;> simp [refRun, ih]

/-- C53: while the context has not been released every call is defined, and after the release every
further call is undefined, so a second release is impossible in a correct program. -/
theorem C53_defined_until_release (st : Nat × Option StreamCtx) (ops : List RefOp) (n : Nat)
    (st' : Option StreamCtx) (h : refRun st ops = .ok (n, st')) (op : RefOp) :
    (st'.isSome → ∃ q, refRun st (ops ++ [op]) = .ok q) ∧
    (st' = none → refRun st (ops ++ [op]) = .ub) := by
  rw [refRun_append, h]
  constructor
  · intro hs
    cases st' with
    | none => simp at hs
    | some c => cases op <;> exact ⟨_, rfl⟩
  · intro hn; subst hn; rfl

/-- C53: below 2^64-1 owners `ref_up` always succeeds, so with fewer than 2^64-1 calls in total the
successful ones are all of them. -/
theorem C53_ref_up_counts (c₀ : StreamCtx) (h₀ : c₀.ref = 1) (ops : List RefOp)
    (hl : ops.count .up < 2 ^ 64 - 1) (n : Nat) (st : Option StreamCtx)
    (h : refRun (0, some c₀) ops = .ok (n, st)) : n = ops.count .up := by
  have key : ∀ (ops : List RefOp) (n m : Nat) (st : Option StreamCtx) (n' : Nat) (st' : Option StreamCtx),
      (∀ c, st = some c → c.ref.toNat + m = n + 1) → (st = none → True) →
      n + ops.count .up < 2 ^ 64 - 1 → refRun (n, st) ops = .ok (n', st') → n' = n + ops.count .up := by
    intro ops
    induction ops with
    | nil => intro n m st n' st' _ _ _ h; simp [refRun] at h; simp [h.1]
    | cons op ops ih =>
      intro n m st n' st' h1 _ hb h
      cases st with
      | none => simp [refRun] at h
      | some c =>
        have g := h1 c rfl
        cases op with
        | up =>
          have hcount : (RefOp.up :: ops).count .up = ops.count .up + 1 := by rw [List.count_cons]; rfl
          rw [hcount] at hb ⊢
          have hmax : c.ref ≠ 0xFFFFFFFFFFFFFFFF := by
            intro hc
            have : c.ref.toNat = 18446744073709551615 := by rw [hc]; rfl
            omega
          simp only [refRun, streamRefUp, if_neg hmax] at h
          have hadd : (c.ref + 1).toNat = c.ref.toNat + 1 := by
            rw [UInt64.toNat_add]; show (c.ref.toNat + 1) % _ = _; omega
          have := ih (n + 1) m (some { c with ref := c.ref + 1 }) n' st'
            (by intro c' hc'; injection hc' with hc'; subst hc'; simp only [hadd]; omega) (by simp) (by omega) h
          omega
        | destroy =>
          have hcount : (RefOp.destroy :: ops).count .up = ops.count .up := by rw [List.count_cons]; rfl
          rw [hcount] at hb ⊢
          simp only [refRun] at h
          by_cases h0 : c.ref = 0
          · have : streamDestroy c = none := by simp [streamDestroy, h0]
            rw [this] at h
            exact ih n 0 none n' st' (by simp) (by simp) hb h
          · have h0' : c.ref.toNat ≠ 0 := fun hc => h0 (UInt64.toNat_inj.1 hc)
            have hsub : (c.ref - 1).toNat = c.ref.toNat - 1 := by
              rw [UInt64.toNat_sub_of_le _ _ (by rw [UInt64.le_iff_toNat_le]; show 1 ≤ _; omega)]; rfl
            have hd : streamDestroy c = if c.ref - 1 = 0 then none else some { c with ref := c.ref - 1 } := by
              simp [streamDestroy, h0]
            rw [hd] at h
            refine ih n (m + 1) _ n' st' ?_ (by simp) hb h
            intro c' hc'
            split at hc'
            · simp at hc'
            · injection hc' with hc'; subst hc'; simp only [hsub]; omega
  have := key ops 0 0 (some c₀) n st (by intro c hc; injection hc with hc; subst hc; rw [h₀]; rfl) (by simp)
    (by omega) h
  omega

/-- Two owners more, three destroys in between and after: released by the third destroy. -/
example : refRun (0, some toyDecoder) [.up, .destroy, .up, .destroy] = .ok (2, some toyDecoder) ∧
    refRun (0, some toyDecoder) [.up, .destroy, .up, .destroy, .destroy] = .ok (2, none) ∧
    refRun (0, some toyDecoder) [.destroy, .destroy] = .ub := by decide

/-! ### C54 -/

/-- C54, exact cost: before a packet with number `s` is authenticated the decoder evaluates
`s / ppe - lastSeq / ppe` HMACs. -/
theorem C54_exact_work_partial (E : Engine) (hE : E.Lawful) (k : StreamKey) (hw : WfStreamKey k)
    (seed : Bytes) (c₀ : StreamCtx) (hc₀ : streamCtxCreate k .decode seed = some c₀) (ops : List StreamOp)
    (s : UInt64) :
    streamDecodeWork E (streamRun E c₀ ops).1 s =
      s.toNat / k.ppe.toNat - (streamRun E c₀ ops).1.lastSeq.toNat / k.ppe.toNat ∧
    streamDecodeWork E (streamRun E c₀ ops).1 s ≤ 2 ^ 64 / k.ppe.toNat := by
  obtain ⟨e1, -, e3⟩ := run_inv hE hw ops (streamCtxCreate_inv (E := E) hc₀) (create_dirIv hc₀)
  have hd : (streamRun E c₀ ops).1.dir = .decode := by rw [e3, (streamCtxCreate_some hc₀).1]
  have heq : streamDecodeWork E (streamRun E c₀ ops).1 s =
      s.toNat / k.ppe.toNat - (streamRun E c₀ ops).1.lastSeq.toNat / k.ppe.toNat := by
    unfold streamDecodeWork
    by_cases hs : s ≤ (streamRun E c₀ ops).1.lastSeq
    · rw [if_pos (Or.inl hs)]
      have : s.toNat / k.ppe.toNat ≤ (streamRun E c₀ ops).1.lastSeq.toNat / k.ppe.toNat := epoch_mono (k := k) hs
      omega
    · rw [if_neg (by rintro (h | h); exact hs h; exact h hd),
        e1.evolve hE hw (UInt64.le_of_lt (not_le_u64.1 hs))]
      rfl
  refine ⟨heq, ?_⟩
  rw [heq]
  exact Nat.le_trans (Nat.sub_le _ _) (Nat.div_le_div_right (Nat.le_of_lt s.toNat_lt))

/-- C54 is false: with one packet per evolution there is, for every bound below 2^64-1, a sequence
number that a forged packet can carry and that makes a fresh decoder do more work than the bound
before it looks at the authentication tag. -/
theorem C54_work_unbounded (E : Engine) (hE : E.Lawful) (k : StreamKey) (hw : WfStreamKey k)
    (hp : k.ppe = 1) (seed : Bytes) (c : StreamCtx) (hc : streamCtxCreate k .decode seed = some c)
    (bound : Nat) (hb : bound < 2 ^ 64 - 1) :
    ∃ s : UInt64, bound < streamDecodeWork E c s := by
  refine ⟨UInt64.ofNat (bound + 1), ?_⟩
  rw [show c = (streamRun E c []).1 from rfl, (C54_exact_work_partial E hE k hw seed c hc [] _).1]
  have h1 : k.ppe.toNat = 1 := by rw [hp]; rfl
  have h2 : (streamRun E c []).1.lastSeq = 0 := by
    show c.lastSeq = 0
    rw [(streamCtxCreate_some hc).1]
  rw [h1, h2, UInt64.toNat_ofNat']
  simp only [Nat.div_one, UInt64.toNat_zero]
  omega

/-- Already with the defaults of the example (new key every 2 packets) number 2^64-1 costs
2^63 - 1 HMAC computations. -/
example : streamDecodeWork toyEngine (streamRun toyEngine toyDecoder []).1 0xFFFFFFFFFFFFFFFF = 2 ^ 63 - 1 :=
  (C54_exact_work_partial toyEngine toyEngine_lawful toyStreamKey toyStreamKey_wf [] toyDecoder
    toyDecoder_created [] _).1.trans (by decide)

/-! ### C57 -/

/-- C57: a stream key survives serialization, with and without user data, and copying is exact; a
packets-per-evolution value outside 1..32768 is refused on reading. -/
theorem C57_stream_key_round_trip (k : StreamKey) (hw : WfStreamKey k)
    (hsz : k.evoKey.length + (optBytes k.userData).length + 200 ≤ maxBuffer) :
    ∃ b, streamKeySerialize k = .ok b ∧ streamKeyFromBuffer b = some k := by
  have hk : k.cipherKey.key.length = k.cipherKey.cipher.keyLen := by rw [keyLen_32]; exact hw.key
  have hmb := maxBuffer_val
  have hlen : (cipherKeyLayout k.cipherKey).length = 33 := by simp [cipherKeyLayout, hw.key]
  obtain ⟨hs, hp⟩ := C11_cipher_key_round_trip k.cipherKey hk [] (by rw [List.append_nil, hlen]; omega)
  rw [List.append_nil] at hp
  have hv : ValidBuf (cipherKeyLayout k.cipherKey) := ⟨by omega, by omega⟩
  obtain ⟨b, hb⟩ : ∃ b, protoPack (PStreamKey.pack ⟨some (cipherKeyLayout k.cipherKey), some k.evoKey,
      some k.ppe, k.userData⟩) = some b := by
    refine ⟨_, protoPack_ok (by simp [PStreamKey.pack, putBytes]) ?_⟩
    have h1 := size_putBytes 1 (some (cipherKeyLayout k.cipherKey))
    have h2 := size_putBytes 2 (some k.evoKey)
    have h3 := size_putU32 3 (some k.ppe)
    have h4 := size_putBytes 4 k.userData
    simp only [PStreamKey.pack, fieldsEnc_append, List.length_append, optBytes] at *; omega
  refine ⟨b, ?_, ?_⟩
  · simp [streamKeySerialize, streamKeyToProto, hs, hb, Res.ofOption]
  · rw [streamKeyFromBuffer, PStreamKey.lawful.round_trip _ b hb, Option.bind_some]
    simp only [streamKeyFromProto, dup_of hv, Option.bind_some, hp, dup_of hw.evo, dupOpt_of hw.user]
    exact streamKeyCreate_of hw.ppe

/-- C57: whatever bytes are read, a stream key that comes out has a cipher key of the right length and
a packets-per-evolution value in 1..32768. -/
theorem C57_read_keys_are_checked (b : Bytes) (k : StreamKey) (h : streamKeyFromBuffer b = some k) :
    k.cipherKey.key.length = 32 ∧ ValidBuf k.evoKey ∧ 1 ≤ k.ppe.toNat ∧ k.ppe.toNat ≤ 32768 := by
  unfold streamKeyFromBuffer at h
  obtain ⟨p, -, h⟩ := Option.bind_eq_some_iff.1 h
  unfold streamKeyFromProto at h
  split at h
  · obtain ⟨ck, h1, h⟩ := Option.bind_eq_some_iff.1 h
    obtain ⟨e, h2, h⟩ := Option.bind_eq_some_iff.1 h
    obtain ⟨u, -, h⟩ := Option.bind_eq_some_iff.1 h
    obtain ⟨rfl, h4⟩ := streamKeyCreate_some h
    obtain ⟨cb, -, h5⟩ := Option.bind_eq_some_iff.1 h1
    have h6 := (C11_cipher_key_accepts cb ck h5).2.1
    have h7 := dup_eq_some.1 h2
    refine ⟨by rw [← keyLen_32 ck.cipher]; exact h6, ?_, h4⟩
    show ValidBuf e
    rw [h7.2]; exact h7.1
  · simp at h

/-- C57: copying is exact. -/
theorem C57_copy_exact (k : StreamKey) (hw : WfStreamKey k) : streamKeyCopy k = some k := streamKeyCopy_of hw

/-- The hypotheses are met by a key with user data. -/
example : ∃ b, streamKeySerialize { toyStreamKey with userData := some [1, 2] } = .ok b ∧
    streamKeyFromBuffer b = some { toyStreamKey with userData := some [1, 2] } :=
  C57_stream_key_round_trip _ ⟨rfl, rfl, ⟨by decide, by decide⟩, by decide, by
    intro u hu; cases hu; exact ⟨by decide, by decide⟩⟩ (by decide)

end Wickr
