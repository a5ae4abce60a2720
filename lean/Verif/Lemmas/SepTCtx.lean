import Verif.Lemmas.SepHsCopy
import Verif.Lemmas.SepStream
import Verif.Spec.TransportCalls
import Verif.Lemmas.SepHsTop
/-
Triples for the functions of transport_ctx.c: the context in memory, sending and receiving data.
-/
namespace Wickr
open Asrt Spec

variable {E : Engine}

/-! ### Fields -/

theorem tctx_has {h : Heap} {a : Addr} {c : TCtx} (ha : Has isTCtx h a c) :
    ∃ rx tx l r pd, h a = some (.obj (.tctx c.status c.evo c.err) [rx, tx, some l, r, pd]) ∧ HasOpt isSCtx h rx c.rx ∧ HasOpt isSCtx h tx c.tx ∧
      Has isChain h l c.self ∧ HasOpt isChain h r c.remote ∧ HasOpt isHs h pd c.pending := by
  sview ha isTCtx
  exact ⟨_, _, _, _, _, by assumption, by assumption, by assumption, by assumption, by assumption, by assumption⟩

/-- A context with all its pointers. -/
def isTFlat (a : Addr) (c : TCtx) (rx tx : Ptr) (l : Addr) (r pd : Ptr) : Asrt :=
  (a ↦ .obj (.tctx c.status c.evo c.err) [rx, tx, some l, r, pd]) ∗ optRep isSCtx rx c.rx ∗ optRep isSCtx tx c.tx ∗ isChain l c.self ∗
    optRep isChain r c.remote ∗ optRep isHs pd c.pending

theorem tctx_open {cc : Rules} {f : Bool} {a : Addr} {c : TCtx} {α : Type} {A F : Asrt} {m : H α} {R : α → Bool → Asrt} (hA : A = isTCtx a c ∗ F)
    (hk : ∀ rx tx l r pd, Triple cc f (isTFlat a c rx tx l r pd ∗ F) m R) : Triple cc f A m R := by
  rw [hA]
  unfold isTCtx
  sintro
  rename_i rx tx l r pd
  exact hk rx tx l r pd

theorem tctx_close {a : Addr} {c : TCtx} {rx tx : Ptr} {l : Addr} {r pd : Ptr} : Asrt.le (isTFlat a c rx tx l r pd) (isTCtx a c) := by
  intro y hy
  exact ⟨rx, tx, l, r, pd, hy⟩

theorem tctx_shut {cc : Rules} {f : Bool} {a : Addr} {c : TCtx} {rx tx : Ptr} {l : Addr} {r pd : Ptr} {α : Type} {A F : Asrt} {m : H α} {R : α → Bool → Asrt}
    (hA : A = isTFlat a c rx tx l r pd ∗ F) (hk : Triple cc f (isTCtx a c ∗ F) m R) : Triple cc f A m R := by
  rw [hA]
  exact Triple.conseq hk (fun y hy => Asrt.star_mono tctx_close hy) (fun _ _ _ _ h => h)

theorem tctx_scal_reads (a : Addr) (c : TCtx) : Reads (isTCtx a c) (scal (some a)) (.tctx c.status c.evo c.err) :=
  Reads.owned fun _ hx => by
    obtain ⟨rx, tx, l, r, pd, h1, -⟩ := tctx_has (has_of hx)
    exact scal_view h1

theorem tctx_setScal_spec (cc : Rules) (f : Bool) (a : Addr) (c : TCtx) (s : TStatus) (e : TErr) :
    Triple cc f (isTCtx a c) (setScal (some a) (.tctx s c.evo e)) (fun _ _ => isTCtx a { c with status := s, err := e }) := by
  refine tctx_open (c := c) (F := emp) (Asrt.star_emp _).symm fun rx tx l r pd => ?_
  unfold isTFlat
  refine Triple.tail ?_
  sstep setScal_spec cc f a _ _ _
  intro _ f1 _
  refine Triple.ret fun y hy => tctx_close (rx := rx) (tx := tx) (l := l) (r := r) (pd := pd) y ?_
  unfold isTFlat
  revert hy; revert y
  sentail

theorem isTEvents_nil : isTEvents [] [] = emp := rfl

theorem isTEvents_append : ∀ (ss : List TSeen) (es : List TEv) (ss' : List TSeen) (es' : List TEv) (y : Heap), (isTEvents ss es ∗ isTEvents ss' es') y →
    isTEvents (ss ++ ss') (es ++ es') y := by
  intro ss
  induction ss with
  | nil =>
    intro es ss' es' y hy
    cases es with
    | nil =>
      show isTEvents ss' es' y
      rw [isTEvents_nil, Asrt.emp_star] at hy
      exact hy
    | cons e es =>
      obtain ⟨_, _, _, _, h1, _⟩ := hy
      exact h1.1.elim
  | cons s ss ih =>
    intro es ss' es' y hy
    cases es with
    | nil =>
      obtain ⟨_, _, _, _, h1, _⟩ := hy
      exact h1.1.elim
    | cons e es =>
      show (isTEvent s e ∗ isTEvents (ss ++ ss') (es ++ es')) y
      rw [show isTEvents (s :: ss) (e :: es) = isTEvent s e ∗ isTEvents ss es from rfl, Asrt.star_assoc] at hy
      exact Asrt.star_mono_r (fun z hz => ih es ss' es' z hz) hy

theorem tout_append {a : Addr} {w : TCtx} {ss ss' : List TSeen} {es es' : List TEv} {A G : Asrt} (hA : A = (isTCtx a w ∗ isTEvents ss es ∗ isTEvents ss' es') ∗ G) :
    Asrt.le A (isTOut a (ss ++ ss') (w, es ++ es') ∗ G) := by
  intro y hy
  rw [hA] at hy
  exact Asrt.star_mono (fun z hz => Asrt.star_mono_r (fun u hu => isTEvents_append ss es ss' es' u hu) hz) hy

theorem isTState {s : TStatus} : isTEvents [.state s] [.state s] = emp := by
  show ⌜s = s⌝ ∗ emp = emp
  rw [Asrt.star_emp]
  funext y
  exact propext ⟨fun h => h.2, fun h => ⟨rfl, h⟩⟩

theorem hTUpdate_spec (cc : Rules) (f : Bool) (a : Addr) (c : TCtx) (s : TStatus) :
    Triple cc f (isTCtx a c) (hTUpdate (some a) s) (fun ss _ => isTOut a ss (tUpdate c s)) := by
  unfold hTUpdate tUpdate
  dsimp only
  refine Triple.read (F := emp) (tctx_scal_reads a c) (Asrt.star_emp _).symm ?_
  dsimp only
  by_cases hs : c.status = s
  · rw [if_pos hs, if_pos hs]
    refine Triple.ret fun y hy => ?_
    unfold isTOut
    rw [isTEvents_nil, Asrt.star_emp]
    exact hy
  · rw [if_neg hs, if_neg hs]
    refine Triple.seq (F := emp) (tctx_setScal_spec cc f a c s c.err) (Asrt.star_emp _).symm ?_
    intro _ f1 _
    refine Triple.ret fun y hy => ?_
    unfold isTOut
    rw [isTState]
    exact hy

theorem hTError_spec (cc : Rules) (f : Bool) (a : Addr) (c : TCtx) (e : TErr) :
    Triple cc f (isTCtx a c) (hTError (some a) e) (fun ss _ => isTOut a ss (tError c e)) := by
  unfold hTError
  dsimp only
  refine Triple.read (F := emp) (tctx_scal_reads a c) (Asrt.star_emp _).symm ?_
  dsimp only
  refine Triple.seq (F := emp) (tctx_setScal_spec cc f a c c.status e) (Asrt.star_emp _).symm ?_
  intro _ f1 _
  rw [Asrt.star_emp]
  exact hTUpdate_spec cc f1 a { c with err := e } .error

/-! ### Packets -/

theorem hTEmit_spec (f : Bool) (q : Addr) (v : Packet) :
    Triple laxest f (isTPkt q v) (hTEmit (some q)) (fun r f' => gives isBuf (pktSerialize v) r f') := by
  unfold hTEmit
  refine Triple.lend0 (P := isTPkt q v) (F := emp) (Asrt.star_emp _).symm fun h hh => ?_
  sstep hTPktSerialize_view laxest f h q v trivial (has_of hh)
  intro r f1 hf1
  refine Triple.giveBack0 hh (by frame) ?_
  sdestroy hTPktDestroy_spec (v := v) (fun _ _ => trivial)
  intro f2 hf2
  cases r with
  | none =>
    dsimp only [gives]
    sintro
    rename_i h
    exact Triple.ret fun y hy => ⟨h.imp_left hf2, hy⟩
  | some r =>
    dsimp only [gives]
    sintro
    rename_i b h
    exact Triple.ret fun y hy => ⟨b, Asrt.pure_star.2 ⟨h, by simpa only [Asrt.star_emp, Asrt.emp_star] using hy⟩⟩

theorem hTPack_spec (f : Bool) (m : PktMeta) (q : Addr) (v : CipherResult) :
    Triple laxest f (isCRes q v) (hTPack m (some q)) (fun r f' => gives isTPkt ((cipherResultSerialize v).map (pktCreate m)) r f') := by
  unfold hTPack
  refine Triple.lend0 (P := isCRes q v) (F := emp) (Asrt.star_emp _).symm fun h hh => ?_
  sstep hCResSerialize_view laxest f h q v (has_of hh)
  intro r f1 hf1
  refine Triple.giveBack0 hh (by frame) ?_
  sdestroy hCResDestroy_spec (r := v) (fun _ _ => trivial)
  intro f2 hf2
  cases r with
  | none =>
    dsimp only [gives]
    sintro
    rename_i h
    exact Triple.ret fun y hy => ⟨h.imp hf2 fun h => by rw [h]; rfl, hy⟩
  | some r =>
    dsimp only [gives]
    sintro
    rename_i b h
    refine Triple.onNullK (P := isBuf r b) (F := emp) (hTPktCreate_spec laxest f2 m r b) (by simp only [Asrt.star_emp, Asrt.emp_star]) ?_ ?_
    · intro f3 hf3 ho
      sdestroy hBufDestroy_spec (b := b) (Or.inr trivial)
      intro f4 hf4
      exact Triple.ret fun y hy => ⟨Or.inl (hf4 ho), hy⟩
    · intro x f3 hf3
      exact Triple.ret fun y hy => ⟨pktCreate m b, Asrt.pure_star.2 ⟨by rw [h]; rfl, by simpa only [Asrt.star_emp, Asrt.emp_star] using hy⟩⟩

/-! ### Sending -/

theorem sctx_scal_reads (a : Addr) (v : StreamCtx) : Reads (isSCtx a v) (scal (some a)) (.stream v.lastSeq v.dir v.ref) :=
  Reads.owned fun _ hx => by
    have ha := has_of hx
    sview ha isSCtx
    exact scal_view (by assumption)

theorem streamEncode_ref (v : StreamCtx) (b : Bytes) (aad : Option Bytes) (seq : UInt64) : (streamEncode E v b aad seq).1.ref = v.ref := by
  unfold streamEncode
  repeat' split
  all_goals rfl

theorem streamDecode_ref (v : StreamCtx) (d : CipherResult) (aad : Option Bytes) (seq : UInt64) : (streamDecode E v d aad seq).1.ref = v.ref := by
  unfold streamDecode
  repeat' split
  all_goals rfl

theorem hTEncode_spec (hE : E.Fits) (hl : ∀ b k h, E.hmac b k .sha512 = some h → h.length = 64) (f : Bool) (h : Heap) (a p : Addr) (c : TCtx) (b : Bytes)
    (v : StreamCtx) (hv : c.tx = some v) (hb : Has isBuf h p b) :
    Triple laxest f (isTCtx a c ∗ keep h) (hTEncode E (some a) (some p)) (fun r f' => Asrt.ex fun w =>
      ⌜w.ref = v.ref ∧ (f' = false ∨ r ≠ none → w = (tEncode E v b).1)⌝ ∗ isTCtx a { c with tx := some w } ∗ keep h ∗ gives isTPkt (tEncode E v b).2 r f') := by
  unfold hTEncode
  refine tctx_open (c := c) (by frame) fun rx tx l r pd => ?_
  unfold isTFlat
  rw [hv]
  cases tx with
  | none => dsimp only [optRep]; sabsurd
  | some t =>
    have fin : ∀ (f : Bool) (A G : Asrt) (w : StreamCtx) (q : Ptr), A = (isTFlat a { c with tx := some w } rx (some t) l r pd ∗ keep h) ∗ G →
        (w.ref = v.ref ∧ (f = false ∨ q ≠ none → w = (tEncode E v b).1)) → (∀ y, G y → gives isTPkt (tEncode E v b).2 q f y) →
        Triple laxest f A (Pure.pure q) (fun r f' => Asrt.ex fun w =>
          ⌜w.ref = v.ref ∧ (f' = false ∨ r ≠ none → w = (tEncode E v b).1)⌝ ∗ isTCtx a { c with tx := some w } ∗ keep h ∗ gives isTPkt (tEncode E v b).2 r f') := by
      intro f A G w q hA hw hG
      refine Triple.ret fun y hy => ⟨w, Asrt.pure_star.2 ⟨hw, ?_⟩⟩
      rw [hA, Asrt.star_assoc] at hy
      exact Asrt.star_mono tctx_close (Asrt.star_mono_r (fun z hz => Asrt.star_mono_r hG hz) hy)
    sread field_reads a _ _ 1 _ rfl
    sread sctx_scal_reads t v
    dsimp only
    refine Triple.onNull' (hMetaSerialize_spec laxest f _) ?_ ?_
    · intro f1 hf1 ho
      refine fin f1 _ emp v none ?_ ⟨rfl, by simp [ho]⟩ (fun y hy => ⟨Or.inl ho, hy⟩)
      rw [Asrt.star_emp]
      unfold isTFlat
      ac_rfl
    · intro x f1 hf1
      sread field_reads a _ _ 1 _ rfl
      refine Triple.lend (h := h) (P := isBuf x (pktMetaSerialize (metaInitData (v.lastSeq + 1) macAuthCipher))) (by frame) fun h1 h' hp e1 s1 s2 => ?_
      sstep hSEncode_view hE hl laxest f1 trivial h' t p (some x) b (some (pktMetaSerialize (metaInitData (v.lastSeq + 1) macAuthCipher))) v (v.lastSeq + 1)
        (fun _ _ => trivial) (fun _ _ _ _ => trivial) (fun _ _ _ _ => trivial) (Has.sub hb s1) (has_of hp |> fun z => Has.sub z s2)
      intro cr f2 hf2
      unfold encodedAs
      sintro
      rename_i w hw
      obtain ⟨hw1, hw2⟩ := hw
      refine Triple.giveBack e1 hp (by frame) ?_
      sdestroy hBufDestroy_spec (Or.inr trivial)
      intro f3 hf3
      have href : w.ref = v.ref := by
        rcases hw1 with rfl | ⟨i, -, rfl⟩ | rfl
        · rfl
        · rfl
        · exact streamEncode_ref _ _ _ _
      cases cr with
      | none =>
        dsimp only [gives]
        sintro
        rename_i hn
        refine fin f3 _ emp w none ?_ ⟨href, ?_⟩ (fun y hy => ⟨?_, hy⟩)
        · rw [Asrt.star_emp]
          unfold isTFlat
          dsimp only [optRep]
          ac_rfl
        · intro hx
          exact hw2 (Or.inl (oom_back hf3 (hx.resolve_right (by simp))))
        · refine hn.imp hf3 fun hn => ?_
          unfold tEncode
          dsimp only
          rw [hn]
          rfl
      | some q =>
        dsimp only [gives]
        sintro
        rename_i cv hcv
        have hw := hw2 (Or.inr (by simp))
        refine Triple.tail ?_
        sstep hTPack_spec f3 (metaInitData (v.lastSeq + 1) macAuthCipher) q cv
        intro o f4 hf4
        refine fin f4 _ (gives isTPkt ((cipherResultSerialize cv).map (pktCreate (metaInitData (v.lastSeq + 1) macAuthCipher))) o f4) w o ?_ ⟨href, fun _ => hw⟩ ?_
        · unfold isTFlat
          dsimp only [optRep]
          ac_rfl
        · intro y hy
          unfold tEncode
          dsimp only
          rw [hcv]
          exact hy

theorem tError_same (c : TCtx) (e : TErr) : OnlySent c (tError c e).1 ∧ (tError c e).1.status = .error ∧ ∀ x ∈ (tError c e).2, x = .state .error := by
  unfold tError tUpdate
  split
  · exact ⟨⟨rfl, rfl, rfl, rfl, rfl, id, fun s h => ⟨s, h, rfl⟩⟩, by assumption, by simp⟩
  · exact ⟨⟨rfl, rfl, rfl, rfl, rfl, id, fun s h => ⟨s, h, rfl⟩⟩, rfl, by simp⟩

theorem hTSend_spec (hE : E.Fits) (hl : ∀ b k h, E.hmac b k .sha512 = some h → h.length = 64) (f : Bool) (h : Heap) (a : Addr) (p : Ptr) (c : TCtx)
    (b : Option Bytes) (ht : c.status = .active → c.tx.isSome = true) (hb : HasOpt isBuf h p b) :
    Triple laxest f (isTCtx a c ∗ keep h) (hTSend E (some a) p) (fun ss f' => Asrt.ex fun z =>
      ⌜TSendOutcome E c b f' z.1 z.2⌝ ∗ isTOut a ss z ∗ keep h) := by
  have bad : ∀ (f : Bool) (A : Asrt) (v w : Option StreamCtx) (e : TErr), A = isTCtx a { c with tx := w } ∗ keep h → c.tx = v →
      ((v = none → w = none) ∧ ∀ s, v = some s → ∃ s', w = some s' ∧ s'.ref = s.ref) → (f = false → tSend E c b = .ok (tError { c with tx := w } e)) →
      Triple laxest f A (hTError (some a) e) (fun ss f' => Asrt.ex fun z => ⌜TSendOutcome E c b f' z.1 z.2⌝ ∗ isTOut a ss z ∗ keep h) := by
    intro f A v w e hA hv hw hs
    refine Triple.tail ?_
    rw [hA]
    sstep hTError_spec laxest f a { c with tx := w } e
    intro ss f1 hf1
    obtain ⟨h1, h2, h3⟩ := tError_same { c with tx := w } e
    refine Triple.ret fun y hy => ⟨tError { c with tx := w } e, Asrt.pure_star.2 ⟨⟨fun h => hs (oom_back hf1 h), ?_, Or.inr h2, fun x hx => Or.inl (h3 x hx), ?_⟩, hy⟩⟩
    · obtain ⟨k1, k2, k3, k4, k5, k6, k7⟩ := h1
      refine ⟨k1, k2, k3, k4, k5, fun hn => k6 (hw.1 (hv ▸ hn)), fun s hs => ?_⟩
      obtain ⟨s1, g1, g2⟩ := hw.2 s (hv ▸ hs)
      obtain ⟨s2, g3, g4⟩ := k7 s1 g1
      exact ⟨s2, g3, g4.trans g2⟩
    · intro d hd
      exact absurd (h3 _ hd) (by simp)
  cases p with
  | none =>
    cases b with
    | some b => exact hb.elim
    | none => exact bad f _ c.tx c.tx .badTxState rfl rfl ⟨id, fun s h => ⟨s, h, rfl⟩⟩ (fun _ => rfl)
  | some p =>
    cases b with
    | none => exact hb.elim
    | some b =>
      unfold hTSend
      dsimp only
      sread tctx_scal_reads a c
      dsimp only
      by_cases hs : c.status ≠ .active
      · rw [if_pos hs]
        exact bad f _ c.tx c.tx .badTxState rfl rfl ⟨id, fun s h => ⟨s, h, rfl⟩⟩ (fun _ => by simp [tSend, hs])
      · rw [if_neg hs]
        have hact : c.status = .active := Decidable.byContradiction hs
        obtain ⟨v, hv⟩ := Option.isSome_iff_exists.1 (ht hact)
        sstep hTEncode_spec hE hl f h a p c b v hv hb
        intro q f1 hf1
        sintro
        rename_i w hw
        obtain ⟨hw1, hw2⟩ := hw
        cases q with
        | none =>
          dsimp only [gives]
          sintro
          rename_i hn
          refine bad f1 _ (some v) (some w) .packetEncodeFailed rfl hv ⟨by simp, fun s hs => ⟨w, rfl, by cases hs; exact hw1⟩⟩ fun hf => ?_
          have hn := hn.resolve_left (by simp [hf])
          simp [tSend, hact, hv, hn, hw2 (Or.inl hf)]
        | some q =>
          dsimp only [gives]
          sintro
          rename_i pk hpk
          have hw := hw2 (Or.inr (by simp))
          subst hw
          sstep hTEmit_spec f1 q pk
          intro o f2 hf2
          cases o with
          | none =>
            dsimp only [gives]
            sintro
            rename_i hn
            refine bad f2 _ (some v) (some (tEncode E v b).1) .packetSerializationFailed (by frame) hv ⟨by simp, fun s hs => ⟨_, rfl, by cases hs; exact hw1⟩⟩ fun hf => ?_
            have hn := hn.resolve_left (by simp [hf])
            simp [tSend, hact, hv, hpk, hn]
          | some o =>
            dsimp only [gives]
            sintro
            rename_i d hd
            refine Triple.ret fun y hy => ⟨({ c with tx := some (tEncode E v b).1 }, [.tx d]), Asrt.pure_star.2 ⟨⟨fun hf => ?_, ?_, Or.inl rfl, ?_, ?_⟩, ?_⟩⟩
            · simp [tSend, hact, hv, hpk, hd]
            · refine ⟨rfl, rfl, rfl, rfl, rfl, ?_, fun s hs => ⟨_, rfl, ?_⟩⟩
              · rw [hv]; simp
              · rw [hv] at hs
                cases hs
                exact hw1
            · intro e he
              rw [List.mem_singleton] at he
              exact Or.inr ⟨hact, d, he⟩
            · intro d' hd'
              rw [List.mem_singleton] at hd'
              cases hd'
              exact ⟨v, b, hv, rfl, by rw [hpk]; exact hd, rfl⟩
            · unfold isTOut
              rw [show isTEvents [TSeen.tx o] [TEv.tx d] = isBuf o d from Asrt.star_emp _]
              revert hy; revert y; sentail

/-- Several buffers. -/
def SendsOutcome (E : Engine) (c : TCtx) (bs : List Bytes) (f : Bool) (w : TCtx) (es : List TEv) : Prop :=
  (f = false → tSends E c bs = .ok (w, es)) ∧ OnlySent c w ∧ (w.status = c.status ∨ w.status = .error) ∧
    ∀ e ∈ es, e = .state .error ∨ c.status = .active ∧ ∃ d, e = .tx d

theorem Spec.OnlySent.tx {c w : TCtx} (h : OnlySent c w) : w.tx.isSome = c.tx.isSome := by
  obtain ⟨-, -, -, -, -, h1, h2⟩ := h
  cases hc : c.tx with
  | none => rw [h1 hc]
  | some s => obtain ⟨s', h, -⟩ := h2 s hc; rw [h]; rfl

theorem Spec.OnlySent.trans {c d w : TCtx} (h : OnlySent c d) (h' : OnlySent d w) : OnlySent c w := by
  obtain ⟨a1, a2, a3, a4, a5, a6, a7⟩ := h
  obtain ⟨b1, b2, b3, b4, b5, b6, b7⟩ := h'
  refine ⟨b1.trans a1, b2.trans a2, b3.trans a3, b4.trans a4, b5.trans a5, fun h => b6 (a6 h), fun s hs => ?_⟩
  obtain ⟨s1, g1, g2⟩ := a7 s hs
  obtain ⟨s2, g3, g4⟩ := b7 s1 g1
  exact ⟨s2, g3, g4.trans g2⟩

theorem hTSends_spec (hE : E.Fits) (hl : ∀ b k h, E.hmac b k .sha512 = some h → h.length = 64) (h : Heap) (a : Addr) : ∀ (ps : List Ptr) (bs : List Bytes) (f : Bool)
    (c : TCtx), (c.status = .active → c.tx.isSome = true) → BufsIn h ps bs →
    Triple laxest f (isTCtx a c ∗ keep h) (hTSends E (some a) ps) (fun ss f' => Asrt.ex fun z =>
      ⌜SendsOutcome E c bs f' z.1 z.2⌝ ∗ isTOut a ss z ∗ keep h) := by
  intro ps
  induction ps with
  | nil =>
    intro bs f c hc hb
    cases bs with
    | cons b bs => exact hb.elim
    | nil =>
      unfold hTSends
      refine Triple.ret fun y hy => ⟨(c, []), Asrt.pure_star.2 ⟨⟨fun _ => rfl, ⟨rfl, rfl, rfl, rfl, rfl, id, fun s h => ⟨s, h, rfl⟩⟩, Or.inl rfl, by simp⟩, ?_⟩⟩
      unfold isTOut
      rw [isTEvents_nil, Asrt.star_emp]
      exact hy
  | cons p ps ih =>
    intro bs f c hc hb
    cases bs with
    | nil => exact hb.elim
    | cons b bs =>
      obtain ⟨⟨pa, rfl, hp⟩, hb⟩ := hb
      unfold hTSends
      sstep hTSend_spec hE hl f h a (some pa) c (some b) hc hp
      intro ss f1 hf1
      sintro
      rename_i z hz
      obtain ⟨w, es⟩ := z
      obtain ⟨z1, z2, z3, z4, -⟩ := hz
      unfold isTOut
      sstep ih bs f1 w (fun hw => by rw [z2.tx]; exact hc (by rcases z3 with z3 | z3 <;> simp_all)) hb
      intro ss' f2 hf2
      sintro
      rename_i z hz
      obtain ⟨w', es'⟩ := z
      obtain ⟨y1, y2, y3, y4⟩ := hz
      refine Triple.ret fun y hy => ⟨(w', es ++ es'), Asrt.pure_star.2 ⟨⟨fun hf => ?_, z2.trans y2, ?_, ?_⟩, ?_⟩⟩
      · have e1 := z1 (oom_back hf2 hf)
        have e2 := y1 hf
        simp [tSends, e1, e2, Res.bind]
      · rcases y3 with y3 | y3
        · dsimp only at y3 z3
          rw [y3]
          exact z3
        · exact Or.inr y3
      · intro e he
        rcases List.mem_append.1 he with he | he
        · exact z4 e he
        · refine (y4 e he).imp_right fun ⟨g1, g2⟩ => ⟨?_, g2⟩
          rcases z3 with z3 | z3
          · exact z3 ▸ g1
          · dsimp only at z3 g1; rw [z3] at g1; cases g1
      · dsimp only at hy ⊢
        unfold isTOut at hy
        dsimp only at hy
        exact tout_append (by ac_rfl) y hy

theorem hTActivate_spec (hE : E.Fits) (hl : ∀ b k h, E.hmac b k .sha512 = some h → h.length = 64) (f : Bool) (h : Heap) (a : Addr) (c : TCtx) (ps : List Ptr)
    (bs : List Bytes) (ht : c.tx.isSome = true) (hb : BufsIn h ps bs) :
    Triple laxest f (isTCtx a c ∗ keep h) (hTActivate E (some a) ps) (fun ss f' => Asrt.ex fun z =>
      ⌜(f' = false → tActivate E c bs = .ok z) ∧ OnlySent c z.1 ∧ (z.1.status = .active ∨ z.1.status = .error) ∧
        ∀ e ∈ z.2, e = .state .active ∨ e = .state .error ∨ ∃ d, e = .tx d⌝ ∗ isTOut a ss z ∗ keep h) := by
  unfold hTActivate tActivate
  sread tctx_scal_reads a c
  dsimp only
  by_cases hs : c.status = .active
  · rw [if_pos hs, if_pos hs]
    refine Triple.ret fun y hy => ⟨(c, []), Asrt.pure_star.2 ⟨⟨fun _ => rfl, ⟨rfl, rfl, rfl, rfl, rfl, id, fun s h => ⟨s, h, rfl⟩⟩, Or.inl hs, by simp⟩, ?_⟩⟩
    unfold isTOut
    rw [isTEvents_nil, Asrt.star_emp]
    exact hy
  · rw [if_neg hs, if_neg hs]
    sstep tctx_setScal_spec laxest f a c .active c.err
    intro _ f1 hf1
    sstep hTSends_spec hE hl h a ps bs f1 { c with status := .active } (fun _ => ht) hb
    intro ss f2 hf2
    sintro
    rename_i z hz
    obtain ⟨w, es⟩ := z
    obtain ⟨z1, z2, z3, z4⟩ := hz
    refine Triple.ret fun y hy => ⟨(w, .state .active :: es), Asrt.pure_star.2 ⟨⟨fun hf => ?_, z2, z3, ?_⟩, ?_⟩⟩
    · rw [z1 hf]
      rfl
    · intro e he
      rcases List.mem_cons.1 he with rfl | he
      · exact Or.inl rfl
      · exact Or.inr ((z4 e he).imp_right fun h => h.2)
    · unfold isTOut at hy ⊢
      dsimp only at hy ⊢
      rw [show isTEvents (TSeen.state .active :: ss) (TEv.state .active :: es) = isTEvent (.state .active) (.state .active) ∗ isTEvents ss es from rfl]
      have hst : isTEvent (.state .active) (.state .active) = emp := by
        funext y
        exact propext ⟨fun h => h.2, fun h => ⟨rfl, h⟩⟩
      rw [hst, Asrt.emp_star]
      simpa only [Asrt.star_emp] using hy

/-! ### Receiving data -/

theorem hTDecode_spec (hE : E.Fits) (f : Bool) (a b : Addr) (c : TCtx) (p : Packet) (junk : UInt64) (v : StreamCtx) (hv : c.rx = some v) :
    Triple laxest f (isTCtx a c ∗ isTPkt b p) (hTDecode E (some a) (some b) junk) (fun r f' => Asrt.ex fun w =>
      ⌜w.ref = v.ref ∧ (f' = false ∨ r ≠ none → w = (tDecode E v p junk).1)⌝ ∗ (isTCtx a { c with rx := some w } ∗ isTPkt b p) ∗ gives isBuf (tDecode E v p junk).2 r f') := by
  unfold hTDecode
  refine tctx_open (c := c) (by frame) fun rx tx l r pd => ?_
  unfold isTFlat
  rw [hv]
  cases rx with
  | none => dsimp only [optRep]; sabsurd
  | some t =>
    refine Triple.lend0 (P := isTPkt b p) (by frame) fun h hh => ?_
    have hb := has_of hh
    have fin : ∀ (f : Bool) (A G : Asrt) (w : StreamCtx) (q : Ptr), A = (isTFlat a { c with rx := some w } (some t) tx l r pd ∗ keep h) ∗ G →
        (w.ref = v.ref ∧ (f = false ∨ q ≠ none → w = (tDecode E v p junk).1)) → (∀ y, G y → gives isBuf (tDecode E v p junk).2 q f y) →
        Triple laxest f A (Pure.pure q) (fun r f' => Asrt.ex fun w =>
          ⌜w.ref = v.ref ∧ (f' = false ∨ r ≠ none → w = (tDecode E v p junk).1)⌝ ∗ (isTCtx a { c with rx := some w } ∗ isTPkt b p) ∗ gives isBuf (tDecode E v p junk).2 r f') := by
      intro f A G w q hA hw hG
      refine Triple.ret fun y hy => ⟨w, Asrt.pure_star.2 ⟨hw, ?_⟩⟩
      rw [hA] at hy
      refine Asrt.star_mono (fun z hz => Asrt.star_mono tctx_close (Asrt.star_mono_r (fun z hz => by cases hz; exact hh) hz)) (Asrt.star_mono_r hG hy)
    obtain ⟨q, rb, hq⟩ : ∃ q, Reads (keep h) (field (some b) 0) (some q) ∧ Has isBuf h q p.body := by
      sview hb isTPkt
      exact ⟨_, field_view (by assumption) rfl, by assumption⟩
    have rs : Reads (keep h) (scal (some b)) (.tpkt p.hdr) := by
      sview hb isTPkt
      exact scal_view (by assumption)
    sread rb
    refine Triple.onNullG (hCResFromBuffer_view laxest f trivial h q p.body (fun _ _ => Or.inr trivial) hq) (by frame) ?_ ?_
    · intro f1 hf1 hn
      refine fin f1 _ emp v none ?_ ⟨rfl, ?_⟩ (fun y hy => ⟨?_, hy⟩)
      · rw [Asrt.star_emp]
        unfold isTFlat
        dsimp only [optRep]
        ac_rfl
      · intro hx
        have hn := hn.resolve_left (by simp [hx.resolve_right (by simp)])
        simp [tDecode, hn]
      · refine hn.imp_right fun hn => by simp [tDecode, hn]
    · intro x f1 cr hf1 hcr
      sread rs
      dsimp only
      by_cases hm : p.hdr.mac ≠ macAuthCipher
      · rw [if_pos hm]
        sdestroy hCResDestroy_spec (r := cr) (fun _ _ => trivial)
        intro f2 hf2
        refine fin f2 _ emp v none ?_ ⟨rfl, ?_⟩ (fun y hy => ⟨?_, hy⟩)
        · rw [Asrt.star_emp]
          unfold isTFlat
          dsimp only [optRep]
          ac_rfl
        · intro hx
          simp [tDecode, hcr, hm]
        · right
          simp [tDecode, hcr, hm]
      · rw [if_neg hm]
        refine Triple.onNull' (hMetaSerialize_spec laxest f1 _) ?_ ?_
        · intro f2 hf2 ho
          sdestroy hCResDestroy_spec (r := cr) (fun _ _ => trivial)
          intro f3 hf3
          refine fin f3 _ emp v none ?_ ⟨rfl, by simp [hf3 ho]⟩ (fun y hy => ⟨Or.inl (hf3 ho), hy⟩)
          rw [Asrt.star_emp]
          unfold isTFlat
          dsimp only [optRep]
          ac_rfl
        · intro ad f2 hf2
          sread field_reads a _ _ 0 _ rfl
          refine Triple.lend (h := h) (P := isBuf ad (pktMetaSerialize p.hdr)) (by frame) fun h1 h' hp e1 s1 s2 => ?_
          refine Triple.lend (h := h') (P := isCRes x cr) (by frame) fun h2 h'' hp2 e2 s3 s4 => ?_
          have hseq : hdrSeq p.hdr junk = pktSeq p junk := by
            unfold pktSeq hdrSeq
            cases p.hdr.body <;> rfl
          rw [hseq]
          sstep hSDecode_view hE laxest f2 trivial h'' t x (some ad) cr (some (pktMetaSerialize p.hdr)) v (pktSeq p junk)
            (fun _ _ => trivial) (Has.sub (has_of hp2) s4) (Has.sub (Has.sub (has_of hp) s2) s3)
          intro o f3 hf3
          unfold decodedAs
          sintro
          rename_i w hw
          obtain ⟨hw1, hw2⟩ := hw
          refine Triple.giveBack e2 hp2 (by frame) ?_
          refine Triple.giveBack e1 hp (by frame) ?_
          sdestroy hCResDestroy_spec (r := cr) (fun _ _ => trivial)
          intro f4 hf4
          sdestroy hBufDestroy_spec (b := pktMetaSerialize p.hdr) (Or.inr trivial)
          intro f5 hf5
          have he : tDecode E v p junk = streamDecode E v cr (some (pktMetaSerialize p.hdr)) (pktSeq p junk) := by
            unfold tDecode
            rw [hcr]
            dsimp only
            rw [if_neg hm]
          have href : w.ref = v.ref := by
            rcases hw1 with rfl | rfl
            · rfl
            · exact streamDecode_ref _ _ _ _
          refine fin f5 _ (gives isBuf (streamDecode E v cr (some (pktMetaSerialize p.hdr)) (pktSeq p junk)).2 o f3) w o ?_ ⟨href, fun hx => ?_⟩ ?_
          · unfold isTFlat
            dsimp only [optRep]
            ac_rfl
          · rw [he]
            exact hw2 (hx.imp_left fun h => oom_back hf4 (oom_back hf5 h))
          · rw [he]
            intro y hy
            cases o with
            | none => exact ⟨hy.1.imp_left fun h => hf5 (hf4 h), hy.2⟩
            | some o => exact hy

end Wickr
