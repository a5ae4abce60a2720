import Verif.Lemmas.SepHsSend
/-
Handshakes in memory: receiving.
-/
namespace Wickr
open Asrt Spec

/-- transport_handshake.c:634-637. -/
def toFinal (w : Handshake) : Handshake := { w with status := if w.status = .unknown then .pendingFinalization else w.status }

/-- What sending a response does. -/
def ReplyOutcome (E : Engine) (v : Handshake) (m : PHandshake) (nonce : Bytes) (f : Bool) (w : Handshake) (q : Option Packet) : Prop :=
  ∃ w0, BuildOutcome E v m nonce true f w0 q ∧ w = if q.isSome then toFinal w0 else w0

theorem hHsSendResponse_spec (hE : E.Fits) (f : Bool) (a x : Addr) (v : Handshake) (c : Option Chain) (m : Option PChain) (eph enc : Bytes)
    (nonce : Bytes) (hc : c = none ∨ c = some v.self) (hw : respWrites c m) :
    Triple laxest f (isHs a v ∗ isResp x eph enc m) (hHsSendResponse E (some a) (some x) nonce)
      (fun r f' => Asrt.ex fun z => ⌜ReplyOutcome E v (.response ⟨some eph, some enc, m⟩) nonce f' z.1 z.2⌝ ∗ isSent a r z ∗
        junk (f' = true ∨ SignRefused E v.self (.response ⟨some eph, some enc, m⟩) nonce)) := by
  unfold hHsSendResponse
  refine Triple.onNullK (hWrap_spec (isResp x eph enc m) laxest f x) (by frame) ?_ ?_
  · intro f1 _ hf
    sstep hResponseFree_spec f1 x c m eph enc hw
    intro _ f2 hf2
    sstep hHsFail_spec laxest f2 a v
    intro _ f3 hf3
    have ht := hf3 (hf2 hf)
    exact Triple.doneJ (V := Handshake × Option Packet) (φ := fun _ f' z => ReplyOutcome E v _ nonce f' z.1 z.2) (ψ := fun _ f' _ => f' = true ∨ SignRefused E v.self _ nonce)
      (P := fun r z => isSent a r z) (hsFail v, none) (by unfold isSent; simp only [optRep_null]; frame) junk_emp
      ⟨hsFail v, ⟨fun _ => rfl, fun p hp => (by cases hp), fun hn => by rw [ht] at hn; cases hn⟩, rfl⟩
  · intro y f1 hf1
    refine Triple.lend0 (P := isHs a v) (by frame) fun h hh => ?_
    obtain ⟨s, r1, hs⟩ := hs_self_view (has_of hh)
    sread r1
    have hrd : Reads ((isWrap x y ∗ isResp x eph enc m) ∗ keep h) (do let t ← field (some y) 0; hResponseRead (some s) t) (.response ⟨some eph, some enc, m⟩) :=
      Reads.bind (wrap_field x y) (by frame) (Reads.frame (hResponseRead_view hs hc hw) (by frame))
    sstep hBuildSigned_spec hE f1 h (isWrap x y ∗ isResp x eph enc m) a v _ _ nonce true hh hrd
    intro q f2 hf2
    sintro
    rename_i z hz
    sstep hUnwrap_spec f2 x y (fun f => hResponseFree_spec f x c m eph enc hw)
    intro _ f3 hf3
    obtain ⟨w, o⟩ := z
    cases q with
    | none =>
      rw [isSent_null]
      sintro
      rename_i ho
      cases ho
      show Triple laxest f3 _ (do hHsFail (some a); Pure.pure none) _
      sstep hHsFail_spec laxest f3 a w
      intro _ f4 hf4
      have hwf := hz.1 rfl
      dsimp only at hwf
      subst hwf
      exact Triple.doneJ (V := Handshake × Option Packet) (φ := fun _ f' z => ReplyOutcome E v _ nonce f' z.1 z.2) (ψ := fun _ f' _ => f' = true ∨ SignRefused E v.self _ nonce)
        (P := fun r z => isSent a r z) (hsFail v, none) (by rw [hsFail_fail]; unfold isSent; simp only [optRep_null]; frame)
        (junk_mono (oom_or fun h => hf4 (hf3 h))) ⟨_, hz.mono fun h => hf4 (hf3 h), rfl⟩
    | some q =>
      rw [isSent_some]
      sintro
      rename_i p ho
      cases ho
      show Triple laxest f3 _ (hHsReplied (some a) (some q)) _
      unfold hHsReplied
      sread hs_scal_reads a w
      dsimp only
      by_cases hs : w.status = .unknown
      · rw [if_pos hs]
        sstep hHsStatus_spec laxest f3 a w .pendingFinalization
        intro _ f4 hf4
        exact Triple.doneJ (V := Handshake × Option Packet) (φ := fun _ f' z => ReplyOutcome E v _ nonce f' z.1 z.2) (ψ := fun _ f' _ => f' = true ∨ SignRefused E v.self _ nonce)
          (P := fun r z => isSent a r z) (toFinal w, some p) (by unfold isSent toFinal; rw [if_pos hs]; dsimp only [optRep]; frame)
          (junk_mono (oom_or fun h => hf4 (hf3 h))) ⟨w, hz.mono fun h => hf4 (hf3 h), rfl⟩
      · rw [if_neg hs]
        exact Triple.doneJ (V := Handshake × Option Packet) (φ := fun _ f' z => ReplyOutcome E v _ nonce f' z.1 z.2) (ψ := fun _ f' _ => f' = true ∨ SignRefused E v.self _ nonce)
          (P := fun r z => isSent a r z) (toFinal w, some p) (by unfold isSent toFinal; rw [if_neg hs]; dsimp only [optRep]; frame)
          (junk_mono (oom_or hf3)) ⟨w, hz.mono hf3, rfl⟩

/-! ### A seed -/

/-- What the check of a seed gives: the key of the other side. -/
def seedChecked (E : Engine) (v : Handshake) (p : Packet) (m : Option PChain) (ep : Bytes) (y : Handshake × Packet) (r : Ptr) (f : Bool) : Asrt :=
  match r with
  | none => ⌜∃ ok, IdOutcome E v p m ok f y.1 y.2 ∧ (ok = true → f = true ∨ (dup ep).bind (E.ecImport · false) = none)⌝
  | some k => Asrt.ex fun kv => ⌜IdOutcome E v p m true f y.1 y.2 ∧ (dup ep).bind (E.ecImport · false) = some kv⌝ ∗ isKey k kv

theorem hSeedCheck_view (hE : E.Fits) (f : Bool) (h : Heap) (a b x : Addr) (v : Handshake) (p : Packet) (s : PSeed) (ep : Bytes)
    (hx : Has isProto h x (chainParts s.idChain ++ [ep])) :
    Triple laxest f (keep h ∗ isHs a v ∗ isTPkt b p) (hSeedCheck E (some a) (some b) (some x) s)
      (fun r f' => keep h ∗ Asrt.ex fun (y : Handshake × Packet) => (isHs a y.1 ∗ isTPkt b y.2) ∗ seedChecked E v p s.idChain ep y r f') := by
  unfold hSeedCheck
  have hm6 : (chainParts s.idChain).length = 6 := by
    cases s.idChain with
    | none => rfl
    | some m => obtain ⟨r, n⟩ := m; cases r <;> cases n <;> rfl
  have h6 : (chainParts s.idChain ++ [ep])[6]? = some ep := by rw [List.getElem?_append_right (by omega), hm6]; rfl
  haveI := Nth.of h6
  sstep hHsRemoteIdentity_view hE f h a b x v p s.idChain [ep] hx
  intro ok f1 hf1
  sintro
  rename_i y hy
  have bad : ∀ (f2 : Bool), (f1 = true → f2 = true) → (ok = true → f2 = true ∨ (dup ep).bind (E.ecImport · false) = none) →
      Triple laxest f2 (keep h ∗ isHs a y.1 ∗ isTPkt b y.2) (Pure.pure none)
        (fun r f' => keep h ∗ Asrt.ex fun (y : Handshake × Packet) => (isHs a y.1 ∗ isTPkt b y.2) ∗ seedChecked E v p s.idChain ep y r f') := by
    intro f2 hf2 hn
    refine Triple.ret fun z hz => Asrt.star_mono_r (P := keep h) (F := isHs a y.1 ∗ isTPkt b y.2) (fun u hu => ⟨y, ?_⟩) (by exact hz)
    dsimp only
    rw [Asrt.star_comm]
    exact Asrt.pure_star.2 ⟨⟨ok, hy.mono hf2, hn⟩, hu⟩
  cases ok with
  | false =>
    simp only [Bool.false_eq_true, ↓reduceIte]
    refine Triple.conseq (bad f1 id (fun h => by cases h)) (by sentail) (fun _ _ _ _ h => h)
  | true =>
    simp only [↓reduceIte]
    sread hPart_view (i := 6) (b := ep) hx
    refine Triple.onNullG (hFromProto_spec laxest f1 ep) (by frame) ?_ ?_
    · intro f2 hf2 hf
      refine Triple.conseq (bad f2 hf2 (fun _ => hf.imp_right fun h => by rw [h]; rfl)) (by sentail) (fun _ _ _ _ h => h)
    · intro kd f2 bs hf2 hbs
      refine Triple.lend (h := h) (P := isBuf kd bs) (by frame) fun h1 h' hp e1 s1 s2 => ?_
      sstep hImport_view hE laxest f2 trivial h' kd bs false (fun _ _ => trivial) (Has.sub (has_of hp) s2)
      intro k f3 hf3
      refine Triple.giveBack e1 hp (by frame) ?_
      sdestroy hBufDestroy_spec (Or.inr trivial)
      intro f4 hf4
      cases k with
      | none =>
        dsimp only [gives]
        sintro
        rename_i hf
        refine Triple.conseq (bad f4 (fun h => hf4 (hf3 (hf2 h))) (fun _ => hf.imp hf4 fun h => by rw [hbs]; exact h)) (by sentail) (fun _ _ _ _ h => h)
      | some k =>
        dsimp only [gives]
        sintro
        rename_i kv hk
        refine Triple.ret fun z hz => ?_
        refine Asrt.star_mono_r (P := keep h) (F := (isHs a y.1 ∗ isTPkt b y.2) ∗ isKey k kv) (fun u hu => ⟨y, ?_⟩) ?_
        · revert hz; revert z; sentail
        · exact Asrt.star_mono_r (fun t ht => ⟨kv, Asrt.pure_star.2 ⟨⟨hy.mono fun h => hf4 (hf3 (hf2 h)), by rw [hbs]; exact hk⟩, ht⟩⟩) hu

/-- transport_handshake.c:546-640: the answer to a seed that is authentic. -/
def seedReply (E : Engine) (h : Handshake) (peer : EcKey) (r : HsRand) (req : Bool) : Handshake × Option Packet :=
  match rootKeyCreate r.secret defaultCipher h.evo h.evo with
  | some rk =>
    let h := { h with rootKey := some rk }
    match hsMakeResponse E h rk r.eph peer r.iv req with
    | none => (hsFail h, none)
    | some m =>
      match hsBuildSigned E h m r.nonce true with
      | (h, none) => (hsFail h, none)
      | (h, some q) => (toFinal h, some q)
  | none => (hsFail h, none)

/-- What the answer is under any allocator. -/
def SeedOutcome (E : Engine) (v : Handshake) (peer : EcKey) (r : HsRand) (req f : Bool) (w : Handshake) (q : Option Packet) : Prop :=
  (f = false → seedReply E v peer r req = (w, q)) ∧
  (w.self = v.self ∧ w.remote = v.remote ∧ w.evo = v.evo ∧ w.isInitiator = v.isInitiator ∧ w.eph = v.eph ∧ w.pendingPkt = v.pendingPkt ∧
    w.pkt0 = v.pkt0) ∧
  (q = none → w.status = .failed) ∧
  (∀ p, q = some p → w.status = (toFinal v).status ∧ w.rootKey = some ⟨r.secret, defaultCipher, v.evo, v.evo⟩ ∧
    (w.pkt1 = slotSet v.pkt1 p.network ∨ f = true ∧ w.pkt1 = v.pkt1) ∧
    ∃ eph enc m, respWrites (if req then some v.self else none) m ∧ SentBy E v.self (.response ⟨some eph, some enc, m⟩) r.nonce f p)

theorem key_scal_reads (a : Addr) (k : EcKey) : Reads (isKey a k) (scal (some a)) (.curve k.curve) := by
  refine Reads.owned fun h hx => ?_
  have := has_of hx
  obtain ⟨cv, pub, pri⟩ := k
  sview this isKey
  exact scal_view (by assumption)

theorem hSeedHandle_spec (hE : E.Fits) (f : Bool) (a t x : Addr) (v : Handshake) (peer : EcKey) (r : HsRand) (req : Bool) (bs : List Bytes)
    (hr : SaneRand r) (hk : v.rootKey = none) :
    Triple laxest f (isHs a v ∗ isKey t peer ∗ isProto x bs) (hSeedHandle E (some a) (some t) (some x) r req)
      (fun q f' => Asrt.ex fun z => ⌜SeedOutcome E v peer r req f' z.1 z.2⌝ ∗ isSent a q z ∗ junk (f' = true ∨ SeedLeaks E v peer r req)) := by
  obtain ⟨⟨d, hd, hvd⟩, hvp, hsec⟩ := hr
  have hrk : rootKeyCreate r.secret defaultCipher v.evo v.evo = some ⟨r.secret, defaultCipher, v.evo, v.evo⟩ := by simp [rootKeyCreate, hsec]
  have fin : ∀ (f : Bool) (A G : Asrt) (w : Handshake), A = isHs a w ∗ G → SeedOutcome E v peer r req f w none →
      Asrt.le G (junk (f = true ∨ SeedLeaks E v peer r req)) →
      Triple laxest f A (Pure.pure none) (fun q f' => Asrt.ex fun z => ⌜SeedOutcome E v peer r req f' z.1 z.2⌝ ∗ isSent a q z ∗ junk (f' = true ∨ SeedLeaks E v peer r req)) := by
    intro f A G w hA hw hG
    exact Triple.doneJ (V := Handshake × Option Packet) (φ := fun _ f' z => SeedOutcome E v peer r req f' z.1 z.2) (ψ := fun _ f' _ => f' = true ∨ SeedLeaks E v peer r req)
      (P := fun r z => isSent a r z) (w, none) (by rw [hA]; unfold isSent; simp only [optRep_null, Asrt.star_emp]) hG hw
  unfold hSeedHandle
  sread key_scal_reads t peer
  dsimp only
  refine Triple.onNull' (hEcdhNew_spec laxest f trivial peer.curve defaultCipher r.eph.pub (optBytes r.eph.pri) hvp (by rw [hd]; exact hvd)) ?_ ?_
  · intro f1 _ hf
    sdestroy hFreeUnpacked_spec laxest x bs (fun _ _ => trivial)
    intro f2 hf2
    sdestroy hKeyDestroy_spec laxest t peer
    intro f3 hf3
    sstep hHsFail_spec laxest f3 a v
    intro _ f4 hf4
    refine fin f4 _ emp (hsFail v) (by frame) ⟨fun hn => ?_, ⟨rfl, rfl, rfl, rfl, rfl, rfl, rfl⟩, fun _ => rfl, fun p hp => by cases hp⟩ junk_emp
    rw [hf4 (hf3 (hf2 hf))] at hn; cases hn
  · intro q f1 hf1
    have hke : (⟨peer.curve, r.eph.pub, some (optBytes r.eph.pri)⟩ : EcKey) = r.eph := by
      cases hr : r.eph with | mk c p q => rw [hr] at hd; cases hd; cases c; cases peer.curve; rfl
    rw [hke]
    sread hs_scal_reads a v
    dsimp only
    sstep hTRootRandom_spec laxest f1 trivial defaultCipher v.evo v.evo r.secret hsec
    intro rk f2 hf2
    cases rk with
    | none =>
      dsimp only [gives]
      sintro
      rename_i hf
      have hf : f2 = true := hf.resolve_right (by rw [hrk]; simp)
      have h0 := hs_setRoot_spec laxest f2 a v none none hk
      rw [optRep_null, Asrt.star_emp] at h0
      sstep h0
      intro _ f3 hf3
      sdestroy hFreeUnpacked_spec laxest x bs (fun _ _ => trivial)
      intro f4 hf4
      sstep hHsFail_spec laxest f4 a _
      intro _ f5 hf5
      have ht := hf5 (hf4 (hf3 hf))
      refine fin f5 _ _ (hsFail { v with rootKey := none }) (by frame) ⟨fun hn => ?_, ⟨rfl, rfl, rfl, rfl, rfl, rfl, rfl⟩, fun _ => rfl, fun p hp => by cases hp⟩ (le_junk (Or.inl ht))
      rw [ht] at hn; cases hn
    | some rk =>
      dsimp only [gives]
      sintro
      rename_i k hk'
      rw [hrk] at hk'
      cases hk'
      have h0 := hs_setRoot_spec laxest f2 a v (some rk) (some ⟨r.secret, defaultCipher, v.evo, v.evo⟩) hk
      dsimp only [optRep] at h0
      sstep h0
      intro _ f3 hf3
      let v1 : Handshake := { v with rootKey := some ⟨r.secret, defaultCipher, v.evo, v.evo⟩ }
      unfold onNull
      refine Triple.lend0 (P := isHs a v1) (by frame) fun h hh => ?_
      sstep hRespMake_view hE f3 h a q t x v1 ⟨r.secret, defaultCipher, v.evo, v.evo⟩ r.eph peer r.iv req bs (has_of hh) rfl
      intro y f4 hf4
      refine Triple.giveBack0 hh (by frame) ?_
      cases y with
      | none =>
        dsimp only [responseMade]
        sintro
        rename_i hf
        sstep hHsFail_spec laxest f4 a v1
        intro _ f5 hf5
        refine fin f5 _ _ (hsFail v1) (by frame) ⟨fun hn => ?_, ⟨rfl, rfl, rfl, rfl, rfl, rfl, rfl⟩, fun _ => rfl, fun p hp => by cases hp⟩
          (junk_mono fun h => Or.inl (hf5 h))
        rcases hf with hf | hf
        · rw [hf5 hf] at hn; cases hn
        · unfold seedReply
          rw [hrk]
          dsimp only
          rw [show hsMakeResponse E { v with rootKey := some ⟨r.secret, defaultCipher, v.evo, v.evo⟩ } _ _ _ _ _ = none from hf]
      | some y =>
        dsimp only [responseMade]
        sintro
        rename_i z hz
        refine Triple.tail ?_
        sstep hHsSendResponse_spec hE f4 a y v1 (if req then some v.self else none) z.2.2 z.1 z.2.1 r.nonce (by cases req <;> simp [v1]) hz.1
        intro p f5 hf5
        sintro
        rename_i u hu
        obtain ⟨w, o⟩ := u
        refine Triple.doneJ (V := Handshake × Option Packet) (φ := fun _ f' z => SeedOutcome E v peer r req f' z.1 z.2) (ψ := fun _ f' _ => f' = true ∨ SeedLeaks E v peer r req)
          (P := fun r z => isSent a r z) (w, o) (by frame) (junk_star (junk_mono ?_) (junk_mono fun h => Or.inl (hf5 h))) ?_
        · rintro (h | h)
          · exact Or.inl h
          · cases f4 with
            | true => exact Or.inl (hf5 rfl)
            | false => exact Or.inr ⟨_, _, hrk, hz.2 rfl, h⟩
        · obtain ⟨w0, ⟨z1, z2, z3⟩, hw⟩ := hu
          dsimp only at z1 z2 z3 hw
          cases o with
          | none =>
            have hw0 := z1 rfl
            subst hw0
            have hw : w = hsFail v1 := hw
            subst hw
            refine ⟨fun hn => ?_, ⟨rfl, rfl, rfl, rfl, rfl, rfl, rfl⟩, fun _ => rfl, fun p hp => by cases hp⟩
            unfold seedReply
            rw [hrk]
            dsimp only
            rw [show hsMakeResponse E { v with rootKey := some ⟨r.secret, defaultCipher, v.evo, v.evo⟩ } _ _ _ _ _ = _ from hz.2 (oom_back hf5 hn)]
            dsimp only
            rw [show hsBuildSigned E { v with rootKey := some ⟨r.secret, defaultCipher, v.evo, v.evo⟩ } _ _ _ = _ from z3 hn]
            rfl
          | some p =>
            have hw : w = toFinal w0 := hw
            subst hw
            obtain ⟨y1, y2⟩ := z2 p rfl
            refine ⟨fun hn => ?_, ?_, fun ho => (by cases ho), fun p' hp => ?_⟩
            · unfold seedReply
              rw [hrk]
              dsimp only
              rw [show hsMakeResponse E { v with rootKey := some ⟨r.secret, defaultCipher, v.evo, v.evo⟩ } _ _ _ _ _ = _ from hz.2 (oom_back hf5 hn)]
              dsimp only
              rw [show hsBuildSigned E { v with rootKey := some ⟨r.secret, defaultCipher, v.evo, v.evo⟩ } _ _ _ = _ from z3 hn]
            · rcases y2 with h | ⟨-, h⟩ <;> rw [h] <;> exact ⟨rfl, rfl, rfl, rfl, rfl, rfl, rfl⟩
            · cases hp
              refine ⟨?_, ?_, ?_, z.1, z.2.1, z.2.2, hz.1, y1⟩
              · rcases y2 with h | ⟨-, h⟩ <;> rw [h] <;> rfl
              · rcases y2 with h | ⟨-, h⟩ <;> rw [h] <;> rfl
              · rcases y2 with h | ⟨hf, h⟩
                · exact Or.inl (by rw [h]; rfl)
                · exact Or.inr ⟨hf, by rw [h]; rfl⟩

/-! ### The first packet -/

theorem IdOutcome.exact {E : Engine} {v w : Handshake} {p p' : Packet} {m : Option PChain} {ok : Bool} (h : IdOutcome E v p m ok false w p') :
    hsRemoteIdentity E v p m = (w, ok) := by
  unfold hsRemoteIdentity
  rcases h with ⟨ch, ch', a, b, c⟩ | ⟨a, b, c, d, e⟩ | ⟨ch, ch', a, b, c, d⟩
  · rw [a]
    dsimp only
    rw [← c.2.2.2 rfl, b]
  · simp only [a, e.resolve_left (by decide), b, c]
  · rw [a, b]
    dsimp only
    rw [← d.2.2.2 rfl, c]

theorem IdOutcome.seen {E : Engine} {v w : Handshake} {p p' : Packet} {m : Option PChain} {ok f : Bool} (h : IdOutcome E v p m ok f w p') :
    PktSeen p p' := by
  rcases h with ⟨ch, ch', a, b, c⟩ | ⟨a, b, c, d, e⟩ | ⟨ch, ch', a, b, c, d⟩
  · exact c.1
  · exact Or.inl d
  · exact d.1

theorem IdOutcome.same {E : Engine} {v w : Handshake} {p p' : Packet} {m : Option PChain} {ok f : Bool} (h : IdOutcome E v p m ok f w p') :
    w.self = v.self ∧ w.evo = v.evo ∧ w.isInitiator = v.isInitiator ∧ w.eph = v.eph ∧ w.pendingPkt = v.pendingPkt ∧ w.rootKey = v.rootKey ∧
      w.pkt0 = v.pkt0 ∧ w.pkt1 = v.pkt1 := by
  rcases h with ⟨ch, ch', a, b, c⟩ | ⟨a, b, c, d, e⟩ | ⟨ch, ch', a, b, c, d⟩
  · subst b; exact ⟨rfl, rfl, rfl, rfl, rfl, rfl, rfl, rfl⟩
  · subst c; exact ⟨rfl, rfl, rfl, rfl, rfl, rfl, rfl, rfl⟩
  · subst c; exact ⟨rfl, rfl, rfl, rfl, rfl, rfl, rfl, rfl⟩

theorem Recorded.same {v w : Handshake} {s : Bool} {n : Option Bytes} {f : Bool} (h : Recorded v s n f w) :
    w.self = v.self ∧ w.evo = v.evo ∧ w.isInitiator = v.isInitiator ∧ w.eph = v.eph ∧ w.pendingPkt = v.pendingPkt ∧ w.rootKey = v.rootKey ∧
      w.remote = v.remote ∧ w.status = v.status := by
  rcases h with rfl | ⟨-, rfl⟩
  · cases s <;> exact ⟨rfl, rfl, rfl, rfl, rfl, rfl, rfl, rfl⟩
  · exact ⟨rfl, rfl, rfl, rfl, rfl, rfl, rfl, rfl⟩

/-- What the first packet does. -/
def InitOutcome (E : Engine) (v : Handshake) (p : Packet) (r : HsRand) (f : Bool) (w : Handshake) (p' : Packet) (q : Option Packet) : Prop :=
  (f = false → hsProcessInitial E v p r = .ok (w, q)) ∧
  (w.self = v.self ∧ w.evo = v.evo ∧ w.isInitiator = v.isInitiator ∧ w.eph = v.eph ∧ w.pendingPkt = v.pendingPkt) ∧ PktSeen p p' ∧
  (q = none → w.status = .failed) ∧
  (∀ o, q = some o → ∃ s, handshakeFromPacket p = some (.seed s) ∧ Accepted E v p s.idChain f w p' ∧
    w.rootKey = some ⟨r.secret, defaultCipher, v.evo, v.evo⟩ ∧
    ∃ eph enc m, SentBy E v.self (.response ⟨some eph, some enc, m⟩) r.nonce f o)

/-- What a handshake, the packet it was given and the one it made look like after a call. -/
def isAnswered (a b : Addr) (r : Ptr) (x : Handshake × Packet × Option Packet) : Asrt := isHs a x.1 ∗ isTPkt b x.2.1 ∗ optRep isTPkt r x.2.2

theorem hsProcessInitial_seed {E : Engine} {v : Handshake} {p : Packet} {r : HsRand} {s : PSeed} {ep : Bytes} {req : Bool}
    (hm : handshakeFromPacket p = some (.seed s)) (he : s.ephPub = some ep) (hq : s.identityRequired = some req) :
    hsProcessInitial E v p r = .ok (match hsRemoteIdentity E (hsSetSlot v false p.network) p s.idChain with
      | (h, false) => (hsFail h, none)
      | (h, true) => match (dup ep).bind (E.ecImport · false) with
        | none => (hsFail h, none)
        | some peer => seedReply E h peer r req) := by
  unfold hsProcessInitial
  dsimp only
  rw [hm]
  dsimp only
  rw [he, hq]
  dsimp only
  rcases hsRemoteIdentity E (hsSetSlot v false p.network) p s.idChain with ⟨h, ok⟩
  cases ok with
  | false => rfl
  | true =>
    dsimp only
    cases hi : (dup ep).bind (E.ecImport · false) with
    | none => rfl
    | some peer =>
      unfold seedReply
      cases rootKeyCreate r.secret defaultCipher h.evo h.evo with
      | none => rfl
      | some rk =>
        dsimp only
        cases hsMakeResponse E { h with rootKey := some rk } rk r.eph peer r.iv req with
        | none => rfl
        | some m =>
          dsimp only
          rcases hsBuildSigned E { h with rootKey := some rk } m r.nonce true with ⟨h', _ | q⟩ <;> rfl

theorem hProcessInitial_spec (hE : E.Fits) (f : Bool) (a b : Addr) (v : Handshake) (p : Packet) (r : HsRand) (hr : SaneRand r)
    (hst : v.status = .unknown) (hk : v.rootKey = none) (hp : ∀ m, handshakeFromPacket p ≠ some (.response m)) :
    Triple laxest f (isHs a v ∗ isTPkt b p) (hProcessInitial E (some a) (some b) r)
      (fun q f' => Asrt.ex fun z => ⌜InitOutcome E v p r f' z.1 z.2.1 z.2.2⌝ ∗ isAnswered a b q z ∗ junk (f' = true ∨ InitLeaks E v p r)) := by
  have fin : ∀ (f : Bool) (A G : Asrt) (w : Handshake) (p' : Packet), A = (isHs a w ∗ isTPkt b p') ∗ G → InitOutcome E v p r f w p' none →
      Asrt.le G (junk (f = true ∨ InitLeaks E v p r)) →
      Triple laxest f A (Pure.pure none) (fun q f' => Asrt.ex fun z => ⌜InitOutcome E v p r f' z.1 z.2.1 z.2.2⌝ ∗ isAnswered a b q z ∗ junk (f' = true ∨ InitLeaks E v p r)) := by
    intro f A G w p' hA hw hG
    exact Triple.doneJ (V := Handshake × Packet × Option Packet) (φ := fun _ f' z => InitOutcome E v p r f' z.1 z.2.1 z.2.2) (ψ := fun _ f' _ => f' = true ∨ InitLeaks E v p r)
      (P := fun r z => isAnswered a b r z) (w, p', none) (by rw [hA]; unfold isAnswered; simp only [optRep_null, Asrt.star_emp]) hG hw
  unfold hProcessInitial
  refine Triple.lend0 (P := isTPkt b p) (by frame) fun h hh => ?_
  sstep hHsRecord_spec f h a b v p false (has_of hh)
  intro _ f1 hf1
  sintro
  rename_i v1 hv1
  sstep hFromPacket_view f1 h b p (has_of hh)
  intro m f2 hf2
  refine Triple.giveBack0 hh (by frame) ?_
  have hs1 := hv1.same
  have e1 : f1 = false → v1 = hsSetSlot v false p.network := fun h => hv1.resolve_right fun h' => by rw [h] at h'; cases h'.1
  cases m with
  | none =>
    dsimp only [fromPkt]
    sintro
    rename_i hf
    sstep hHsFail_spec laxest f2 a v1
    intro _ f3 hf3
    refine fin f3 _ emp (hsFail v1) p (by frame) ⟨fun hn => ?_, ⟨hs1.1, hs1.2.1, hs1.2.2.1, hs1.2.2.2.1, hs1.2.2.2.2.1⟩, Or.inl rfl, fun _ => rfl, fun p hp => by cases hp⟩ junk_emp
    rcases hf with hf | hf
    · rw [hf3 hf] at hn; cases hn
    · unfold hsProcessInitial
      rw [hf, e1 (oom_back hf2 (oom_back hf3 hn))]
  | some mx =>
    obtain ⟨m, x⟩ := mx
    dsimp only [fromPkt]
    sintro
    rename_i xa hm
    obtain ⟨hm, rfl⟩ := hm
    cases m with
    | response m => exact (hp m hm).elim
    | unset =>
      dsimp only
      sdestroy hFreeUnpacked_spec laxest xa _ (fun _ _ => trivial)
      intro f3 hf3
      sstep hHsFail_spec laxest f3 a v1
      intro _ f4 hf4
      refine fin f4 _ emp (hsFail v1) p (by frame) ⟨fun hn => ?_, ⟨hs1.1, hs1.2.1, hs1.2.2.1, hs1.2.2.2.1, hs1.2.2.2.2.1⟩, Or.inl rfl, fun _ => rfl, fun p hp => by cases hp⟩ junk_emp
      unfold hsProcessInitial
      rw [hm, e1 (oom_back hf2 (oom_back hf3 (oom_back hf4 hn)))]
    | seed s =>
      dsimp only
      have bad : (s.ephPub = none ∨ s.identityRequired = none) →
          Triple laxest f2 (isProto xa (PHandshake.seed s).parts ∗ isTPkt b p ∗ isHs a v1)
            (do let _ ← hFreeUnpacked (some xa); hHsFail (some a); Pure.pure none)
            (fun q f' => Asrt.ex fun z => ⌜InitOutcome E v p r f' z.1 z.2.1 z.2.2⌝ ∗ isAnswered a b q z ∗ junk (f' = true ∨ InitLeaks E v p r)) := by
        intro hn
        sdestroy hFreeUnpacked_spec laxest xa _ (fun _ _ => trivial)
        intro f3 hf3
        sstep hHsFail_spec laxest f3 a v1
        intro _ f4 hf4
        refine fin f4 _ emp (hsFail v1) p (by frame) ⟨fun hn' => ?_, ⟨hs1.1, hs1.2.1, hs1.2.2.1, hs1.2.2.2.1, hs1.2.2.2.2.1⟩, Or.inl rfl, fun _ => rfl, fun p hp => by cases hp⟩ junk_emp
        unfold hsProcessInitial
        rw [hm, e1 (oom_back hf2 (oom_back hf3 (oom_back hf4 hn')))]
        dsimp only
        rcases hn with hn | hn
        · rw [hn]
        · rw [hn]; cases s.ephPub <;> rfl
      cases he : s.ephPub with
      | none => exact Triple.conseq (bad (Or.inl he)) (by sentail) (fun _ _ _ _ h => h)
      | some ep =>
        cases hq : s.identityRequired with
        | none => exact Triple.conseq (bad (Or.inr hq)) (by sentail) (fun _ _ _ _ h => h)
        | some req =>
          have hparts : (PHandshake.seed s).parts = chainParts s.idChain ++ [ep] := by
            show chainParts s.idChain ++ [_] = _
            rw [he]; rfl
          rw [hparts]
          dsimp only
          unfold onNull
          refine Triple.lend0 (P := isProto xa (chainParts s.idChain ++ [ep])) (by frame) fun h1 hh1 => ?_
          sstep hSeedCheck_view hE f2 h1 a b xa v1 p s ep (has_of hh1)
          intro k f3 hf3
          sintro
          rename_i y
          obtain ⟨v2, p'⟩ := y
          refine Triple.giveBack0 hh1 (by frame) ?_
          cases k with
          | none =>
            dsimp only [seedChecked]
            sintro
            rename_i hok
            obtain ⟨ok, hi, hok⟩ := hok
            sdestroy hFreeUnpacked_spec laxest xa _ (fun _ _ => trivial)
            intro f4 hf4
            sstep hHsFail_spec laxest f4 a v2
            intro _ f5 hf5
            have hs2 := hi.same
            refine fin f5 _ emp (hsFail v2) p' (by frame) ⟨fun hn => ?_, ⟨hs2.1.trans hs1.1, hs2.2.1.trans hs1.2.1, hs2.2.2.1.trans hs1.2.2.1,
              hs2.2.2.2.1.trans hs1.2.2.2.1, hs2.2.2.2.2.1.trans hs1.2.2.2.2.1⟩, hi.seen, fun _ => rfl, fun p hp => by cases hp⟩ junk_emp
            have hn3 := oom_back hf4 (oom_back hf5 hn)
            subst hn3
            rw [hsProcessInitial_seed hm he hq, ← e1 (oom_back hf2 (oom_back hf3 rfl)), hi.exact]
            cases ok with
            | false => rfl
            | true =>
              dsimp only
              rw [(hok rfl).resolve_left (by decide)]
          | some k =>
            dsimp only [seedChecked]
            sintro
            rename_i kv hkv
            obtain ⟨hi, hkv⟩ := hkv
            have hs2 := hi.same
            refine Triple.tail ?_
            sstep hSeedHandle_spec hE f3 a k xa v2 kv r req _ hr (hs2.2.2.2.2.2.1.trans (hs1.2.2.2.2.2.1.trans hk))
            intro q f4 hf4
            sintro
            rename_i z hz
            obtain ⟨w, o⟩ := z
            refine Triple.doneJ (V := Handshake × Packet × Option Packet) (φ := fun _ f' z => InitOutcome E v p r f' z.1 z.2.1 z.2.2)
              (ψ := fun _ f' _ => f' = true ∨ InitLeaks E v p r)
              (P := fun r z => isAnswered a b r z) (w, p', o) (by unfold isAnswered isSent; frame) (junk_mono ?_) ?_
            · rintro (h | h)
              · exact Or.inl h
              · cases f3 with
                | true => exact Or.inl (hf4 rfl)
                | false =>
                  refine Or.inr ⟨s, ep, req, v2, kv, hm, he, hq, ?_, hkv, h⟩
                  rw [← e1 (oom_back hf2 (oom_back hf3 rfl)), hi.exact]
            · obtain ⟨z1, z2, z3, z4⟩ := hz
              dsimp only at z1 z2 z3 z4
              refine ⟨fun hn => ?_, ⟨z2.1.trans (hs2.1.trans hs1.1), z2.2.2.1.trans (hs2.2.1.trans hs1.2.1), z2.2.2.2.1.trans (hs2.2.2.1.trans hs1.2.2.1),
                z2.2.2.2.2.1.trans (hs2.2.2.2.1.trans hs1.2.2.2.1), z2.2.2.2.2.2.1.trans (hs2.2.2.2.2.1.trans hs1.2.2.2.2.1)⟩, hi.seen, z3, fun o' ho => ?_⟩
              · have hn3 := oom_back hf4 hn
                subst hn3
                rw [hsProcessInitial_seed hm he hq, ← e1 (oom_back hf2 (oom_back hf3 rfl)), hi.exact]
                dsimp only
                rw [hkv]
                dsimp only
                rw [z1 hn]
              · obtain ⟨y1, y2, y3, eph, enc, cm, y4, y5⟩ := z4 o' ho
                refine ⟨s, hm, ?_, ?_, eph, enc, cm, ?_⟩
                · rcases hi with ⟨ch, ch', i1, i2, i3⟩ | ⟨i1, i2, i3, i4, i5⟩ | ⟨ch, ch', i1, i2, i3, i4⟩
                  · refine ⟨ch, ch', Or.inl ⟨by rw [← i1, hs1.2.2.2.2.2.2.1], ?_⟩, by rw [z2.2.1, i2], i3.mono hf4⟩
                    rw [y1, i2]
                    unfold toFinal
                    dsimp only
                    rw [if_pos (hs1.2.2.2.2.2.2.2.trans hst)]
                  · cases i2
                  · refine ⟨ch, ch', Or.inr ⟨by rw [← i1, hs1.2.2.2.2.2.2.1], i2, ?_⟩, by rw [z2.2.1, i3], i4.mono hf4⟩
                    rw [y1, i3]
                    rfl
                · rw [y2, hs2.2.1, hs1.2.1]
                · rw [hs2.1, hs1.1] at y5
                  exact y5

end Wickr
