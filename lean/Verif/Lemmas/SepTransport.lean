import Verif.Lemmas.SepPacket
import Verif.Lemmas.SepNode
import Verif.Spec.ReprTransport
/-
Transport packets on the heap.
-/
set_option linter.unusedVariables false
namespace Wickr
open Asrt Spec

variable {E : Engine}

theorem metaSerialize_valid (m : PktMeta) : ValidBuf (pktMetaSerialize m) := by
  unfold pktMetaSerialize ValidBuf
  obtain ⟨b, mac⟩ := m
  have h64 : ∀ x, (le64 x).length = 8 := fun x => by simp [le64]
  cases b <;> simp [h64, maxBuffer]

theorem hMetaSerialize_spec (c : Rules) (f : Bool) (m : PktMeta) :
    Triple c f emp (hMetaSerialize m) (fun r f' => fresh isBuf (pktMetaSerialize m) r f') := hOut_spec c f _ (metaSerialize_valid m)

theorem hTPktCreate_spec (c : Rules) (f : Bool) (m : PktMeta) (a : Addr) (b : Bytes) :
    Triple c f (isBuf a b) (hTPktCreate m (some a)) (fun r f' => orKeep (isBuf a b) isTPkt (pktCreate m b) r f') := by
  unfold hTPktCreate pktCreate
  sgo

theorem hTPktDestroy_spec {c : Rules} {a : Addr} {v : Packet} (hp : ∀ b ∈ v.publics, c.pub b) :
    Destroys c (isTPkt a v) (hTPktDestroy (some a)) := by
  intro f
  unfold hTPktDestroy
  obtain ⟨hd, b, m, n⟩ := v
  simp only [Packet.publics] at hp
  sopen isTPkt
  sopt <;> sopt <;> simp at hp <;> sgo

theorem hTPktAssemble_spec (c : Rules) (f : Bool) (m : PktMeta) (a : Addr) (b : Bytes) (p : Ptr) (mac : Option Bytes)
    (hb : c.pub b) (hm : ∀ x, mac = some x → c.pub x) :
    Triple c f (isBuf a b ∗ optRep isBuf p mac) (hTPktAssemble m (some a) p)
      (fun r f' => fresh isTPkt ⟨m, b, mac, none⟩ r f') := by
  unfold hTPktAssemble onNull
  sstep hTPktCreate_spec c f m a b
  intro r f1 h1
  cases r with
  | none =>
    dsimp only [orKeep]
    sintro
    sopt <;> simp at hm <;> sgo
  | some x =>
    dsimp only [orKeep, pktCreate]
    sopen isTPkt
    sopt <;> sgo

theorem hTPktCopy_keep (c : Rules) (f : Bool) (a : Addr) (v : Packet) (hp : ∀ b ∈ v.publics, c.pub b) (h : Heap) (hx : isTPkt a v h) :
    Triple c f (keep h) (hTPktCopy (some a)) (fun r f' => keep h ∗ fresh isTPkt v.plain r f') := by
  unfold hTPktCopy
  obtain ⟨hd, b, m, n⟩ := v
  simp only [Packet.publics, Packet.plain] at hp ⊢
  skeep hx isTPkt
  skopt <;> skopt <;> simp at hp <;> sgo

theorem hTPktCopy_spec (c : Rules) (f : Bool) (a : Addr) (v : Packet) (hp : ∀ b ∈ v.publics, c.pub b) :
    Triple c f (isTPkt a v) (hTPktCopy (some a)) (fun r f' => isTPkt a v ∗ fresh isTPkt v.plain r f') :=
  Triple.owned fun h hx => hTPktCopy_keep c f a v hp h hx

theorem hTPktCopy_view (c : Rules) (f : Bool) (h : Heap) (a : Addr) (v : Packet) (hp : ∀ b ∈ v.publics, c.pub b)
    (ha : Has isTPkt h a v) :
    Triple c f (keep h) (hTPktCopy (some a)) (fun r f' => keep h ∗ fresh isTPkt v.plain r f') :=
  Triple.view (fun x hx => hTPktCopy_keep c f a v hp x hx) ha

theorem hTPktSerialize_view (c : Rules) (f : Bool) (h : Heap) (a : Addr) (v : Packet) (hp : c.pub (pktMetaSerialize v.hdr))
    (ha : Has isTPkt h a v) :
    Triple c f (keep h) (hTPktSerialize (some a)) (fun r f' => keep h ∗ gives isBuf (pktSerialize v) r f') := by
  unfold hTPktSerialize pktSerialize
  obtain ⟨hd, b, m, n⟩ := v
  sview ha isTPkt
  vgo

theorem tpkt_setMac (c : Rules) (f : Bool) (a : Addr) (v : Packet) (p : Ptr) (x : Option Bytes) (hv : v.mac = none) :
    Triple c f (isTPkt a v ∗ optRep isBuf p x) (setField (some a) 1 p) (fun _ _ => isTPkt a { v with mac := x }) := by
  obtain ⟨hd, b, m, n⟩ := v
  cases hv
  sopen isTPkt
  refine Triple.tail ?_
  sopt <;> sopt <;> sgo

theorem tpkt_setNet (c : Rules) (f : Bool) (a : Addr) (v : Packet) (p : Ptr) (x : Option Bytes) (hv : v.network = none) :
    Triple c f (isTPkt a v ∗ optRep isBuf p x) (setField (some a) 2 p) (fun _ _ => isTPkt a { v with network := x }) := by
  obtain ⟨hd, b, m, n⟩ := v
  cases hv
  sopen isTPkt
  refine Triple.tail ?_
  sopt <;> sopt <;> sgo

theorem hTPktReceive_view (c : Rules) (f : Bool) (h : Heap) (m : PktMeta) (a : Addr) (b : Bytes) (p : Ptr) (mac : Option Bytes)
    (q : Addr) (net : Bytes) (hb : c.pub b) (hm : ∀ x, mac = some x → c.pub x) (hq : Has isBuf h q net) :
    Triple c f (keep h ∗ isBuf a b ∗ optRep isBuf p mac) (hTPktReceive m (some a) p (some q))
      (fun r f' => keep h ∗ fresh isTPkt ⟨m, b, mac, some net⟩ r f') := by
  unfold hTPktReceive onNull
  sstep hTPktCreate_spec c f m a b
  intro r f1 h1
  cases r with
  | none =>
    dsimp only [orKeep]
    sintro
    sopt <;> simp at hm <;> sgo
  | some x =>
    dsimp only [orKeep, pktCreate]
    sstep tpkt_setMac c f1 x ⟨m, b, none, none⟩ p mac rfl
    intro _ f1 _
    sstep hBufCopy_view c f1 h q net hq
    intro r f2 h2
    cases r with
    | none =>
      dsimp only [fresh]
      sintro
      sstep tpkt_setNet c f2 x ⟨m, b, mac, none⟩ none none rfl
      intro _ f3 _
      have hd := hTPktDestroy_spec (c := c) (a := x) (v := ⟨m, b, mac, none⟩) (by
        intro y hy; simp [Packet.publics] at hy; grind)
      sstep hd f3
      intro _ f4 _
      sintro
      refine Triple.ret fun y hy => ?_
      rw [Asrt.star_comm, Asrt.pure_star]
      exact ⟨by grind, hy⟩
    | some y =>
      dsimp only [fresh]
      sstep tpkt_setNet c f2 x ⟨m, b, mac, none⟩ (some y) (some net) rfl
      intro _ f3 _
      sgo

theorem metaParse_pos {b : Bytes} {m : PktMeta} {n : Nat} (h : pktMetaParse b = some (m, n)) : 0 < n := by
  unfold pktMetaParse at h
  grind

theorem hTPktFromBuffer_view (c : Rules) (f : Bool) (h : Heap) (a : Addr) (b : Bytes)
    (hp : ∀ s n x, copySection b s n = some x → c.pub x) (ha : Has isBuf h a b) :
    Triple c f (keep h) (hTPktFromBuffer (some a)) (fun r f' => keep h ∗ gives isTPkt (pktFromBuffer b) r f') := by
  unfold hTPktFromBuffer pktFromBuffer
  sread readBuf_view ha
  have hv : ValidBuf b := has_valid ha
  cases hm : pktMetaParse b with
  | none => vgo
  | some x =>
    obtain ⟨hd, st⟩ := x
    dsimp only
    by_cases hl : b.length ≤ st + pktMacSize hd.mac
    · simp only [hl, if_true]
      vgo
    · simp only [hl, if_false]
      have hst : 0 < st := metaParse_pos hm
      obtain ⟨hv0, hv1⟩ := hv
      have hv' : ValidBuf b := ⟨hv0, hv1⟩
      have hB := copySection_of (b := b) (s := st) (l := b.length - pktMacSize hd.mac - st) (by omega) (by omega) (by omega) (by omega)
      by_cases hz : pktMacSize hd.mac = 0
      · simp only [hz, ne_eq, not_true_eq_false, if_false, Nat.sub_zero] at hB ⊢
        rw [hB, hSection_eq hB, dup_of hv']
        have h1 := hp _ _ _ hB
        have h2 := copySection_valid hB
        dsimp only [Option.bind, Option.map]
        vgo
      · have hM := copySection_of (b := b) (s := b.length - pktMacSize hd.mac) (l := pktMacSize hd.mac) (by omega) (by omega) (by omega)
          (by omega)
        simp only [hz, ne_eq, not_false_eq_true, if_true]
        rw [hM, hB, hSection_eq hM, hSection_eq hB, dup_of hv']
        have h1 := hp _ _ _ hB
        have h2 := copySection_valid hB
        have h3 := hp _ _ _ hM
        have h4 := copySection_valid hM
        dsimp only [Option.bind, Option.map]
        vgo

theorem tpkt_setHdr (c : Rules) (f : Bool) (a : Addr) (v : Packet) (m : PktMeta) :
    Triple c f (isTPkt a v) (setScal (some a) (.tpkt m)) (fun _ _ => isTPkt a { v with hdr := m }) := by
  obtain ⟨hd, b, m, n⟩ := v
  sopen isTPkt
  sgo

theorem tpkt_hdr {h : Heap} {a : Addr} {v : Packet} (ha : Has isTPkt h a v) : Reads (keep h) (scal (some a)) (.tpkt v.hdr) := by
  intro c f
  obtain ⟨hd, b, m, n⟩ := v
  sview ha isTPkt
  vgo

theorem hTPktToSign_spec (c : Rules) (f : Bool) (a : Addr) (v : Packet) (hp : c.pub (pktMetaSerialize v.announced.hdr)) :
    Triple c f (isTPkt a v) (hTPktToSign (some a) macP521)
      (fun r f' => isTPkt a v ∗ gives isBuf (pktSerialize v.announced) r f') := by
  unfold hTPktToSign
  refine Triple.lend0 (P := isTPkt a v) (by frame) fun h hh => ?_
  sread tpkt_hdr (has_of hh)
  refine Triple.giveBack0 hh (by frame) ?_
  dsimp only
  sstep tpkt_setHdr c f a v { v.hdr with mac := macP521 }
  intro _ f1 _
  refine Triple.lend0 (P := isTPkt a v.announced) (by unfold Packet.announced; frame) fun h hh => ?_
  sstep hTPktSerialize_view c f1 h a v.announced hp (has_of hh)
  intro r f2 _
  refine Triple.giveBack0 hh (by frame) ?_
  sstep tpkt_setHdr c f2 a v.announced v.hdr
  intro _ f3 _
  cases r with
  | none => dsimp only [gives]; sintro; dsimp only [Packet.announced] at *; sgo
  | some q => dsimp only [gives]; sintro; dsimp only [Packet.announced] at *; sgo

/-- A signature that was serialized, with its padding or without. -/
def sigGiven (x : Option EcdsaResult) (r : Ptr) (f : Bool) : Asrt :=
  match r with
  | none => ⌜f = true ∨ x.bind ecdsaSerialize = none⌝
  | some q => Asrt.ex fun s => Asrt.ex fun w => Asrt.ex fun sb =>
    ⌜x = some s ∧ ecdsaSerialize s = some w ∧ sigLoss s w sb ∧ (f = false → sb = w)⌝ ∗ isBuf q sb

theorem hTPktSignature_view (hE : E.Fits) (c : Rules) (f : Bool) (hc : c.crash) (h : Heap) (a q : Addr) (i : Identity) (d nonce : Bytes)
    (hd : c.pub d) (hs : ∀ s, identitySign E i d nonce = some s → c.pub s.sig) (hi : Has isId h a i) :
    Triple c f (keep h ∗ isBuf q d) (hTPktSignature E (some a) (some q) nonce)
      (fun r f' => keep h ∗ sigGiven (identitySign E i d nonce) r f') := by
  unfold hTPktSignature onNull
  refine Triple.lend (h := h) (P := isBuf q d) (by frame) fun h1 h' hb e s1 s2 => ?_
  sstep hIdentitySign_view hE c f hc h' a q i d nonce (Has.sub hi s1) (Has.sub (has_of hb) s2)
  intro r f1 _
  refine Triple.giveBack e hb (by frame) ?_
  sstep hBufDestroy_spec (c := c) (a := q) (b := d) (Or.inr hd) f1
  intro _ f2 _
  sintro
  refine Triple.pureBind ?_
  cases r with
  | none =>
    dsimp only [gives]
    sintro
    refine Triple.ret fun y hy => ?_
    rw [Asrt.star_comm]
    exact Asrt.pure_star.2 ⟨by grind [Option.bind], hy⟩
  | some x =>
    dsimp only [gives]
    sintro
    rename_i s hsig
    refine Triple.lend (h := h) (P := isSig x s) (by frame) fun h1 h' hb e s1 s2 => ?_
    sstep hSigSerialize_view c f2 h' x s (Has.sub (has_of hb) s2)
    intro r f3 _
    refine Triple.giveBack e hb (by frame) ?_
    have hds := hSigDestroy_spec (c := c) (a := x) (s := s) (by have := hs s hsig; simp_all)
    sstep hds f3
    intro _ f4 _
    sintro
    refine Triple.ret fun y hy => ?_
    cases r with
    | none =>
      dsimp only [givesL, sigGiven] at hy ⊢
      refine Asrt.star_mono_r (fun z hz => ?_) hy
      obtain ⟨hz1, hz2⟩ := hz
      exact ⟨by grind [Option.bind], hz2⟩
    | some w =>
      dsimp only [givesL, sigGiven] at hy ⊢
      refine Asrt.star_mono_r (fun z hz => ?_) hy
      obtain ⟨v, v', hz⟩ := hz
      obtain ⟨hz1, hz2⟩ := Asrt.pure_star.1 hz
      exact ⟨s, v, v', Asrt.pure_star.2 ⟨by grind, hz2⟩⟩

theorem hTPktAttach_spec (c : Rules) (f : Bool) (a q : Addr) (v : Packet) (sb : Bytes) (hm : v.mac = none) (hn : v.network = none)
    (hp : c.pub (pktMetaSerialize v.announced.hdr)) :
    Triple c f (isTPkt a v ∗ isBuf q sb) (hTPktAttach (some a) (some q) macP521)
      (fun ok f' => Asrt.ex fun n => ⌜(n = none ∨ n = pktSerialize { v.announced with mac := some sb }) ∧ ok = n.isSome ∧
        (f' = false → n = pktSerialize { v.announced with mac := some sb })⌝ ∗
        isTPkt a { v.announced with mac := some sb, network := n }) := by
  unfold hTPktAttach
  sstep tpkt_setMac c f a v (some q) (some sb) hm
  intro _ f1 _
  refine Triple.lend0 (P := isTPkt a { v with mac := some sb }) (by frame) fun h hh => ?_
  sread tpkt_hdr (has_of hh)
  refine Triple.giveBack0 hh (by frame) ?_
  dsimp only
  sstep tpkt_setHdr c f1 a { v with mac := some sb } { v.hdr with mac := macP521 }
  intro _ f2 _
  refine Triple.lend0 (P := isTPkt a { v.announced with mac := some sb }) (by unfold Packet.announced; frame) fun h hh => ?_
  sstep hTPktSerialize_view c f2 h a { v.announced with mac := some sb } hp (has_of hh)
  intro r f3 _
  refine Triple.giveBack0 hh (by frame) ?_
  cases r with
  | none =>
    dsimp only [gives]; sintro
    sstep tpkt_setNet c f3 a { v.announced with mac := some sb } none none hn
    intro _ f4 _
    refine Triple.done _ (by unfold Packet.announced; frame) ⟨Or.inl rfl, rfl, by grind⟩
  | some x =>
    dsimp only [gives]; sintro
    rename_i y hy
    sstep tpkt_setNet c f3 a { v.announced with mac := some sb } (some x) (some y) hn
    intro _ f4 _
    refine Triple.done _ (by unfold Packet.announced; frame) ⟨Or.inr hy.symm, rfl, fun _ => hy.symm⟩

/-- The node of a chain is looked at. -/
theorem chain_node_view {h : Heap} {a : Addr} {ch : Chain} (ha : Has isChain h a ch) :
    ∃ x y, Reads (keep h) (field (some a) 1) (some x) ∧ Has isId h x ch.node ∧ Reads (keep h) (field (some x) 1) (some y) ∧
      Has isKey h y ch.node.key ∧ Reads (keep h) (scal (some y)) (.curve ch.node.key.curve) := by
  obtain ⟨rt, nd, st, ca⟩ := ch
  sview ha isChain
  rename Has isId h _ nd => hn
  have hn' := hn
  obtain ⟨t, idn, ⟨cv, pub, pri⟩, sg⟩ := nd
  sview hn isId
  rename Has isKey h _ _ => hk
  have hk' := hk
  sview hk isKey
  exact ⟨_, _, field_view (by assumption) rfl, hn', field_view (by assumption) rfl, hk', scal_view (by assumption)⟩

theorem Triple.doneK {c : Rules} {f : Bool} {V : Type _} {α : Type} {A : Asrt} {h : Heap} {a : α} {φ : α → Bool → V → Prop}
    {P : α → V → Asrt} (w : V) (hA : A = P a w ∗ keep h) (hφ : φ a f w) :
    Triple c f A (Pure.pure a : H α) (fun r f' => keep h ∗ Asrt.ex fun x => ⌜φ r f' x⌝ ∗ P r x) := by
  refine Triple.ret fun x hx => ?_
  rw [hA, Asrt.star_comm] at hx
  exact Asrt.star_mono_r (fun y hy => ⟨w, Asrt.pure_star.2 ⟨hφ, hy⟩⟩) hx

theorem hTPktSign_view (hE : E.Fits) (c : Rules) (f : Bool) (hc : c.crash) (h : Heap) (a b : Addr) (p : Packet) (ch : Chain) (nonce : Bytes)
    (hm : p.mac = none) (hn : p.network = none) (hh : c.pub (pktMetaSerialize p.announced.hdr))
    (hd : ∀ d, pktSerialize p.announced = some d → c.pub d ∧ ∀ s, identitySign E ch.node d nonce = some s → c.pub s.sig)
    (hb : Has isChain h b ch) :
    Triple c f (keep h ∗ isTPkt a p) (hTPktSign E (some a) (some b) nonce)
      (fun ok f' => keep h ∗ Asrt.ex fun p' => ⌜SignOutcome E p ch nonce ok f' p'⌝ ∗ isTPkt a p') := by
  unfold hTPktSign
  obtain ⟨x, y, r1, hx, r2, hy, r3⟩ := chain_node_view hb
  sread r1
  sread r2
  sread r3
  have hcv : ch.node.key.curve = .p521 := by cases ch.node.key.curve; rfl
  rw [hcv]
  unfold onNull
  dsimp only
  sstep hTPktToSign_spec c f a p hh
  intro r f1 _
  cases r with
  | none =>
    dsimp only [gives]
    sintro
    rename_i h1
    refine Triple.doneK p (by frame) ⟨(nomatch ·), fun _ => Or.inl rfl, fun h => ?_⟩
    have h1 : pktSerialize p.announced = none := by simp_all
    unfold pktSign
    rw [show ({ p with hdr := { p.hdr with mac := macP521 } } : Packet) = p.announced from rfl, h1]
  | some q =>
    dsimp only [gives]
    sintro
    rename_i d h1
    sstep hTPktSignature_view hE c f1 hc h x q ch.node d nonce (hd d h1).1 (hd d h1).2 hx
    intro r f2 _
    cases r with
    | none =>
      dsimp only [sigGiven]
      sintro
      rename_i h2
      refine Triple.doneK p (by frame) ⟨(nomatch ·), fun _ => Or.inl rfl, fun h => ?_⟩
      have h2 : (identitySign E ch.node d nonce).bind ecdsaSerialize = none := by simp_all
      unfold pktSign
      rw [show ({ p with hdr := { p.hdr with mac := macP521 } } : Packet) = p.announced from rfl, h1]
      simp [h2]
    | some z =>
      dsimp only [sigGiven]
      sintro
      rename_i s w sb h2
      sstep hTPktAttach_spec c f2 a z p sb hm hn hh
      intro ok f3 _
      sintro
      rename_i n h3
      obtain ⟨h2, h4, h5, h6⟩ := h2
      obtain ⟨h7, h8, h9⟩ := h3
      have hsb : sb = w ∨ f3 = true ∧ ecdsaBare s = some sb := by
        cases hf : f2 with
        | false => exact Or.inl (h6 hf)
        | true => exact h5.imp id fun h => ⟨by simp_all, h⟩
      refine Triple.doneK { p.announced with mac := some sb, network := n } (by frame) ⟨?_, ?_, ?_⟩
      · intro hok
        cases n with
        | none => simp [h8] at hok
        | some net => exact ⟨d, s, w, sb, net, h1, h2, h4, hsb, by simpa [eq_comm] using h7, rfl⟩
      · intro hok
        cases n with
        | none => exact Or.inr ⟨sb, by unfold Packet.announced; simp [hn]⟩
        | some net => simp [h8] at hok
      · intro hf
        have hf2 : f2 = false := by cases f2 <;> simp_all
        cases h6 hf2
        unfold pktSign
        rw [show ({ p with hdr := { p.hdr with mac := macP521 } } : Packet) = p.announced from rfl, h1]
        simp only [h2, Option.bind, h4, h8, h9 hf]
        rfl

/-- The network bytes of a packet: those it was received as, or those it is sent as. -/
def Packet.bytes (p : Packet) : Option Bytes := match p.network with | some b => some b | none => pktSerialize p

theorem tpkt_net_view {h : Heap} {a : Addr} {v : Packet} (ha : Has isTPkt h a v) :
    ∃ n, Reads (keep h) (field (some a) 2) n ∧ HasOpt isBuf h n v.network := by
  obtain ⟨hd, b, m, n⟩ := v
  sview ha isTPkt
  exact ⟨_, field_view (by assumption) rfl, by assumption⟩

theorem tpkt_mac_view {h : Heap} {a : Addr} {v : Packet} (ha : Has isTPkt h a v) :
    ∃ n, Reads (keep h) (field (some a) 1) n ∧ HasOpt isBuf h n v.mac := by
  obtain ⟨hd, b, m, n⟩ := v
  sview ha isTPkt
  exact ⟨_, field_view (by assumption) rfl, by assumption⟩

theorem hTPktNetwork_spec (c : Rules) (f : Bool) (a : Addr) (p : Packet) (hp : c.pub (pktMetaSerialize p.hdr)) :
    Triple c f (isTPkt a p) (hTPktNetwork (some a))
      (fun ok f' => Asrt.ex fun p' => ⌜(ok = true → ∃ net, p.bytes = some net ∧ p' = { p with network := some net }) ∧
        (ok = false → p' = p ∧ (f' = true ∨ p.bytes = none))⌝ ∗ isTPkt a p') := by
  unfold hTPktNetwork
  refine Triple.lend0 (P := isTPkt a p) (by frame) fun h hh => ?_
  obtain ⟨n, r1, hn⟩ := tpkt_net_view (has_of hh)
  sread r1
  cases hv : p.network with
  | some b =>
    rw [hv] at hn
    cases n with
    | none => exact absurd hn id
    | some n =>
      refine Triple.giveBack0 hh (by frame) ?_
      exact Triple.done p (by frame) ⟨fun _ => ⟨b, by simp [Packet.bytes, hv], by rw [← hv]⟩, (nomatch ·)⟩
  | none =>
    rw [hv] at hn
    cases n with
    | some n => exact absurd hn id
    | none =>
      dsimp only [onNull]
      sstep hTPktSerialize_view c f h a p hp (has_of hh)
      intro r f1 _
      refine Triple.giveBack0 hh (by frame) ?_
      cases r with
      | none =>
        dsimp only [gives]
        sintro
        rename_i h1
        exact Triple.done p (by frame) ⟨(nomatch ·), fun _ => ⟨rfl, by simpa [Packet.bytes, hv] using h1⟩⟩
      | some x =>
        dsimp only [gives]
        sintro
        rename_i y h1
        sstep tpkt_setNet c f1 a p (some x) (some y) hv
        intro _ f2 _
        exact Triple.done _ (by frame) ⟨fun _ => ⟨y, by simpa [Packet.bytes, hv] using h1, rfl⟩, (nomatch ·)⟩

theorem hTPktCheck_view (c : Rules) (f : Bool) (hc : c.crash) (h : Heap) (a b : Addr) (p : Packet) (ch : Chain) (mac net : Bytes)
    (hm : p.mac = some mac) (hn : p.network = some net) (hp : ∀ s, ecdsaFromBuffer mac = some s → c.pub s.sig)
    (ha : Has isTPkt h a p) (hb : Has isChain h b ch) :
    Triple c f (keep h) (hTPktCheck E (some a) (some b))
      (fun ok f' => keep h ∗ ⌜(ok = true → mac.length < net.length ∧ ∃ s, ecdsaFromBuffer mac = some s ∧
          E.verify s ch.node.key (net.take (net.length - mac.length)) = true) ∧
        (f' = false → ok = (decide (mac.length < net.length) && match ecdsaFromBuffer mac with
          | none => false
          | some s => E.verify s ch.node.key (net.take (net.length - mac.length))))⌝) := by
  unfold hTPktCheck onNull
  obtain ⟨n, r1, hn'⟩ := tpkt_net_view ha
  obtain ⟨m, r2, hm'⟩ := tpkt_mac_view ha
  obtain ⟨x, y, r3, hx, r4, hy, r5⟩ := chain_node_view hb
  rw [hn] at hn'
  rw [hm] at hm'
  cases n with
  | none => exact absurd hn' id
  | some n =>
  cases m with
  | none => exact absurd hm' id
  | some m =>
  sread r1
  sread readBuf_view hn'
  sread r2
  sread readBuf_view hm'
  by_cases hl : net.length ≤ mac.length
  · simp only [hl, if_true]
    sgo
  · simp only [hl, if_false]
    sstep hSigFromBytes_spec c f hc mac
    intro r f1 _
    cases r with
    | none =>
      dsimp only [gives]
      sintro
      sgo
    | some z =>
      dsimp only [gives]
      sintro
      rename_i s hs
      refine Triple.lend (h := h) (P := isSig z s) (by frame) fun h1 h' hb e s1 s2 => ?_
      sread readSig_view (Has.sub (has_of hb) s2)
      refine Triple.giveBack e hb (by frame) ?_
      sread r3
      sread r4
      sread readKey_view hy
      have hds := hSigDestroy_spec (c := c) (a := z) (s := s) (hp s hs)
      sstep hds f1
      intro _ f2 _
      sintro
      sgo

/-- What the value model does with a packet that has a signature and bytes. -/
theorem pktVerify_eq {p : Packet} {ch : Chain} {mac net : Bytes} (hv : p.mac = some mac) (ht : p.hdr.mac = macP521)
    (hb : p.bytes = some net) : pktVerify E p ch = let p := { p with network := some net }
      let (c, ok) := chainValidate E ch
      if !ok then (p, c, false)
      else if net.length ≤ mac.length then (p, c, false)
      else match ecdsaFromBuffer mac with
        | none => (p, c, false)
        | some s => (p, c, E.verify s c.node.key (net.take (net.length - mac.length))) := by
  unfold pktVerify
  unfold Packet.bytes at hb
  rw [hv]
  cases hn : p.network with
  | some n =>
    rw [hn] at hb
    cases hb
    simp only [ht, ne_eq, not_true_eq_false, if_false]
    cases ecdsaFromBuffer mac <;> rfl
  | none =>
    rw [hn] at hb
    dsimp only at hb
    simp only [ht, ne_eq, not_true_eq_false, if_false, hb]
    cases ecdsaFromBuffer mac <;> rfl

theorem pktVerify_none {p : Packet} {ch : Chain} {mac : Bytes} (hv : p.mac = some mac) (ht : p.hdr.mac = macP521)
    (hb : p.bytes = none) : pktVerify E p ch = (p, ch, false) := by
  unfold pktVerify
  unfold Packet.bytes at hb
  rw [hv]
  cases hn : p.network with
  | some n => rw [hn] at hb; exact nomatch hb
  | none =>
    rw [hn] at hb
    dsimp only at hb
    simp only [ht, ne_eq, not_true_eq_false, if_false, hb]

theorem hTPktVerify_spec (hE : E.Fits) (c : Rules) (f : Bool) (hc : c.crash) (a b : Addr) (p : Packet) (ch : Chain)
    (hp : c.pub (pktMetaSerialize p.hdr)) (hs : ∀ m s, p.mac = some m → ecdsaFromBuffer m = some s → c.pub s.sig)
    (hch : ch.Shown E c) :
    Triple c f (isTPkt a p ∗ isChain b ch) (hTPktVerify E (some a) (some b))
      (fun ok f' => Asrt.ex fun (x : Packet × Chain) => ⌜CheckOutcome E p ch ok f' x.1 x.2⌝ ∗ isTPkt a x.1 ∗ isChain b x.2) := by
  unfold hTPktVerify
  refine Triple.lend0 (P := isTPkt a p) (by frame) fun h hh => ?_
  obtain ⟨m, r1, hm⟩ := tpkt_mac_view (has_of hh)
  sread r1
  cases hv : p.mac with
  | none =>
    rw [hv] at hm
    cases m with
    | some n => exact absurd hm id
    | none =>
      refine Triple.giveBack0 hh (by frame) ?_
      exact Triple.done (p, ch) (by frame) ⟨Or.inl rfl, Or.inl rfl, (nomatch ·), fun _ => by simp [pktVerify, hv]⟩
  | some mac =>
    rw [hv] at hm
    cases m with
    | none => exact absurd hm id
    | some m =>
      sread tpkt_hdr (has_of hh)
      refine Triple.giveBack0 hh (by frame) ?_
      by_cases ht : p.hdr.mac = macP521
      · simp only [ht, ne_eq, not_true_eq_false, if_false]
        sstep hTPktNetwork_spec c f a p hp
        intro ok f1 _
        sintro
        rename_i p' h1
        cases ok with
        | false =>
          obtain ⟨rfl, hb1⟩ := h1.2 rfl
          replace h1 := hb1
          refine Triple.done (p', ch) (by frame) ⟨Or.inl rfl, Or.inl rfl, (nomatch ·), fun hf => ?_⟩
          have h1 : p'.bytes = none := by simp_all
          unfold pktVerify
          simp only [hv, ht]
          unfold Packet.bytes at h1
          cases hn : p'.network with
          | some n => simp [hn] at h1
          | none => simp only [hn] at h1 ⊢; simp [h1]
        | true =>
          obtain ⟨net, hb1, rfl⟩ := h1.1 rfl
          replace h1 := hb1
          simp only [if_true]
          have hnet : p.network = some net ∨ p.network = none ∧ pktSerialize p = some net := by
            unfold Packet.bytes at h1
            cases hn : p.network <;> simp_all
          have hp' : { p with network := some net } = p ∨ p.network = none ∧ ∃ net', pktSerialize p = some net' ∧
              { p with network := some net } = { p with network := some net' } := by
            rcases hnet with h | ⟨h, h'⟩
            · exact Or.inl (by rw [← h])
            · exact Or.inr ⟨h, net, h', rfl⟩
          have hval := pktVerify_eq (E := E) (ch := ch) hv ht h1
          sstep hChainValidate_spec hE c f1 hc b ch hch.input hch.cache hch.current
          intro ok f2 _
          sintro
          rename_i ch' ho
          cases ok with
          | false =>
            refine Triple.done ({ p with network := some net }, ch') (by frame) ⟨hp', Or.inr ⟨false, ho.1⟩, (nomatch ·), fun hf => ?_⟩
            have hcv := ho.2 hf
            simp [hval, ← hcv]
          | true =>
            simp only [if_true]
            refine Triple.lend0 (P := isTPkt a { p with network := some net }) (by frame) fun h hh => ?_
            refine Triple.lend (h := h) (P := isChain b ch') (by frame) fun h1 h' hb e s1 s2 => ?_
            sstep hTPktCheck_view (E := E) c f2 hc h' a b { p with network := some net } ch' mac net hv rfl (fun s => hs mac s hv)
              (Has.sub (has_of hh) s1) (Has.sub (has_of hb) s2)
            intro ok f3 _
            sintro
            rename_i hk
            refine Triple.giveBack e hb (by frame) ?_
            refine Triple.giveBack0 hh (by frame) ?_
            refine Triple.done ({ p with network := some net }, ch') (by frame) ⟨hp', Or.inr ⟨true, ho.1⟩, ?_, ?_⟩
            · intro hok
              obtain ⟨hl, s, hs1, hs2⟩ := hk.1 hok
              rw [ho.node] at hs2
              exact ⟨ho.1, ht, mac, net, s, hv, hnet, hl, hs1, hs2⟩
            · intro hf
              have hcv := ho.2 (by cases f2 <;> simp_all)
              simp only [hval, ← hcv, hk.2 hf]
              by_cases hl : net.length ≤ mac.length
              · simp [hl]; omega
              · have : mac.length < net.length := by omega
                cases ecdsaFromBuffer mac <;> simp [hl, this]
      · simp only [ht, ne_eq, not_false_eq_true, if_true]
        exact Triple.done (p, ch) (by frame) ⟨Or.inl rfl, Or.inl rfl, (nomatch ·), fun _ => by simp [pktVerify, hv, ht]⟩

end Wickr
