import Verif.Lemmas.SepKx
import Verif.Lemmas.SepPacket
import Verif.Lemmas.SepNode
import Verif.Spec.ReleasesKx
/-
Making packets on the heap: the recipients are verified in place, then only read.
-/
namespace Wickr
open Asrt Spec

variable {E : Engine}

/-- One slot of an array. -/
theorem arr_open {V : Type} {R : Addr → V → Asrt} {a : Addr} {xs ys : List (Option V)} {x : Option V} :
    Asrt.le (isArr R a (xs ++ x :: ys)) (ex fun (qs : List Ptr) => ex fun (p : Ptr) => ex fun (rs : List Ptr) =>
      ⌜qs.length = xs.length⌝ ∗ isSlots a (xs.length + (ys.length + 1)) (qs ++ p :: rs) ∗ optRep R p x ∗
        items R qs xs ∗ items R rs ys) := by
  intro h hh
  obtain ⟨ps, hh⟩ := hh
  have hsp : ∃ qs rs, ps = qs ++ rs ∧ qs.length = xs.length := by
    obtain ⟨_, h2, _, _, _, hi⟩ := hh
    exact items_split hi
  obtain ⟨qs, rs, rfl, hl⟩ := hsp
  rw [items_append hl] at hh
  cases rs with
  | nil =>
    obtain ⟨_, _, _, _, _, _, _, _, _, _, hh⟩ := hh
    exact hh.1.elim
  | cons p rs =>
    refine ⟨qs, p, rs, Asrt.pure_star.2 ⟨hl, ?_⟩⟩
    rw [List.length_append, List.length_cons] at hh
    rw [show items R (p :: rs) (x :: ys) = optRep R p x ∗ items R rs ys from rfl] at hh
    rwa [Asrt.left_comm (optRep R p x)]

/-- … and back. -/
theorem arr_close {V : Type} {R : Addr → V → Asrt} {a : Addr} {xs ys : List (Option V)} {x : Option V} {p : Ptr} {qs rs : List Ptr}
    (hl : qs.length = xs.length) :
    Asrt.le (isSlots a (xs.length + (ys.length + 1)) (qs ++ p :: rs) ∗ optRep R p x ∗ items R qs xs ∗ items R rs ys)
      (isArr R a (xs ++ x :: ys)) := by
  intro h hh
  refine ⟨qs ++ p :: rs, ?_⟩
  dsimp only
  rw [List.length_append, List.length_cons, items_append hl]
  rw [show items R (p :: rs) (x :: ys) = optRep R p x ∗ items R rs ys from rfl]
  rwa [Asrt.left_comm (optRep R p x)] at hh

/-! ### Recipients -/

theorem NodeOutcome.mono {n n' : Node} {ok f f' : Bool} (h : NodeOutcome E n ok f n') (hf : f = true → f' = true) :
    NodeOutcome E n ok f' n' :=
  ⟨h.1, fun h' => h.2 (by cases f with | false => rfl | true => rw [hf rfl] at h'; cases h')⟩

/-- What verifying recipients does to them and returns. -/
def RecOutcome (E : Engine) (f : Bool) : List (Option Node) → Bool → List (Option Node) → Prop
  | [], ok, ns' => ok = true ∧ ns' = []
  | none :: ns, ok, ns' => ok = false ∧ ns' = none :: ns
  | some n :: ns, ok, ns' => ∃ b n', NodeOutcome E n b f n' ∧
      ((b = false ∧ ok = false ∧ ns' = some n' :: ns) ∨ (b = true ∧ ∃ ns'', RecOutcome E f ns ok ns'' ∧ ns' = some n' :: ns''))

theorem RecOutcome.length {f : Bool} : ∀ {ns : List (Option Node)} {ok : Bool} {ns' : List (Option Node)},
    RecOutcome E f ns ok ns' → ns'.length = ns.length
  | [], _, _, h => by rw [h.2]
  | none :: ns, _, _, h => by rw [h.2]
  | some n :: ns, _, _, ⟨b, n', _, h⟩ => by
    rcases h with ⟨_, _, rfl⟩ | ⟨_, ns'', h, rfl⟩
    · rfl
    · simp [RecOutcome.length h]

theorem hRecipientsFrom_spec (hE : E.Fits) (c : Rules) (hc : c.crash) (a : Addr) :
    ∀ (rest : List (Option Node)) (f : Bool) (before : List (Option Node)) (i : Nat), i = before.length →
    (∀ n, some n ∈ rest → n.Shown E c) →
    Triple c f (isArr isNode a (before ++ rest)) (hRecipientsFrom E (some a) i rest.length)
      (fun ok f' => ex fun rest' => ⌜RecOutcome E f' rest ok rest'⌝ ∗ isArr isNode a (before ++ rest'))
  | [], f, before, i, hi, hs => by
    unfold hRecipientsFrom
    exact Triple.done [] (by frame) ⟨rfl, rfl⟩
  | x :: rest, f, before, i, hi, hs => by
    rw [List.length_cons]
    unfold hRecipientsFrom
    refine Triple.conseq (P := _) (Q := fun ok f' => ex fun rest' => ⌜RecOutcome E f' (x :: rest) ok rest'⌝ ∗ isArr isNode a (before ++ rest')) ?_
      (fun h hh => arr_open h hh) fun _ _ _ _ h => h
    sintro
    rename_i qs p rs hl
    sread hArrSlot_spec a (before.length + (rest.length + 1)) (qs ++ p :: rs) i p (by rw [hi, ← hl]; simp)
    cases p with
    | none =>
      cases x with
      | some n => sabsurd
      | none =>
        unfold hNodeVerify
        sgo1
        simp only [Bool.false_eq_true, if_false]
        refine Triple.ret fun h hh => ⟨none :: rest, Asrt.pure_star.2 ⟨⟨rfl, rfl⟩, arr_close hl h hh⟩⟩
    | some q =>
      cases x with
      | none => sabsurd
      | some n =>
        dsimp only [optRep]
        refine Triple.seq (hNodeVerify_spec hE c f hc q n (hs n (List.mem_cons_self ..))) (by frame) fun ok f' _ => ?_
        sintro
        rename_i n' hn'
        cases ok with
        | false =>
          simp only [Bool.false_eq_true, if_false]
          refine Triple.ret fun h hh => ⟨some n' :: rest, Asrt.pure_star.2 ⟨⟨false, n', hn', Or.inl ⟨rfl, rfl, rfl⟩⟩,
            arr_close (p := some q) (rs := rs) hl h ?_⟩⟩
          revert hh
          revert h
          sentail
        | true =>
          simp only [if_true]
          have ih := hRecipientsFrom_spec hE c hc a rest f' (before ++ [some n']) (i + 1) (by simp [hi])
            fun m hm => hs m (List.mem_cons_of_mem _ hm)
          refine Triple.conseq ih (fun h hh => ?_) fun ok f2 h hf hh => ?_
          · rw [List.append_assoc, List.singleton_append]
            refine arr_close (p := some q) (rs := rs) hl h ?_
            revert hh
            revert h
            sentail
          · obtain ⟨rest', hh⟩ := hh
            obtain ⟨h1, h2⟩ := Asrt.pure_star.1 hh
            rw [List.append_assoc, List.singleton_append] at h2
            exact ⟨some n' :: rest', Asrt.pure_star.2 ⟨⟨true, n', hn'.mono hf, Or.inr ⟨rfl, rest', h1, rfl⟩⟩, h2⟩⟩

theorem hRecipientsValidate_spec (hE : E.Fits) (c : Rules) (f : Bool) (hc : c.crash) (a : Addr) (ns : List (Option Node))
    (hs : ∀ n, some n ∈ ns → n.Shown E c) :
    Triple c f (isArr isNode a ns) (hRecipientsValidate E (some a))
      (fun ok f' => ex fun ns' => ⌜RecOutcome E f' ns ok ns'⌝ ∗ isArr isNode a ns') := by
  unfold hRecipientsValidate
  sread Reads.owned fun x hx => hArrCount_view (R := isNode) (xs := ns) (has_of hx)
  exact hRecipientsFrom_spec hE c hc a ns f [] 0 rfl hs

/-! ### Exchanges -/

/-- What the loop that makes exchanges leaves. -/
def takenN (exs : Addr) (done : List (Option KeyExchange)) (xs : Option (List KeyExchange)) (r f : Bool) : Asrt :=
  match r with
  | false => ⌜f = true ∨ xs = none⌝ ∗ spill f
  | true => ex fun (ys : List KeyExchange) => ⌜xs = some ys⌝ ∗ isArr isEx exs (done ++ ys.map some)

theorem hKxsCreate_view (hE : E.Fits) (c : Rules) (hc : c.crash) (hl : c.lax) (h : Heap) (p a x d exs : Addr) (s : Chain) (exKey : EcKey)
    (pk : CipherKey) (v : UInt8) (iv : Nat → Bytes) (all : List (Option Node)) (hx' : c.pub exKey.pub)
    (hp : Has (isArr isNode) h p all) (ha : Has isChain h a s) (hx : Has isKey h x exKey) (hd : Has isCKey h d pk) :
    ∀ (ns : List (Option Node)) (f : Bool) (i : Nat) (done : List (Option KeyExchange)),
    all.drop i = ns → done.length = i → (∀ b ∈ exsPublics done, c.pub b) →
    (∀ n, some n ∈ ns → ∀ b, kxInfo s n v = some b → c.pub b) →
    (∀ y ∈ exsMade E s exKey pk v iv ns i, ∀ b ∈ y.publics, c.pub b) →
    Triple c f (keep h ∗ isArr isEx exs (done ++ List.replicate ns.length none))
      (hKxsCreate E (some p) (some a) (some x) (some d) (some exs) v iv i ns.length)
      (fun r f' => keep h ∗ takenN exs done (exchangesCreate E s exKey pk v iv ns i) r f')
  | [], f, i, done, hn, hi, hpd, hki, hpx => by
    rw [List.length_nil]
    unfold hKxsCreate
    refine Triple.ret fun y hy => ?_
    dsimp only [takenN]
    rw [List.replicate_zero, List.append_nil] at hy
    refine Asrt.star_mono_r (fun z hz => ⟨[], Asrt.pure_star.2 ⟨rfl, ?_⟩⟩) hy
    rwa [List.map_nil, List.append_nil]
  | n :: ns, f, i, done, hn, hi, hpd, hki, hpx => by
    rw [List.length_cons]
    unfold hKxsCreate
    have hpd' : ∀ k, ∀ b ∈ exsPublics (done ++ List.replicate k none), c.pub b := by
      intro k b hb
      unfold exsPublics at hb
      rw [List.flatMap_append, List.mem_append] at hb
      rcases hb with hb | hb
      · exact hpd b hb
      · obtain ⟨y, hy, hb⟩ := List.mem_flatMap.1 hb
        rw [List.eq_of_mem_replicate hy] at hb
        simp at hb
    have hin : all[i]? = some n := by
      have : (all.drop i)[0]? = some n := by rw [hn]; rfl
      simpa using this
    have hdr : all.drop (i + 1) = ns := by
      have : (all.drop i).drop 1 = ns := by rw [hn]; rfl
      simpa [List.drop_drop, Nat.add_comm] using this
    obtain ⟨q, hq, hqn⟩ := (arr_view hp).2.2 i n hin
    sread hq
    cases n with
    | none =>
      cases q with
      | some q => exact hqn.elim
      | none =>
        have e : hKxCreateWithKey E (some a) none (some x) (some d) none v (iv i) = Pure.pure none := rfl
        rw [e]
        sgo1
        refine Triple.destroy (hExsDestroy_spec (hpd' _)) (by frame) fun f2 hf => ?_
        refine Triple.ret fun y hy => ?_
        dsimp only [takenN]
        unfold exchangesCreate
        revert hy
        revert y
        sentail
    | some n =>
      cases q with
      | none => exact hqn.elim
      | some q =>
        have hqn' : Has isNode h q n := hqn
        have hpn : ∀ y, kxCreateWithKey E s n exKey pk none v (iv i) = some y → ∀ z ∈ y.publics, c.pub z := fun y hy z hz =>
          hpx y (by simp [exsMade, hy]) z hz
        have hpx' : ∀ y ∈ exsMade E s exKey pk v iv ns (i + 1), ∀ b ∈ y.publics, c.pub b := fun y hy b hb =>
          hpx y (by simp [exsMade, hy]) b hb
        have hst := hKxCreateWithKey_view hE c f hc hl h a q x d none s n exKey pk none v (iv i) (hki n (List.mem_cons_self ..)) hx' hpn ha hqn' hx hd trivial
        unfold exchangesCreate
        revert hpn hst
        generalize kxCreateWithKey E s n exKey pk none v (iv i) = kx
        intro hpn hst
        sstep hst
        intro r f1 hf1
        cases r with
        | none =>
          dsimp only [givesN]
          sintro
          rename_i hh
          refine Triple.destroy (hExsDestroy_spec (hpd' _)) (by frame) fun f2 hf => ?_
          refine Triple.ret fun y hy => ?_
          dsimp only [takenN]
          have hh' : f2 = true ∨ (kx.bind fun x => Option.map (fun xs => x :: xs) (exchangesCreate E s exKey pk v iv ns (i + 1))) = none :=
            hh.imp hf fun h => by rw [h]; rfl
          exact Asrt.star_mono_r (fun z hz => Asrt.pure_star.2 ⟨hh', Asrt.spill_le hf (Asrt.emp_le_spill f2) z (by rwa [Asrt.star_emp])⟩) hy
        | some w =>
          dsimp only [givesN]
          sintro
          rename_i y hv
          subst hv
          rw [List.replicate_succ]
          sstep hArrGive_spec (R := isEx) c f1 exs w y done (List.replicate ns.length none) i hi.symm
          intro r f2 _
          sintro
          rename_i hr
          subst hr
          simp only [if_true]
          have e : done ++ some y :: List.replicate ns.length none = (done ++ [some y]) ++ List.replicate ns.length none := by simp
          rw [e]
          have ih := hKxsCreate_view hE c hc hl h p a x d exs s exKey pk v iv all hx' hp ha hx hd ns f2 (i + 1) (done ++ [some y]) hdr
            (by simp [hi])
            (fun b hb => by
              unfold exsPublics at hb
              rw [List.flatMap_append, List.mem_append] at hb
              rcases hb with hb | hb
              · exact hpd b hb
              · exact hpn y rfl b (by simpa using hb))
            (fun m hm => hki m (List.mem_cons_of_mem _ hm)) hpx'
          refine Triple.conseq ih (by sentail) fun r f3 z _ hz => ?_
          refine Asrt.star_mono_r (fun t ht => ?_) hz
          cases r with
          | false =>
            obtain ⟨h1, h2⟩ := Asrt.pure_star.1 ht
            exact Asrt.pure_star.2 ⟨h1.imp id (fun h => by rw [h]; rfl), h2⟩
          | true =>
            obtain ⟨zs, ht⟩ := ht
            obtain ⟨h1, h2⟩ := Asrt.pure_star.1 ht
            refine ⟨y :: zs, Asrt.pure_star.2 ⟨by rw [h1]; rfl, ?_⟩⟩
            simpa using h2

/-- If there was no memory for the array. -/
theorem hKxsCreate_lost (hE : E.Fits) (c : Rules) (hc : c.crash) (hl : c.lax) (h : Heap) (p a x d : Addr) (s : Chain) (exKey : EcKey)
    (pk : CipherKey) (v : UInt8) (iv : Nat → Bytes) (n : Option Node) (ns : List (Option Node)) (hx' : c.pub exKey.pub)
    (hp : Has (isArr isNode) h p (n :: ns)) (ha : Has isChain h a s) (hx : Has isKey h x exKey) (hd : Has isCKey h d pk) (f : Bool) (hf : f = true)
    (hki : ∀ m, some m ∈ n :: ns → ∀ b, kxInfo s m v = some b → c.pub b)
    (hpx : ∀ y ∈ exsMade E s exKey pk v iv (n :: ns) 0, ∀ b ∈ y.publics, c.pub b) :
    Triple c f (keep h)
      (hKxsCreate E (some p) (some a) (some x) (some d) none v iv 0 (n :: ns).length)
      (fun r f' => keep h ∗ ⌜r = false ∧ f' = true⌝ ∗ spill f') := by
  rw [List.length_cons]
  unfold hKxsCreate
  obtain ⟨q, hq, hqn⟩ := (arr_view hp).2.2 0 n rfl
  sread hq
  cases n with
  | none =>
    cases q with
    | some q => exact hqn.elim
    | none =>
      have e : hKxCreateWithKey E (some a) none (some x) (some d) none v (iv 0) = Pure.pure none := rfl
      rw [e]
      sgo
  | some n =>
    cases q with
    | none => exact hqn.elim
    | some q =>
      have hqn' : Has isNode h q n := hqn
      have hpn : ∀ y, kxCreateWithKey E s n exKey pk none v (iv 0) = some y → ∀ z ∈ y.publics, c.pub z := fun y hy z hz =>
        hpx y (by simp [exsMade, hy]) z hz
      have hst := hKxCreateWithKey_view hE c f hc hl h a q x d none s n exKey pk none v (iv 0) (hki n (List.mem_cons_self ..)) hx' hpn ha hqn' hx hd trivial
      revert hpn hst
      generalize kxCreateWithKey E s n exKey pk none v (iv 0) = kx
      intro hpn hst
      sstep hst
      intro r f1 hf1
      have hf1' := hf1 hf
      cases r with
      | none =>
        dsimp only [givesN]
        sintro
        unfold hExsDestroy hArrDestroy
        vgo
      | some w =>
        dsimp only [givesN]
        sintro
        rename_i y hv
        have hpn' := hpn y hv
        unfold hArrSet hArrCount hExsDestroy hArrDestroy
        sgo1
        sgo1
        sgo1
        rw [if_pos (Nat.le_refl 0)]
        vgo

theorem exsMade_eq {s : Chain} {exKey : EcKey} {pk : CipherKey} {v : UInt8} {iv : Nat → Bytes} :
    ∀ {ns : List (Option Node)} {i : Nat} {xs : List KeyExchange}, exchangesCreate E s exKey pk v iv ns i = some xs →
      exsMade E s exKey pk v iv ns i = xs
  | [], i, xs, h => by simp only [exchangesCreate, Option.some.injEq] at h; subst h; rfl
  | none :: ns, i, xs, h => by simp [exchangesCreate] at h
  | some n :: ns, i, xs, h => by
    simp only [exchangesCreate, Option.bind_eq_some_iff, Option.map_eq_some_iff] at h
    obtain ⟨x, hx, ys, hy, rfl⟩ := h
    simp [exsMade, hx, exsMade_eq hy]

theorem hMsgHeader_view (hE : E.Fits) (c : Rules) (f : Bool) (hc : c.crash) (hl : c.lax) (h : Heap) (q d x p a : Addr) (hk pk : CipherKey)
    (exKey : EcKey) (ns : List (Option Node)) (s : Chain) (v : UInt8) (rnd : MsgRand) (hn : ns ≠ [])
    (hp : ∀ b ∈ msgHeaderPubs E hk pk exKey ns s v rnd, c.pub b)
    (hq : Has isCKey h q hk) (hd : Has isCKey h d pk) (hx : Has isKey h x exKey) (ha : Has (isArr isNode) h p ns) (hs : Has isChain h a s) :
    Triple c f (keep h) (hMsgHeader E (some q) (some d) (some x) (some p) (some a) v rnd)
      (fun r f' => keep h ∗ givesN isCRes (msgHeader E hk pk exKey ns s v rnd) r f') := by
  unfold hMsgHeader
  unfold msgHeaderPubs at hp
  simp only [List.mem_append, List.mem_cons, or_imp, forall_and, forall_eq] at hp
  obtain ⟨⟨⟨⟨hp1, hp2⟩, hp3⟩, hp4⟩, hp5⟩ := hp
  have hki : ∀ m, some m ∈ ns → ∀ b, kxInfo s m v = some b → c.pub b := fun m hm b hb =>
    hp2 b (List.mem_flatMap.2 ⟨some m, hm, by simp [hb]⟩)
  have hpx : ∀ y ∈ exsMade E s exKey pk v rnd.exIv ns 0, ∀ b ∈ y.publics, c.pub b := fun y hy b hb =>
    hp3 b (List.mem_flatMap.2 ⟨y, hy, hb⟩)
  have hen : ∀ b, exchangeSetSerialize ⟨exKey, (exsMade E s exKey pk v rnd.exIv ns 0).map some⟩ = some b →
      ∀ x ∈ encryptPubs E b none hk rnd.hdrIv, c.pub x := fun b hb x hx => hp5 x (List.mem_flatMap.2 ⟨b, Option.mem_toList.2 hb, hx⟩)
  clear hp2 hp3 hp5
  sread hArrCount_view ha
  sstep hArrNew_arr isEx c f ns.length (arr_view ha).1
  intro r f1 hf1
  cases r with
  | none =>
    dsimp only [fresh]
    sintro
    rename_i hf
    obtain ⟨n, ms, rfl⟩ := List.exists_cons_of_ne_nil hn
    sstep hKxsCreate_lost hE c hc hl h p a x d s exKey pk v rnd.exIv n ms hp1 ha hs hx hd f1 hf hki hpx
    intro r f2 _
    sintro
    rename_i hr
    obtain ⟨rfl, rfl⟩ := hr
    simp only [Bool.false_eq_true, if_false]
    vgo
  | some exs =>
    dsimp only [fresh]
    have hst := hKxsCreate_view hE c hc hl h p a x d exs s exKey pk v rnd.exIv ns hp1 ha hs hx hd ns f1 0 [] rfl rfl (by simp [exsPublics]) hki hpx
    rw [List.nil_append] at hst
    unfold msgHeader
    sstep hst
    intro r f2 hf2
    cases r with
    | false =>
      dsimp only [takenN]
      simp only [Bool.false_eq_true, if_false]
      sintro
      rename_i hh
      have hh' : f2 = true ∨ (exchangesCreate E s exKey pk v rnd.exIv ns 0).bind (fun xs => exchangeSetEncrypt E ⟨exKey, xs.map some⟩ hk rnd.hdrIv) = none :=
        hh.imp id fun h => by rw [h]; rfl
      refine Triple.ret fun y hy => ?_
      exact Asrt.star_mono_r (fun z hz => Asrt.pure_star.2 ⟨hh', hz⟩) hy
    | true =>
      dsimp only [takenN]
      simp only [if_true]
      sintro
      rename_i ys hys
      rw [hys]
      have e := exsMade_eq hys
      rw [e] at hpx hen hp4
      have hpub : ∀ b ∈ exsPublics (ys.map some), c.pub b := by
        intro b hb
        unfold exsPublics at hb
        obtain ⟨y, hy, hb⟩ := List.mem_flatMap.1 hb
        obtain ⟨z, hz, rfl⟩ := List.mem_map.1 hy
        exact hpx z hz b (by simpa using hb)
      rw [List.nil_append]
      simp only [Option.bind_some]
      clear hst hys e hki hpx
      vgo

theorem hMsgMake_view (hE : E.Fits) (c : Rules) (f : Bool) (hc : c.crash) (hl : c.lax) (h : Heap) (q d x y p a : Addr) (hk pk : CipherKey)
    (exKey : EcKey) (pl : Payload) (ns : List (Option Node)) (s : Chain) (v : UInt8) (rnd : MsgRand) (hn : ns ≠ []) (r : Option Msg)
    (hr : msgMade E hk pk exKey pl ns s v rnd = Res.ofOption r)
    (hp : ∀ b ∈ msgPubs E hk pk exKey pl ns s v rnd, c.pub b)
    (hq : Has isCKey h q hk) (hd : Has isCKey h d pk) (hx : Has isKey h x exKey) (hy : Has isPayload h y pl)
    (ha : Has (isArr isNode) h p ns) (hs : Has isChain h a s) :
    Triple c f (keep h) (hMsgMake E (some q) (some d) (some x) (some y) (some p) (some a) v rnd)
      (fun z f' => keep h ∗ givesN isPacket r z f') := by
  unfold hMsgMake
  unfold msgPubs at hp
  unfold msgMade at hr
  simp only [List.mem_append, or_imp, forall_and] at hp
  obtain ⟨⟨hp1, hp2⟩, hp3⟩ := hp
  have hkey : ∃ w1 w2, Has isKey h w2 s.node.key ∧ Reads (keep h) (field (some a) 1) (some w1) ∧ Reads (keep h) (field (some w1) 1) (some w2) := by
    obtain ⟨t1, ⟨t2, i2, k2, s2⟩, st1, ca1⟩ := s
    sview hs isChain
    sviews isId
    exact ⟨_, _, by assumption, field_view (by assumption) (by rfl), field_view (by assumption) (by rfl)⟩
  obtain ⟨w1, w2, hw, hr1, hr2⟩ := hkey
  have hst := hMsgHeader_view hE c f hc hl h q d x p a hk pk exKey ns s v rnd hn hp1 hq hd hx ha hs
  have hpay := fun f => hPayloadEncrypt_view hE c f hc h y d pl pk rnd.payIv (fun b hb r hr x hx => hp2 x
    (List.mem_flatMap.2 ⟨r, Option.mem_toList.2 (by unfold payloadEncrypt; rw [hb]; exact hr), hx⟩)) hy hd
  have hpk : ∀ h p, msgHeader E hk pk exKey ns s v rnd = some h → payloadEncrypt E pl pk rnd.payIv = some p →
      ∀ b ∈ packetPubs E h p s.node.key rnd.nonce, c.pub b := fun h p h1 h2 b hb => hp3 b
    (List.mem_flatMap.2 ⟨h, Option.mem_toList.2 h1, List.mem_flatMap.2 ⟨p, Option.mem_toList.2 h2, hb⟩⟩)
  have hph : ∀ h, msgHeader E hk pk exKey ns s v rnd = some h → ∀ b ∈ h.publics, c.pub b := by
    intro h hh b hb
    unfold msgHeader at hh
    obtain ⟨xs, hxs, hh⟩ := Option.bind_eq_some_iff.1 hh
    obtain ⟨o, ho, hh⟩ := Option.bind_eq_some_iff.1 hh
    refine hp1 b ?_
    unfold msgHeaderPubs
    refine List.mem_append.2 (Or.inr (List.mem_flatMap.2 ⟨o, Option.mem_toList.2 (by rw [exsMade_eq hxs]; exact ho), ?_⟩))
    exact List.mem_flatMap.2 ⟨h, Option.mem_toList.2 hh, hb⟩
  have hpp : ∀ p, payloadEncrypt E pl pk rnd.payIv = some p → ∀ b ∈ p.publics, c.pub b := fun p hh b hb =>
    hp2 b (List.mem_flatMap.2 ⟨p, Option.mem_toList.2 hh, hb⟩)
  clear hp1 hp2 hp3
  revert hst hpay hpk hph hpp hr
  generalize msgHeader E hk pk exKey ns s v rnd = hdr
  generalize payloadEncrypt E pl pk rnd.payIv = pay
  generalize s.node.key = key at *
  intro hr hst hpay hpk hph hpp
  unfold onNull
  sstep hst
  intro z f1 _
  cases z with
  | none =>
    dsimp only [givesN]
    sintro
    rename_i hh
    have hh' : f1 = true ∨ r = none := hh.imp id fun h => by rw [h] at hr; cases r <;> simp_all [Res.ofOption]
    clear hh
    vgo
  | some z =>
    dsimp only [givesN]
    sintro
    rename_i h1 hh1
    subst hh1
    have hph' := hph h1 rfl
    sstep hpay f1
    intro z' f2 _
    cases z' with
    | none =>
      dsimp only [gives]
      sintro
      rename_i hh
      have hh' : f2 = true ∨ r = none := hh.imp id fun h => by rw [h] at hr; cases r <;> simp_all [Res.ofOption]
      clear hh
      vgo
    | some z' =>
      dsimp only [gives]
      sintro
      rename_i h2 hh2
      subst hh2
      have hpp' := hpp h2 rfl
      have hpk' := hpk h1 h2 rfl rfl
      clear hst hpay hpk hph hpp
      dsimp only at hr
      sread hr1
      sread hr2
      refine Triple.lend (h := h) (P := isCRes z h1) (F := isCRes z' h2) (by frame) fun t1 h' ht1 e s1 s2 => ?_
      refine Triple.lend (h := h') (P := isCRes z' h2) (F := emp) (by frame) fun t2 h'' ht2 e' s1' s2' => ?_
      rw [Asrt.star_emp]
      sstep hPacketCreateWith_view hE c f2 hc h'' z z' w2 h1 h2 key v rnd.nonce r hr hpk' (Has.sub (Has.sub (has_of ht1) s2) s1')
        (Has.sub (has_of ht2) s2') (Has.sub (Has.sub hw s1) s1')
      intro o f3 _
      refine Triple.giveBack e' ht2 (by frame) ?_
      refine Triple.giveBack e ht1 (by frame) ?_
      clear hr hpk'
      cases o with
      | none => dsimp only [gives]; sintro; vgo
      | some o => dsimp only [gives]; sintro; vgo

/-! ### Packets -/

/-- A node without what verification records in it. -/
def Node.bare (n : Node) : Node := { n with chain := { n.chain with status := .unknown, cache := none }, status := .unknown, cache := none }

theorem ChainOutcome.root {ch ch' : Chain} {ok f : Bool} (h : ChainOutcome E ch ok f ch') : ch'.root = ch.root := by
  rcases h.1 with ⟨_, rfl, _⟩ | ⟨_, _, rfl, _⟩ <;> rfl

theorem NodeOutcome.bare {n n' : Node} {ok f : Bool} (h : NodeOutcome E n ok f n') : n'.bare = n.bare := by
  rcases h.1 with ⟨_, rfl, _⟩ | ⟨ch', cok, x, hc, rfl, _⟩
  · rfl
  · unfold Node.bare
    have h1 := hc.root
    have h2 := hc.node
    obtain ⟨r, m, s, c⟩ := ch'
    simp only at h1 h2
    subst h1 h2
    rfl

theorem RecOutcome.bare {f : Bool} : ∀ {ns : List (Option Node)} {ok : Bool} {ns' : List (Option Node)},
    RecOutcome E f ns ok ns' → ns'.map (Option.map Node.bare) = ns.map (Option.map Node.bare)
  | [], _, _, h => by rw [h.2]
  | none :: ns, _, _, h => by rw [h.2]
  | some n :: ns, _, _, ⟨b, n', hn, h⟩ => by
    rcases h with ⟨_, _, rfl⟩ | ⟨_, ns'', h, rfl⟩
    · simp [hn.bare]
    · simp [hn.bare, RecOutcome.bare h]

theorem ofOption_null {α : Type} {r : Option α} (h : Res.null = Res.ofOption r) : r = none := by
  cases r with
  | none => rfl
  | some v => cases h

theorem RecOutcome.mono {f f' : Bool} (hf : f = true → f' = true) : ∀ {ns : List (Option Node)} {ok : Bool} {ns' : List (Option Node)},
    RecOutcome E f ns ok ns' → RecOutcome E f' ns ok ns'
  | [], _, _, h => h
  | none :: _, _, _, h => h
  | some _ :: _, _, _, ⟨b, n', hn, h⟩ =>
    ⟨b, n', hn.mono hf, h.imp id fun ⟨h1, ns'', h, h2⟩ => ⟨h1, ns'', RecOutcome.mono hf h, h2⟩⟩

theorem kxInfo_bare (s : Chain) (n : Node) (v : UInt8) : kxInfo s n.bare v = kxInfo s n v := rfl

theorem kxKey_bare (s : Chain) (n : Node) (exKey : EcKey) (pk : CipherKey) (psk : Option Bytes) (v : UInt8) (iv : Bytes) :
    kxCreateWithKey E s n.bare exKey pk psk v iv = kxCreateWithKey E s n exKey pk psk v iv := rfl

theorem exsCreate_bare (s : Chain) (exKey : EcKey) (pk : CipherKey) (v : UInt8) (iv : Nat → Bytes) : ∀ (ns : List (Option Node)) (i : Nat),
    exchangesCreate E s exKey pk v iv (ns.map (Option.map Node.bare)) i = exchangesCreate E s exKey pk v iv ns i
  | [], _ => rfl
  | none :: _, _ => rfl
  | some n :: ns, i => by
    simp only [List.map_cons, Option.map_some, exchangesCreate, kxKey_bare]
    rw [exsCreate_bare s exKey pk v iv ns (i + 1)]

theorem exsMade_bare (s : Chain) (exKey : EcKey) (pk : CipherKey) (v : UInt8) (iv : Nat → Bytes) : ∀ (ns : List (Option Node)) (i : Nat),
    exsMade E s exKey pk v iv (ns.map (Option.map Node.bare)) i = exsMade E s exKey pk v iv ns i
  | [], _ => rfl
  | none :: ns, i => by
    simp only [List.map_cons, Option.map_none, exsMade]
    rw [exsMade_bare s exKey pk v iv ns (i + 1)]
  | some n :: ns, i => by
    simp only [List.map_cons, Option.map_some, exsMade, kxKey_bare]
    rw [exsMade_bare s exKey pk v iv ns (i + 1)]

theorem msgMade_bare (hk pk : CipherKey) (exKey : EcKey) (pl : Payload) (ns : List (Option Node)) (s : Chain) (v : UInt8) (rnd : MsgRand) :
    msgMade E hk pk exKey pl (ns.map (Option.map Node.bare)) s v rnd = msgMade E hk pk exKey pl ns s v rnd := by
  unfold msgMade msgHeader
  rw [exsCreate_bare]

theorem msgPubs_bare (hk pk : CipherKey) (exKey : EcKey) (pl : Payload) (ns : List (Option Node)) (s : Chain) (v : UInt8) (rnd : MsgRand) :
    msgPubs E hk pk exKey pl (ns.map (Option.map Node.bare)) s v rnd = msgPubs E hk pk exKey pl ns s v rnd := by
  unfold msgPubs msgHeader msgHeaderPubs
  rw [exsCreate_bare, exsMade_bare]
  have : ∀ ns : List (Option Node), (ns.map (Option.map Node.bare)).flatMap (fun n => n.toList.flatMap fun n => (kxInfo s n v).toList) =
      ns.flatMap fun n => n.toList.flatMap fun n => (kxInfo s n v).toList := by
    intro ns
    induction ns with
    | nil => rfl
    | cons n ns ih =>
      rw [List.map_cons, List.flatMap_cons, List.flatMap_cons, ih]
      cases n <;> simp [kxInfo_bare]
  rw [this]

theorem RecOutcome.made {f ok : Bool} {ns ns' : List (Option Node)} (h : RecOutcome E f ns ok ns') (hk pk : CipherKey) (exKey : EcKey)
    (pl : Payload) (s : Chain) (v : UInt8) (rnd : MsgRand) :
    msgMade E hk pk exKey pl ns' s v rnd = msgMade E hk pk exKey pl ns s v rnd ∧
      msgPubs E hk pk exKey pl ns' s v rnd = msgPubs E hk pk exKey pl ns s v rnd := by
  rw [← msgMade_bare (ns := ns'), ← msgPubs_bare (ns := ns'), h.bare, msgMade_bare, msgPubs_bare]
  exact ⟨rfl, rfl⟩

theorem hMsgCreate_spec (hE : E.Fits) (c : Rules) (f : Bool) (hc : c.crash) (hl : c.lax) (h : Heap) (q d x y p a : Addr) (hk pk : CipherKey)
    (exKey : EcKey) (pl : Payload) (ns : List (Option Node)) (s : Chain) (v : UInt8) (rnd : MsgRand) (r : Option Msg)
    (hs : ∀ n, some n ∈ ns → n.Shown E c)
    (hr : (∃ ns', RecOutcome E true ns true ns') → msgMade E hk pk exKey pl ns s v rnd = Res.ofOption r)
    (hp : ∀ b ∈ msgPubs E hk pk exKey pl ns s v rnd, c.pub b)
    (hq : Has isCKey h q hk) (hd : Has isCKey h d pk) (hx : Has isKey h x exKey) (hy : Has isPayload h y pl) (ha : Has isChain h a s) :
    Triple c f (keep h ∗ isArr isNode p ns) (hMsgCreate E (some q) (some d) (some x) (some y) (some p) (some a) v rnd)
      (fun z f' => keep h ∗ ex fun (w : List (Option Node) × Bool) => ⌜RecOutcome E f' ns w.2 w.1⌝ ∗ isArr isNode p w.1 ∗
        givesN isPacket (if w.2 then r else none) z f') := by
  unfold hMsgCreate
  dsimp only
  sread Reads.owned fun x hx => hArrCount_view (R := isNode) (xs := ns) (has_of hx)
  split
  · rename_i h0
    have h0' := List.eq_nil_of_length_eq_zero h0
    subst h0'
    have hr0 : r = none := by
      have : msgMade E hk pk exKey pl [] s v rnd = .null := rfl
      have hr := hr ⟨[], rfl, rfl⟩
      rw [this] at hr
      exact ofOption_null hr
    subst hr0
    refine Triple.ret fun t ht => Asrt.star_mono_r (fun u hu => ⟨([], true), Asrt.pure_star.2 ⟨⟨rfl, rfl⟩, ?_⟩⟩) ht
    dsimp only [givesN]
    revert hu
    revert u
    sentail
  · rename_i h0
    have hne : ns ≠ [] := fun h => h0 (by rw [h]; rfl)
    sstep hRecipientsValidate_spec hE c f hc p ns hs
    intro ok f1 hf1
    sintro
    rename_i ns' hn
    cases ok with
    | false =>
      simp only [Bool.false_eq_true, if_false]
      refine Triple.ret fun t ht => ?_
      rw [Asrt.star_comm] at ht
      refine Asrt.star_mono_r (fun u hu => ⟨(ns', false), Asrt.pure_star.2 ⟨hn, ?_⟩⟩) ht
      dsimp only [givesN]
      revert hu
      revert u
      sentail
    | true =>
      simp only [if_true]
      have hm := hn.made hk pk exKey pl s v rnd
      have hne' : ns' ≠ [] := fun h => hne (List.eq_nil_of_length_eq_zero (by rw [← hn.length, h]; rfl))
      refine Triple.lend (h := h) (P := isArr isNode p ns') (F := emp) (by frame) fun t1 h' ht1 e s1 s2 => ?_
      rw [Asrt.star_emp]
      refine Triple.conseq (hMsgMake_view hE c f1 hc hl h' q d x y p a hk pk exKey pl ns' s v rnd hne' r (by rw [hm.1]; exact hr ⟨ns', hn.mono fun _ => rfl⟩)
        (by rw [hm.2]; exact hp) (Has.sub hq s1) (Has.sub hd s1) (Has.sub hx s1) (Has.sub hy s1) (Has.sub (has_of ht1) s2) (Has.sub ha s1))
        (fun _ h => h) fun z f2 t hf2 ht => ?_
      rw [e, Asrt.star_assoc] at ht
      refine Asrt.star_mono_r (fun u hu => ⟨(ns', true), Asrt.pure_star.2 ⟨hn.mono hf2, ?_⟩⟩) ht
      exact Asrt.star_mono (fun w hw => by cases hw; exact ht1) hu

end Wickr
