import Verif.Lemmas.SepHs
/-
Handshakes in memory: the keys that protect the root key.
-/
namespace Wickr
open Asrt Spec

/-- What a function gives that may do without parts, and may leak, when an allocation failed. -/
abbrev nearly {V : Type} (R : Addr → V → Asrt) (x : Option V) (r : Ptr) (f : Bool) : Asrt := amongA R (fun _ => True) x r f

theorem oom_or {f f' : Bool} {φ : Prop} (h : f = true → f' = true) (hp : f = true ∨ φ) : f' = true ∨ φ := hp.imp_left h

theorem readBuf_spec (a : Addr) (b : Bytes) : Reads (isBuf a b) (readBuf (some a)) b := Reads.owned fun _ hx => readBuf_keep hx

theorem key_pub_view {h : Heap} {a : Addr} {k : EcKey} (ha : Has isKey h a k) :
    ∃ q, Reads (keep h) (field (some a) 0) (some q) ∧ Has isBuf h q k.pub := by
  sview ha isKey
  exact ⟨_, field_view (by assumption) rfl, by assumption⟩

theorem junk_of_spill {f f' : Bool} (h : f = true → f' = true) : Asrt.le (spill f) (spill f') := by
  intro x hx
  cases f with
  | true => rw [h rfl]; trivial
  | false => rw [show x = _ from hx]; cases f' with | true => trivial | false => rfl

theorem emp_spill {f : Bool} : Asrt.le emp (spill f) := by
  intro x hx
  cases f with
  | true => trivial
  | false => exact hx

theorem hHsKdfHash_spec (hE : E.Fits) (f : Bool) (i : Addr) (info : Bytes) :
    Triple laxest f (isBuf i info) (hHsKdfHash E (some i)) (fun r f' => emp ∗ nearly isKdfMeta
      ((E.digest info none .sha512).bind fun hash => kdfMetaCreate hkdfSha512 none (some hash)) r f') := by
  unfold hHsKdfHash
  refine Triple.lend0 (P := isBuf i info) (by frame) fun h hh => ?_
  sstep hDigest_view hE laxest f trivial h i none info none .sha512 (has_of hh) trivial
  intro r f1 _
  refine Triple.giveBack0 hh (by frame) ?_
  sdestroy hBufDestroy_spec (Or.inr trivial)
  intro f2 hf2
  cases r with
  | none =>
    dsimp only [gives]
    sintro
    rename_i hf
    exact Triple.noneAmA (F := emp) (by sentail) emp_spill (hf.imp hf2 fun h => by rw [h]; rfl)
  | some q =>
    dsimp only [gives]
    sintro
    rename_i hash hd
    show Triple laxest f2 _ (hKdfMetaCreate hkdfSha512 none (some q)) _
    have hk := hKdfMetaCreate_spec laxest f2 hkdfSha512 none (some q) none (some hash) (by refine ⟨by simp, by intro h; exact absurd rfl h, by intro s h; exact absurd rfl h⟩)
    rw [optRep_null, Asrt.emp_star] at hk
    refine Triple.tail ?_
    sstep hk
    intro r f3 hf3
    cases r with
    | none =>
      dsimp only [orKeep]
      sintro
      rename_i hf
      refine Triple.noneAmA (F := isBuf q hash) ?_ (by rw [hf]; exact fun _ _ => trivial) (Or.inl hf)
      sentail
    | some x =>
      dsimp only [orKeep]
      exact Triple.someAmA (F := emp) (v := ⟨hkdfSha512, none, some hash⟩) trivial (fun _ => by rw [hd]; rfl) (by sentail) emp_spill

theorem hHsKdfMeta_view (hE : E.Fits) (f : Bool) (h : Heap) (a p q : Addr) (v : Handshake) (own peer : EcKey) (ha : Has isHs h a v)
    (hp : Has isKey h p own) (hq : Has isKey h q peer) :
    Triple laxest f (keep h) (hHsKdfMeta E (some a) (some p) (some q))
      (fun r f' => keep h ∗ nearly isKdfMeta (hsKdfMeta E v own peer) r f') := by
  unfold hHsKdfMeta hsKdfMeta
  obtain ⟨s, r1, hs⟩ := hs_self_view ha
  obtain ⟨t, r2, ht⟩ := hs_remote_view ha
  obtain ⟨po, r3, hpo⟩ := key_pub_view hp
  obtain ⟨pq, r4, hpq⟩ := key_pub_view hq
  sread r1
  refine Triple.onNullAm (hChainSerialize_view laxest f h s v.self false hs (laxSig v.self)) (by frame) ?_ ?_
  · intro f1 _ hf
    exact Triple.noneAmA (F := emp) (by sentail) emp_spill (hf.imp_right fun h => by rw [show chainSerialize v.self false = none from h]; rfl)
  · intro l f1 lb _ _ hl
    replace hl : f1 = false → chainSerialize v.self false = some lb := hl
    sread r2
    have hser : Triple laxest f1 (keep h) (hChainSerialize t false)
        (fun r f' => keep h ∗ among isBuf (fun _ => True) (v.remote.bind (chainSerialize · false)) r f') := by
      cases t with
      | none =>
        cases hv : v.remote with
        | some ch => rw [hv] at ht; exact ht.elim
        | none => exact Triple.noneAm (by sentail) (Or.inr rfl)
      | some t =>
        cases hv : v.remote with
        | none => rw [hv] at ht; exact ht.elim
        | some ch =>
          rw [hv] at ht
          refine Triple.conseq (hChainSerialize_view laxest f1 h t ch false ht (laxSig ch)) (fun _ h => h) ?_
          intro r f' z _ hz
          refine Asrt.star_mono_r (fun y hy => ?_) hz
          cases r with
          | none => exact hy
          | some r =>
            obtain ⟨w, hw⟩ := hy
            exact ⟨w, by rw [Asrt.pure_star] at hw ⊢; exact ⟨⟨trivial, hw.1.2⟩, hw.2⟩⟩
    refine Triple.onNullAm hser (by frame) ?_ ?_
    · intro f2 _ hf
      sdestroy hBufDestroy_spec (Or.inr trivial)
      intro f3 hf3
      refine Triple.noneAmA (F := emp) (by sentail) emp_spill ?_
      rcases hf with hf | hf
      · exact Or.inl (hf3 hf)
      · exact Or.inr (by rw [hf]; cases chainSerialize v.self false <;> rfl)
    · intro r f2 rb hf2 _ hr
      sread hs_scal_view ha
      dsimp only
      sread readBuf_spec l lb
      sread readBuf_spec r rb
      sread r3
      sread readBuf_view hpo
      sread r4
      sread readBuf_view hpq
      sstep hConcatMulti_spec laxest f2 _
      intro i f3 hf3
      sdestroy hBufDestroy_spec (Or.inr trivial)
      intro f4 hf4
      sdestroy hBufDestroy_spec (Or.inr trivial)
      intro f5 hf5
      have e : f2 = false → ((chainSerialize v.self false).bind fun l => (v.remote.bind (chainSerialize · false)).bind fun r =>
        (concatMulti (if v.isInitiator then [some l, some r, some own.pub, some peer.pub]
          else [some r, some l, some peer.pub, some own.pub])).bind fun info =>
            (E.digest info none .sha512).bind fun hash => kdfMetaCreate hkdfSha512 none (some hash)) =
          (concatMulti (if v.isInitiator then [some lb, some rb, some own.pub, some peer.pub]
          else [some rb, some lb, some peer.pub, some own.pub])).bind fun info =>
            (E.digest info none .sha512).bind fun hash => kdfMetaCreate hkdfSha512 none (some hash) := by
        intro hf
        rw [hl (oom_back hf2 hf), Option.bind_some, hr hf, Option.bind_some]
      cases i with
      | none =>
        dsimp only [gives]
        sintro
        rename_i hf
        refine Triple.noneAmA (F := emp) (by sentail) emp_spill ?_
        rcases hf with hf | hf
        · exact Or.inl (hf5 (hf4 hf))
        · cases f2 with
          | true => exact Or.inl (hf5 (hf4 (hf3 rfl)))
          | false => exact Or.inr (by rw [e rfl, hf]; rfl)
      | some i =>
        dsimp only [gives]
        sintro
        rename_i info hi
        show Triple laxest f5 _ (hHsKdfHash E (some i)) _
        refine Triple.tail ?_
        sstep hHsKdfHash_spec hE f5 i info
        intro x f6 hf6
        cases x with
        | none =>
          dsimp only [nearly, amongA]
          sintro
          rename_i hf
          refine Triple.noneAmA (F := spill f6) (by sentail) (junk_of_spill id) ?_
          rcases hf with hf | hf
          · exact Or.inl hf
          · cases f2 with
            | true => exact Or.inl (hf6 (hf5 (hf4 (hf3 rfl))))
            | false => exact Or.inr (by rw [e rfl, hi]; exact hf)
        | some x =>
          dsimp only [nearly, amongA]
          sintro
          rename_i m hm
          refine Triple.someAmA (F := spill f6) (v := m) trivial (fun hf => ?_) (by sentail) (junk_of_spill id)
          rw [e (oom_back hf3 (oom_back hf4 (oom_back hf5 (oom_back hf6 hf)))), hi]
          exact hm.2 hf

/-! ### Opening a response -/

theorem hViaBuf_spec {V : Type} {R : Addr → V → Asrt} {op : Ptr → H Ptr} {F : Bytes → Option V} (f : Bool) (b : Bytes)
    (h0 : op none = Pure.pure none)
    (hop : ∀ f h q, Has isBuf h q b → Triple laxest f (keep h) (op (some q)) (fun r f' => keep h ∗ gives R (F b) r f')) :
    Triple laxest f emp (hViaBuf b op) (fun r f' => emp ∗ gives R ((dup b).bind F) r f') := by
  unfold hViaBuf
  sstep hFromProto_spec laxest f b
  intro d f1 hf1
  cases d with
  | none =>
    rw [h0]
    dsimp only [gives]
    sintro
    rename_i hf
    show Triple laxest f1 _ (Pure.pure none) _
    exact Triple.noneGv (by sentail) (hf.imp_right fun h => by rw [h]; rfl)
  | some d =>
    dsimp only [gives]
    sintro
    rename_i b' hb
    obtain ⟨_, rfl⟩ := dup_eq_some.1 hb
    refine Triple.lend0 (P := isBuf d b') (by frame) fun h hh => ?_
    sstep hop f1 h d (has_of hh)
    intro r f2 hf2
    refine Triple.giveBack0 hh (by frame) ?_
    sdestroy hBufDestroy_spec (Or.inr trivial)
    intro f3 hf3
    cases r with
    | none =>
      dsimp only [gives]
      sintro
      rename_i hf
      exact Triple.noneGv (by sentail) (hf.imp hf3 fun h => by rw [hb]; exact h)
    | some r =>
      dsimp only [gives]
      sintro
      rename_i v hv
      exact Triple.someGv (v := v) (by rw [hb]; exact hv) (by sentail)

/-- What opening a response is done with. -/
def respKeys (E : Engine) (v : Handshake) (ep ed : Bytes) (r : Option (Ptr × Ptr × Ptr)) (f : Bool) : Asrt :=
  match r with
  | none => ⌜f = true ∨ (dup ed).bind cipherResultFromBuffer = none ∨ v.eph.bind ecKeyCopy = none ∨ (dup ep).bind (E.ecImport · false) = none⌝
  | some (p, q, t) => Asrt.ex fun (z : CipherResult × EcKey × EcKey) => Asrt.ex fun (y : Addr × Addr × Addr) =>
      ⌜(p = some y.1 ∧ q = some y.2.1 ∧ t = some y.2.2) ∧ (dup ed).bind cipherResultFromBuffer = some z.1 ∧ v.eph.bind ecKeyCopy = some z.2.1 ∧
        v.eph = some z.2.1 ∧ (dup ep).bind (E.ecImport · false) = some z.2.2⌝ ∗
      isCRes y.1 z.1 ∗ isEcdh y.2.1 ⟨z.1.cipher, z.2.1⟩ ∗ isKey y.2.2 z.2.2

theorem respKeys_none {E : Engine} {f : Bool} {h : Heap} {v : Handshake} {ep ed : Bytes} {A : Asrt} (hA : ∀ y, A y → keep h y)
    (hf : f = true ∨ (dup ed).bind cipherResultFromBuffer = none ∨ v.eph.bind ecKeyCopy = none ∨ (dup ep).bind (E.ecImport · false) = none) :
    Triple laxest f A (Pure.pure none) (fun r f' => keep h ∗ respKeys E v ep ed r f') := by
  refine Triple.ret fun y hy => ?_
  rw [Asrt.star_comm]
  exact Asrt.pure_star.2 ⟨hf, hA y hy⟩

theorem cres_cipher_reads (a : Addr) (r : CipherResult) : Reads (isCRes a r) (scal (some a)) (.cipher r.cipher) := by
  refine Reads.owned fun h hx => ?_
  have := has_of hx
  sview this isCRes
  exact scal_view (by assumption)

theorem hRespKeys_view (hE : E.Fits) (f : Bool) (h : Heap) (a x : Addr) (v : Handshake) (m : Option PChain) (ep ed : Bytes) (ha : Has isHs h a v)
    (hx : Has isProto h x (chainParts m ++ [ep, ed])) :
    Triple laxest f (keep h) (hRespKeys E (some a) (some x)) (fun r f' => keep h ∗ respKeys E v ep ed r f') := by
  unfold hRespKeys
  have hm6 : (chainParts m).length = 6 := by
    cases m with
    | none => rfl
    | some m => obtain ⟨r, n⟩ := m; cases r <;> cases n <;> rfl
  have h6 : (chainParts m ++ [ep, ed])[6]? = some ep := by rw [List.getElem?_append_right (by omega), hm6]; rfl
  have h7 : (chainParts m ++ [ep, ed])[7]? = some ed := by rw [List.getElem?_append_right (by omega), hm6]; rfl
  haveI := Nth.of h6
  haveI := Nth.of h7
  obtain ⟨e, r3, he⟩ := hs_eph_view ha
  sread hPart_view (i := 7) (b := ed) hx
  sstep hViaBuf_spec (F := cipherResultFromBuffer) f ed rfl (fun f h q hq => hCResFromBuffer_view laxest f trivial h q ed (fun _ _ => Or.inl trivial) hq)
  intro enc f1 hf1
  cases enc with
  | none =>
    dsimp only [gives]
    sintro
    rename_i hf
    exact respKeys_none (by sentail) (hf.imp_right Or.inl)
  | some enc =>
    dsimp only [gives]
    sintro
    rename_i ce hce
    sread r3
    cases e with
    | none =>
      cases hv : v.eph with
      | some k => rw [hv] at he; exact he.elim
      | none =>
        show Triple laxest f1 _ (do let _ ← hCResDestroy (some enc); Pure.pure none) _
        sdestroy hCResDestroy_spec (fun _ _ => trivial)
        intro f2 _
        exact respKeys_none (by sentail) (Or.inr (Or.inr (Or.inl (by rw [hv]; rfl))))
    | some e =>
      cases hv : v.eph with
      | none => rw [hv] at he; exact he.elim
      | some k =>
        rw [hv] at he
        sstep hKeyCopy_view laxest f1 trivial h e k trivial he
        intro own f2 hf2
        cases own with
        | none =>
          dsimp only [fresh]
          sintro
          rename_i hf
          sdestroy hCResDestroy_spec (fun _ _ => trivial)
          intro f3 hf3
          exact respKeys_none (by sentail) (Or.inl (hf3 hf))
        | some own =>
          dsimp only [fresh]
          sread cres_cipher_reads enc ce
          dsimp only
          sstep hEcdhCreate_spec laxest f2 own ce.cipher k
          intro ctx f3 hf3
          cases ctx with
          | none =>
            dsimp only [orKeep]
            sintro
            rename_i hf
            sdestroy hKeyDestroy_spec laxest own k
            intro f4 hf4
            sdestroy hCResDestroy_spec (fun _ _ => trivial)
            intro f5 hf5
            exact respKeys_none (by sentail) (Or.inl (hf5 (hf4 hf)))
          | some ctx =>
            dsimp only [orKeep]
            sread hPart_view (i := 6) (b := ep) hx
            sstep hViaBuf_spec (F := (E.ecImport · false)) f3 ep rfl (fun f h q hq => hImport_view hE laxest f trivial h q ep false (fun _ _ => trivial) hq)
            intro peer f4 hf4
            cases peer with
            | none =>
              dsimp only [gives]
              sintro
              rename_i hf
              sdestroy hEcdhDestroy_spec laxest ctx _
              intro f5 hf5
              sdestroy hCResDestroy_spec (fun _ _ => trivial)
              intro f6 hf6
              exact respKeys_none (by sentail) (hf.imp (fun h => hf6 (hf5 h)) fun h => Or.inr (Or.inr h))
            | some peer =>
              dsimp only [gives]
              sintro
              rename_i pk hpk
              refine Triple.ret fun y hy => ?_
              refine Asrt.star_mono_r (P := keep h) (F := isCRes enc ce ∗ isEcdh ctx ⟨ce.cipher, k⟩ ∗ isKey peer pk)
                (fun z hz => ⟨(ce, k, pk), (enc, ctx, peer), Asrt.pure_star.2 ⟨⟨⟨rfl, rfl, rfl⟩, hce, ?_, hv, hpk⟩, hz⟩⟩) ?_
              · revert hy; revert y
                sentail
              · rw [hv]
                exact ecKeyCopy_has he

/-- The root key in a decrypted response. -/
def respRoot (bs : Bytes) : Option RootKey := ((fieldsDec bs).bind PResponseData.unpack).bind fun d => d.rootKey.bind rootKeyFromProto

/-- What reading the root key gives. -/
def rootGiven (bs : Bytes) (r : Ptr) (f : Bool) : Asrt :=
  match r with
  | none => ⌜f = true ∨ respRoot bs = none⌝ ∗ junk (f = true ∨ NoRoot bs)
  | some x => Asrt.ex fun k => ⌜respRoot bs = some k⌝ ∗ isTRoot x k

theorem hRespRoot_spec (f : Bool) (b : Addr) (bs : Bytes) :
    Triple laxest f (isBuf b bs) (hRespRoot (some b)) (fun r f' => rootGiven bs r f') := by
  unfold hRespRoot
  sread readBuf_spec b bs
  cases hd : (fieldsDec bs).bind PResponseData.unpack with
  | none =>
    dsimp only
    sdestroy hBufDestroyZero_spec
    intro f1 _
    refine Triple.ret fun y hy => ?_
    exact Asrt.pure_star.2 ⟨Or.inr (by unfold respRoot; rw [hd]; rfl), junk_emp y hy⟩
  | some d =>
    dsimp only
    sstep hUnpack_spec laxest f d.parts (fun _ _ => trivial)
    intro x f1 hf1
    sdestroy hBufDestroyZero_spec
    intro f2 hf2
    cases x with
    | none =>
      dsimp only [fresh]
      sintro
      rename_i hf
      refine Triple.ret fun y hy => ?_
      exact Asrt.pure_star.2 ⟨Or.inl (hf2 hf), junk_emp y hy⟩
    | some x =>
      dsimp only [fresh]
      cases hr : d.rootKey with
      | none =>
        refine Triple.ret fun y hy => ?_
        exact Asrt.pure_star.2 ⟨Or.inr (by unfold respRoot; rw [hd, Option.bind_some, hr]; rfl), Or.inl (Or.inr ⟨d, hd, hr⟩)⟩
      | some km =>
        dsimp only
        refine Triple.lend0 (P := isProto x d.parts) (by frame) fun h hh => ?_
        sstep hRootFromProto_view f2 h x d.parts km (has_of hh) (by unfold PResponseData.parts; rw [hr]; rfl)
        intro r f3 hf3
        refine Triple.giveBack0 hh (by frame) ?_
        sdestroy hFreeUnpacked_spec laxest x _ (fun _ _ => trivial)
        intro f4 hf4
        cases r with
        | none =>
          dsimp only [gives]
          sintro
          rename_i hf
          refine Triple.ret fun y hy => ?_
          exact Asrt.pure_star.2 ⟨hf.imp hf4 fun h => by unfold respRoot; rw [hd, Option.bind_some, hr]; exact h, junk_emp y hy⟩
        | some r =>
          dsimp only [gives]
          sintro
          rename_i k hk
          refine Triple.ret fun y hy => ⟨k, Asrt.pure_star.2 ⟨by unfold respRoot; rw [hd, Option.bind_some, hr]; exact hk, ?_⟩⟩
          revert hy; revert y; sentail

theorem has_l {V : Type} {R : Addr → V → Asrt} {Q : Asrt} {h : Heap} {a : Addr} {v : V} (hh : (R a v ∗ Q) h) : Has R h a v :=
  Asrt.star_mono_r (fun _ _ => trivial) hh
theorem has_m {V : Type} {R : Addr → V → Asrt} {P Q : Asrt} {h : Heap} {a : Addr} {v : V} (hh : (P ∗ R a v ∗ Q) h) : Has R h a v := by
  rw [← Asrt.star_assoc, Asrt.star_comm P, Asrt.star_assoc] at hh
  exact has_l hh
theorem has_r {V : Type} {R : Addr → V → Asrt} {P Q : Asrt} {h : Heap} {a : Addr} {v : V} (hh : (P ∗ Q ∗ R a v) h) : Has R h a v := by
  rw [Asrt.star_comm Q] at hh
  exact has_m hh

/-- What opening a response gives. -/
def opened (E : Engine) (v : Handshake) (own peer : EcKey) (enc : CipherResult) (r : Ptr) (f : Bool) : Asrt :=
  match r with
  | none => ⌜f = true ∨ hsOpenResponse E v own peer enc = none⌝ ∗ junk (f = true ∨ RootMissing E v own peer enc)
  | some x => Asrt.ex fun k => ⌜f = false → hsOpenResponse E v own peer enc = some k⌝ ∗ isTRoot x k ∗ junk (f = true)

theorem opened_none {E : Engine} {v : Handshake} {own peer : EcKey} {enc : CipherResult} {f : Bool} {A G : Asrt} {h : Heap}
    (hf : f = true ∨ hsOpenResponse E v own peer enc = none) (hA : ∀ y, A y → (keep h ∗ G) y)
    (hG : Asrt.le G (junk (f = true ∨ RootMissing E v own peer enc))) :
    Triple laxest f A (Pure.pure none) (fun r f' => keep h ∗ opened E v own peer enc r f') := by
  refine Triple.ret fun y hy => ?_
  exact Asrt.star_mono_r (fun z hz => Asrt.pure_star.2 ⟨hf, hG z hz⟩) (hA y hy)

theorem hRespOpen_view (hE : E.Fits) (f : Bool) (h : Heap) (a p q t : Addr) (v : Handshake) (own peer : EcKey) (enc : CipherResult)
    (ha : Has isHs h a v) (hv : v.eph = some own) :
    Triple laxest f (keep h ∗ isCRes p enc ∗ isEcdh q ⟨enc.cipher, own⟩ ∗ isKey t peer) (hRespOpen E (some a) (some p) (some q) (some t))
      (fun r f' => keep h ∗ opened E v own peer enc r f') := by
  unfold hRespOpen
  obtain ⟨e, r3, he⟩ := hs_eph_view ha
  rw [hv] at he
  cases e with
  | none => exact he.elim
  | some e =>
  sread r3
  refine Triple.lend (h := h) (P := isCRes p enc ∗ isEcdh q ⟨enc.cipher, own⟩ ∗ isKey t peer) (by frame) fun h1 h' hp e1 s1 s2 => ?_
  refine Triple.onNullAmA (hHsKdfMeta_view hE f h' a e t v own peer (Has.sub ha s1) (Has.sub he s1) (Has.sub (has_r hp) s2)) (by frame) ?_ ?_
  · intro f1 hf1 hf
    refine Triple.giveBack e1 hp (by frame) ?_
    sdestroy hKeyDestroy_spec laxest t peer
    intro f2 hf2
    sdestroy hEcdhDestroy_spec laxest q _
    intro f3 hf3
    sdestroy hCResDestroy_spec (fun _ _ => trivial)
    intro f4 hf4
    exact opened_none (G := spill f1) (hf.imp (fun h => hf4 (hf3 (hf2 h))) fun h => by unfold hsOpenResponse; rw [h]; rfl) (by sentail)
      (spill_junk fun h => Or.inl (hf4 (hf3 (hf2 h))))
  · intro x f1 m hf1 _ hm
    refine Triple.lend (h := h') (P := isKdfMeta x m) (by frame) fun h2 h'' hx e2 s3 s4 => ?_
    sstep hEcdhDecipher_view hE laxest f1 trivial h'' q t x p _ enc peer m (fun _ _ => trivial) trivial (Has.sub (Has.sub (has_m hp) s2) s3)
      (Has.sub (Has.sub (has_l hp) s2) s3) (Has.sub (Has.sub (has_r hp) s2) s3) (Has.sub (has_of hx) s4)
    intro b f2 hf2
    refine Triple.giveBack e2 hx (by frame) ?_
    refine Triple.giveBack e1 hp (by frame) ?_
    sdestroy hKeyDestroy_spec laxest t peer
    intro f3 hf3
    sdestroy hKdfMetaDestroy_spec (fun _ _ => trivial)
    intro f4 hf4
    sdestroy hEcdhDestroy_spec laxest q _
    intro f5 hf5
    sdestroy hCResDestroy_spec (fun _ _ => trivial)
    intro f6 hf6
    have hval : f1 = false → hsOpenResponse E v own peer enc = (ecdhDecipher E ⟨enc.cipher, own⟩ enc peer m).bind respRoot := by
      intro hf
      unfold hsOpenResponse
      rw [hm hf]
      rfl
    cases b with
    | none =>
      dsimp only [givesN]
      sintro
      rename_i hf
      show Triple laxest f6 _ (Pure.pure none) _
      refine opened_none (G := spill f2 ∗ spill f1) ?_ (by sentail)
        (junk_star (spill_junk fun h => Or.inl (hf6 (hf5 (hf4 (hf3 h))))) (spill_junk fun h => Or.inl (hf6 (hf5 (hf4 (hf3 (hf2 h)))))))
      rcases hf with hf | hf
      · exact Or.inl (hf6 (hf5 (hf4 (hf3 hf))))
      · cases f1 with
        | true => exact Or.inl (hf6 (hf5 (hf4 (hf3 (hf2 rfl)))))
        | false => exact Or.inr (by rw [hval rfl, hf]; rfl)
    | some b =>
      dsimp only [givesN]
      sintro
      rename_i bs hb
      show Triple laxest f6 _ (hRespRoot (some b)) _
      refine Triple.tail ?_
      sstep hRespRoot_spec f6 b bs
      intro r f7 hf7
      have up : f1 = true → f7 = true := fun h => hf7 (hf6 (hf5 (hf4 (hf3 (hf2 h)))))
      cases r with
      | none =>
        dsimp only [rootGiven]
        sintro
        rename_i hf
        refine opened_none (G := junk (f7 = true ∨ NoRoot bs) ∗ spill f1) ?_ (by sentail) (junk_star (junk_mono ?_) (spill_junk fun h => Or.inl (up h)))
        · rcases hf with hf | hf
          · exact Or.inl hf
          · cases f1 with
            | true => exact Or.inl (up rfl)
            | false => exact Or.inr (by rw [hval rfl, hb]; exact hf)
        · rintro (h | h)
          · exact Or.inl h
          · cases f1 with
            | true => exact Or.inl (up rfl)
            | false => exact Or.inr ⟨m, bs, hm rfl, hb, h⟩
      | some r =>
        dsimp only [rootGiven]
        sintro
        rename_i k hk
        refine Triple.ret fun y hy => ?_
        refine Asrt.star_mono_r (P := keep h) (F := isTRoot r k ∗ spill f1)
          (fun z hz => ⟨k, Asrt.pure_star.2 ⟨fun hf => ?_, Asrt.star_mono_r (spill_junk up) hz⟩⟩) ?_
        · revert hy; revert y; sentail
        · rw [hval (by cases f1 with | false => rfl | true => rw [up rfl] at hf; cases hf), hb]
          exact hk

/-! ### Making a response -/

theorem ecdh_key_view {h : Heap} {a : Addr} {v : EcdhCtx} (ha : Has isEcdh h a v) :
    ∃ q, Reads (keep h) (field (some a) 0) (some q) ∧ Has isKey h q v.key := by
  sview ha isEcdh
  exact ⟨_, field_view (by assumption) rfl, by assumption⟩

/-- The encrypted root key. -/
def respSealed (E : Engine) (v : Handshake) (c : EcdhCtx) (d : Bytes) (peer : EcKey) (iv : Bytes) : Option Bytes :=
  (hsKdfMeta E v c.key peer).bind fun m => (ecdhCipher E c d peer m iv).bind cipherResultSerialize

theorem hRespSeal_view (hE : E.Fits) (f : Bool) (h : Heap) (a q b t : Addr) (v : Handshake) (c : EcdhCtx) (d : Bytes) (peer : EcKey) (iv : Bytes)
    (ha : Has isHs h a v) (hq : Has isEcdh h q c) :
    Triple laxest f (keep h ∗ isBuf b d ∗ isKey t peer) (hRespSeal E (some a) (some q) (some b) (some t) iv)
      (fun r f' => keep h ∗ nearly isBuf (respSealed E v c d peer iv) r f') := by
  unfold hRespSeal
  obtain ⟨o, r1, ho⟩ := ecdh_key_view hq
  sread r1
  refine Triple.lend (h := h) (P := isBuf b d ∗ isKey t peer) (by frame) fun h1 h' hp e1 s1 s2 => ?_
  have ht : Has isKey h1 t peer := by rw [Asrt.star_comm] at hp; exact has_l hp
  sstep hHsKdfMeta_view hE f h' a o t v c.key peer (Has.sub ha s1) (Has.sub ho s1) (Has.sub ht s2)
  intro km f1 hf1
  cases km with
  | none =>
    dsimp only [nearly, amongA]
    sintro
    rename_i hf
    refine Triple.giveBack e1 hp (by frame) ?_
    show Triple laxest f1 _ (do let _ ← hBufDestroy (some b); let _ ← hKeyDestroy (some t); Pure.pure none) _
    sdestroy hBufDestroy_spec (Or.inr trivial)
    intro f2 hf2
    sdestroy hKeyDestroy_spec laxest t peer
    intro f3 hf3
    exact Triple.noneAmA (F := spill f1) (by sentail) (junk_of_spill fun h => hf3 (hf2 h))
      (hf.imp (fun h => hf3 (hf2 h)) fun h => by unfold respSealed; rw [h]; rfl)
  | some x =>
    dsimp only [nearly, amongA]
    sintro
    rename_i m hm
    replace hm := hm.2
    refine Triple.lend (h := h') (P := isKdfMeta x m) (by frame) fun h2 h'' hx e2 s3 s4 => ?_
    sstep hEcdhCipher_view hE laxest f1 trivial h'' q t x b c d peer m iv (fun _ _ => trivial) trivial (fun _ _ _ _ _ _ => trivial)
      (Has.sub (Has.sub hq s1) s3) (Has.sub (Has.sub (has_l hp) s2) s3) (Has.sub (Has.sub ht s2) s3) (Has.sub (has_of hx) s4)
    intro r f2 hf2
    refine Triple.giveBack e2 hx (by frame) ?_
    refine Triple.giveBack e1 hp (by frame) ?_
    sdestroy hKdfMetaDestroy_spec (fun _ _ => trivial)
    intro f3 hf3
    sdestroy hBufDestroy_spec (Or.inr trivial)
    intro f4 hf4
    sdestroy hKeyDestroy_spec laxest t peer
    intro f5 hf5
    have up : f1 = true → f5 = true := fun h => hf5 (hf4 (hf3 (hf2 h)))
    have hval : f1 = false → respSealed E v c d peer iv = (ecdhCipher E c d peer m iv).bind cipherResultSerialize := by
      intro hf
      unfold respSealed
      rw [hm hf]
      rfl
    cases r with
    | none =>
      dsimp only [givesN]
      sintro
      rename_i hf
      show Triple laxest f5 _ (Pure.pure none) _
      refine Triple.noneAmA (F := spill f2 ∗ spill f1) (by sentail) ?_ ?_
      · exact fun y hy => junk_spill y (junk_star (spill_junk fun h => hf5 (hf4 (hf3 h))) (spill_junk up) y hy)
      · rcases hf with hf | hf
        · exact Or.inl (hf5 (hf4 (hf3 hf)))
        · cases f1 with
          | true => exact Or.inl (up rfl)
          | false => exact Or.inr (by rw [hval rfl, hf]; rfl)
    | some r =>
      dsimp only [givesN]
      sintro
      rename_i cr hcr
      show Triple laxest f5 _ (do let b ← hCResSerialize (some r); let _ ← hCResDestroy (some r); Pure.pure b) _
      refine Triple.lend0 (P := isCRes r cr) (by frame) fun h3 hh => ?_
      sstep hCResSerialize_view laxest f5 h3 r cr (has_of hh)
      intro s f6 hf6
      refine Triple.giveBack0 hh (by frame) ?_
      sdestroy hCResDestroy_spec (fun _ _ => trivial)
      intro f7 hf7
      cases s with
      | none =>
        dsimp only [gives]
        sintro
        rename_i hf
        refine Triple.noneAmA (F := spill f1) (by sentail) (junk_of_spill fun h => hf7 (hf6 (up h))) ?_
        rcases hf with hf | hf
        · exact Or.inl (hf7 hf)
        · cases f1 with
          | true => exact Or.inl (hf7 (hf6 (up rfl)))
          | false => exact Or.inr (by rw [hval rfl, hcr]; exact hf)
      | some s =>
        dsimp only [gives]
        sintro
        rename_i sb hs
        refine Triple.someAmA (F := spill f1) (v := sb) trivial (fun hf => ?_) (by sentail) (junk_of_spill fun h => hf7 (hf6 (up h)))
        rw [hval (oom_back up (oom_back hf6 (oom_back hf7 hf))), hcr]
        exact hs

/-- What making a response gives. -/
def responseMade (E : Engine) (v : Handshake) (rk : RootKey) (own peer : EcKey) (iv : Bytes) (required : Bool) (r : Ptr) (f : Bool) : Asrt :=
  match r with
  | none => ⌜f = true ∨ hsMakeResponse E v rk own peer iv required = none⌝ ∗ junk (f = true)
  | some y => Asrt.ex fun (z : Bytes × Bytes × Option PChain) => ⌜respWrites (if required then some v.self else none) z.2.2 ∧
      (f = false → hsMakeResponse E v rk own peer iv required = some (.response ⟨some z.1, some z.2.1, z.2.2⟩))⌝ ∗
      isResp y z.1 z.2.1 z.2.2 ∗ junk (f = true)

theorem hRespMake_view (hE : E.Fits) (f : Bool) (h : Heap) (a q t x : Addr) (v : Handshake) (rk : RootKey) (own peer : EcKey) (iv : Bytes)
    (required : Bool) (bs : List Bytes) (ha : Has isHs h a v) (hv : v.rootKey = some rk) :
    Triple laxest f (keep h ∗ isEcdh q ⟨defaultCipher, own⟩ ∗ isKey t peer ∗ isProto x bs) (hRespMake E (some a) (some q) (some t) (some x) iv required)
      (fun r f' => keep h ∗ responseMade E v rk own peer iv required r f') := by
  unfold hRespMake
  obtain ⟨k, r1, hk⟩ := hs_root_view ha
  obtain ⟨s, r2, hs⟩ := hs_self_view ha
  rw [hv] at hk
  cases k with
  | none => exact hk.elim
  | some k =>
  sread r1
  refine Triple.onNullG (hRespData_view f h k rk hk) (by frame) ?_ ?_
  · intro f1 _ hf
    sdestroy hFreeUnpacked_spec laxest x _ (fun _ _ => trivial)
    intro f2 hf2
    sdestroy hEcdhDestroy_spec laxest q _
    intro f3 hf3
    sdestroy hKeyDestroy_spec laxest t peer
    intro f4 hf4
    refine Triple.ret fun y hy => ?_
    refine Asrt.star_mono_r (P := keep h) (F := emp) (fun z hz => Asrt.pure_star.2 ⟨hf.imp (fun h => hf4 (hf3 (hf2 h))) fun h => ?_, junk_emp z hz⟩) ?_
    · unfold hsMakeResponse; rw [h]; rfl
    · revert hy; revert y; sentail
  · intro b f1 d hf1 hd
    refine Triple.lend (h := h) (P := isEcdh q ⟨defaultCipher, own⟩) (by frame) fun h1 h' hq e1 s1 s2 => ?_
    refine Triple.onNullAmA (hRespSeal_view hE f1 h' a q b t v ⟨defaultCipher, own⟩ d peer iv (Has.sub ha s1) (Has.sub (has_of hq) s2)) (by frame) ?_ ?_
    · intro f2 hf2 hf
      refine Triple.giveBack e1 hq (by frame) ?_
      sdestroy hFreeUnpacked_spec laxest x _ (fun _ _ => trivial)
      intro f3 hf3
      sdestroy hEcdhDestroy_spec laxest q _
      intro f4 hf4
      refine Triple.ret fun y hy => ?_
      refine Asrt.star_mono_r (P := keep h) (F := spill f2)
        (fun z hz => Asrt.pure_star.2 ⟨hf.imp (fun h => hf4 (hf3 h)) fun h => ?_, spill_junk (fun h => hf4 (hf3 h)) z hz⟩) ?_
      · unfold respSealed at h
        unfold hsMakeResponse
        rw [hd, Option.bind_some]
        cases hkm : hsKdfMeta E v own peer with
        | none => rfl
        | some m =>
          rw [hkm, Option.bind_some] at h
          rw [Option.bind_some]
          cases hec : ecdhCipher E ⟨defaultCipher, own⟩ d peer m iv with
          | none => rfl
          | some r =>
            rw [hec, Option.bind_some] at h
            rw [Option.bind_some, h]
            rfl
      · revert hy; revert y; sentail
    · intro c f2 sb hf2 _ hsb
      obtain ⟨o, r3, ho⟩ := ecdh_key_view (Has.sub (has_of hq) s2)
      obtain ⟨pb, r4, hpb⟩ := key_pub_view ho
      obtain ⟨s', r5, hs'⟩ := hs_self_view (Has.sub ha s1)
      sread r5
      sread r3
      sread r4
      refine Triple.lend (h := h') (P := isBuf c sb) (by frame) fun h2 h'' hc e2 s3 s4 => ?_
      sstep hResponseCreate_view f2 h'' pb c s' v.self own.pub sb required (Has.sub hpb s3) (Has.sub (has_of hc) s4) (Has.sub hs' s3)
      intro r f3 hf3
      refine Triple.giveBack e2 hc (by frame) ?_
      refine Triple.giveBack e1 hq (by frame) ?_
      sdestroy hFreeUnpacked_spec laxest x _ (fun _ _ => trivial)
      intro f4 hf4
      sdestroy hEcdhDestroy_spec laxest q _
      intro f5 hf5
      sdestroy hBufDestroy_spec (Or.inr trivial)
      intro f6 hf6
      have up : f3 = true → f6 = true := fun h => hf6 (hf5 (hf4 h))
      have hval : f2 = false → hsMakeResponse E v rk own peer iv required =
          (responseCreate own.pub sb (if required then some v.self else none)).map .response := by
        intro hf
        have h1 := hsb hf
        unfold respSealed at h1
        obtain ⟨m, hm, h2⟩ := Option.bind_eq_some_iff.1 h1
        obtain ⟨r, hr, h3⟩ := Option.bind_eq_some_iff.1 h2
        unfold hsMakeResponse
        rw [hd, Option.bind_some, hm, Option.bind_some, hr, Option.bind_some, h3]
        rfl
      cases r with
      | none =>
        dsimp only [responded]
        sintro
        rename_i hf
        refine Triple.ret fun y hy => ?_
        refine Asrt.star_mono_r (P := keep h) (F := junk (f3 = true) ∗ spill f2) (fun z hz => Asrt.pure_star.2
          ⟨?_, junk_star (junk_mono up) (spill_junk fun h => up (hf3 h)) z hz⟩) ?_
        · rcases hf with hf | hf
          · exact Or.inl (up hf)
          · cases f2 with
            | true => exact Or.inl (up (hf3 rfl))
            | false => exact Or.inr (by rw [hval rfl, hf]; rfl)
        · revert hy; revert y; sentail
      | some r =>
        dsimp only [responded]
        sintro
        rename_i m hm
        refine Triple.ret fun y hy => ?_
        refine Asrt.star_mono_r (P := keep h) (F := isResp r own.pub sb m ∗ spill f2) (fun z hz => ⟨(own.pub, sb, m), Asrt.pure_star.2
          ⟨⟨hm.1, fun hf => ?_⟩, Asrt.star_mono_r (spill_junk fun h => up (hf3 h)) hz⟩⟩) ?_
        · revert hy; revert y; sentail
        · rw [hval (oom_back hf3 (oom_back up hf)), hm.2 (oom_back up hf)]
          rfl

end Wickr
