import Verif.Model.HeapMessage
import Verif.Lemmas.SepMessage
import Verif.Lemmas.SepCtx
/-
Key exchanges: making them and deriving what they wrap.
-/
set_option linter.unusedVariables false
namespace Wickr
open Asrt Spec

theorem hKxInfo_view (c : Rules) (f : Bool) (h : Heap) (a p q : Addr) (s : Chain) (r : Node) (v : UInt8)
    (ha : Has isChain h a s) (hp : Has isChain h p r.chain) (hq : Has isBuf h q r.devId) :
    Triple c f (keep h) (hKxInfo (some a) (some p) (some q) v) (fun x f' => keep h ∗ gives isBuf (kxInfo s r v) x f') := by
  unfold hKxInfo kxInfo
  obtain ⟨d, ch, e, st, ca⟩ := r
  dsimp only at *
  obtain ⟨⟨t1, i1, ⟨c1, pb1, pr1⟩, s1⟩, n1, st1, ca1⟩ := s
  obtain ⟨⟨t2, i2, ⟨c2, pb2, pr2⟩, s2⟩, n2, st2, ca2⟩ := ch
  by_cases h2 : v = 2
  · rw [if_pos h2, if_pos h2, dup_of (has_valid hq)]
    vgo
  · rw [if_neg h2, if_neg h2]
    by_cases h3 : v = 3 ∨ v = 4
    · rw [if_pos h3, if_pos h3]
      sview ha isChain
      sview hp isChain
      sviews isId
      sviews isKey
      vgo
    · rw [if_neg h3, if_neg h3]
      vgo

theorem hKxMetaMake_spec (c : Rules) (f : Bool) (hl : c.lax) (al : KdfAlgo) (p : Ptr) (q : Addr) (s : Option Bytes) (i : Bytes)
    (hk : al.kind = .hkdf) (hi : c.pub i) :
    Triple c f (optRep isBuf p s ∗ isBuf q i) (hKxMetaMake al p (some q)) (fun r f' => emp ∗ fresh isKdfMeta ⟨al, s, some i⟩ r f') := by
  unfold hKxMetaMake
  have ho : KdfMeta.Ok ⟨al, s, some i⟩ := by unfold KdfMeta.Ok; simp [hk]
  sopt <;> sgo

/-- The parameters of a key exchange. -/
theorem kxMeta_eq (s : Chain) (r : Node) (psk : Option Bytes) (v : UInt8) (he : r.eph.isSome) (hp : ∀ x, psk = some x → ValidBuf x) :
    kxMeta s r psk v = (kxAlgo v).bind fun a => (kxInfo s r v).map fun i => ⟨a, psk, some i⟩ := by
  unfold kxMeta kxAlgo
  obtain ⟨e, he⟩ := Option.isSome_iff_exists.1 he
  rw [he]
  simp only [Option.isNone_some, Bool.false_eq_true, if_false]
  rw [dupOpt_of hp]
  unfold kdfMetaCreate
  split
  · cases kxInfo s r v <;> simp [hkdfSha256]
  · split
    · cases kxInfo s r v <;> simp [hkdfSha512]
    · simp

theorem kxAlgo_hkdf {v : UInt8} {a : KdfAlgo} (h : kxAlgo v = some a) : a.kind = .hkdf := by
  unfold kxAlgo at h
  split at h
  · cases h; rfl
  · split at h
    · cases h; rfl
    · cases h

theorem hKxMeta_view (c : Rules) (f : Bool) (hl : c.lax) (h : Heap) (a p q : Addr) (k : Ptr) (s : Chain) (r : Node) (psk : Option Bytes)
    (v : UInt8) (he : r.eph.isSome) (hi : ∀ i, kxInfo s r v = some i → c.pub i)
    (ha : Has isChain h a s) (hp : Has isChain h p r.chain) (hq : Has isBuf h q r.devId) (hk : HasOpt isBuf h k psk) :
    Triple c f (keep h) (hKxMeta (some a) (some p) (some q) k v) (fun x f' => keep h ∗ gives isKdfMeta (kxMeta s r psk v) x f') := by
  unfold hKxMeta
  have hv : ∀ x, psk = some x → ValidBuf x := by
    rintro x rfl
    cases k with
    | none => exact hk.elim
    | some k => exact has_valid hk
  rw [kxMeta_eq s r psk v he hv]
  cases hal : kxAlgo v with
  | none => vgo
  | some al =>
    have := kxAlgo_hkdf hal
    dsimp only [Option.bind_some]
    svopt <;> vgo

theorem kxMeta_publics {s : Chain} {r : Node} {psk : Option Bytes} {v : UInt8} {m : KdfMeta} (he : r.eph.isSome)
    (hp : ∀ x, psk = some x → ValidBuf x) (h : kxMeta s r psk v = some m) : ∀ y ∈ m.publics, kxInfo s r v = some y := by
  rw [kxMeta_eq s r psk v he hp] at h
  simp only [Option.bind_eq_some_iff, Option.map_eq_some_iff] at h
  obtain ⟨a, -, i, hi, rfl⟩ := h
  intro y hy
  simp only [KdfMeta.publics, Option.toList_some, List.mem_singleton] at hy
  rw [hi, hy]

/-- The data of an exchange, sealed. -/
def kxSealed (E : Engine) (s : Chain) (r : Node) (peer exKey : EcKey) (data : Bytes) (ci : Cipher) (psk : Option Bytes) (v : UInt8)
    (iv : Bytes) : Option CipherResult :=
  (kxMeta s r psk v).bind fun m => ecdhCipher E ⟨ci, exKey⟩ data peer m iv

theorem optHas_valid {h : Heap} {k : Ptr} {psk : Option Bytes} (hk : HasOpt isBuf h k psk) : ∀ x, psk = some x → ValidBuf x := by
  rintro x rfl
  cases k with
  | none => exact hk.elim
  | some k => exact has_valid hk

theorem hKxSeal_view (hE : E.Fits) (c : Rules) (f : Bool) (hc : c.crash) (hl : c.lax) (h : Heap) (a p q pe x d : Addr) (k : Ptr) (s : Chain)
    (r : Node) (peer exKey : EcKey) (data : Bytes) (ci : Cipher) (psk : Option Bytes)
    (v : UInt8) (iv : Bytes) (he : r.eph.isSome) (hi : ∀ i, kxInfo s r v = some i → c.pub i) (hx' : c.pub exKey.pub)
    (hr : ∀ y, kxSealed E s r peer exKey data ci psk v iv = some y → ∀ z ∈ y.publics, c.pub z)
    (ha : Has isChain h a s) (hp : Has isChain h p r.chain) (hq : Has isBuf h q r.devId) (hpe : Has isKey h pe peer)
    (hx : Has isKey h x exKey) (hd : Has isBuf h d data) (hk : HasOpt isBuf h k psk) :
    Triple c f (keep h) (hKxSeal E (some a) (some p) (some q) (some pe) (some x) (some d) ci k v iv)
      (fun y f' => keep h ∗ givesN isCRes (kxSealed E s r peer exKey data ci psk v iv) y f') := by
  unfold hKxSeal
  unfold kxSealed at *
  have hv := optHas_valid hk
  have hmp : ∀ m, kxMeta s r psk v = some m → ∀ y ∈ m.publics, c.pub y := fun m hm y hy => hi y (kxMeta_publics he hv hm y hy)
  have hee : ∀ m, kxMeta s r psk v = some m → ∀ ky, ecdhCipherKey E ⟨ci, exKey⟩ peer m = some ky →
      ∀ y, E.encrypt data none ky iv = some y → ∀ z ∈ y.publics, c.pub z := fun m hm ky hky y hy =>
    hr y (by rw [hm]; simp [ecdhCipher, hky, hy])
  clear hr
  vgo

theorem kxCreateWithData_eq {h : Heap} {x i : Addr} {s : Chain} {r : Node} {e : EphKey} {exKey : EcKey} {data : Bytes} {ci : Cipher}
    {psk : Option Bytes} {v : UInt8} {iv : Bytes} (he : r.eph = some e) (hx : Has isKey h x exKey) (hi : Has isBuf h i r.chain.node.identifier) :
    kxCreateWithData E s r exKey data ci psk v iv = (kxSealed E s r e.key exKey data ci psk v iv).map fun y =>
      ⟨r.chain.node.identifier, e.identifier, y⟩ := by
  unfold kxCreateWithData kxSealed
  rw [he]
  dsimp only
  have hk : ecKeyCopy exKey = some exKey := by
    obtain ⟨cv, pub, pri⟩ := exKey
    sview hx isKey
    unfold ecKeyCopy
    rename_i h1 h2
    simp [dup_of (has_valid h1), dupOpt_of (optHas_valid h2)]
  rw [hk, dup_of (has_valid hi)]
  cases kxMeta s r psk v with
  | none => rfl
  | some m => dsimp only [Option.bind_some]; cases ecdhCipher E _ _ _ _ _ <;> rfl

theorem hKxCreateWithData_view (hE : E.Fits) (c : Rules) (f : Bool) (hc : c.crash) (hl : c.lax) (h : Heap) (a n x d : Addr) (k : Ptr)
    (s : Chain) (r : Node) (exKey : EcKey) (data : Bytes) (ci : Cipher) (psk : Option Bytes) (v : UInt8) (iv : Bytes)
    (hi : ∀ i, kxInfo s r v = some i → c.pub i) (hx' : c.pub exKey.pub)
    (hr : ∀ y, kxCreateWithData E s r exKey data ci psk v iv = some y → ∀ z ∈ y.publics, c.pub z)
    (ha : Has isChain h a s) (hn : Has isNode h n r) (hx : Has isKey h x exKey) (hd : Has isBuf h d data) (hk : HasOpt isBuf h k psk) :
    Triple c f (keep h) (hKxCreateWithData E (some a) (some n) (some x) (some d) ci k v iv)
      (fun y f' => keep h ∗ givesN isEx (kxCreateWithData E s r exKey data ci psk v iv) y f') := by
  unfold hKxCreateWithData
  obtain ⟨dv, ch, e, st, ca⟩ := r
  sview hn isNode
  rename_i w1 w2 w3 w4 hcell hdv hch heph hca
  cases w3 with
  | none =>
    cases e with
    | some e => exact heph.elim
    | none =>
      have hz : kxCreateWithData E s ⟨dv, ch, none, st, ca⟩ exKey data ci psk v iv = none := rfl
      rw [hz]
      vgo
  | some w3 =>
    cases e with
    | none => exact heph.elim
    | some e =>
      have hch' : Has isChain h w2 ch := hch
      have heph' : Has isEph h w3 e := heph
      have hcid : ∃ w, Has isBuf h w ch.node.identifier := by
        obtain ⟨t1, ⟨t2, i2, k2, s2⟩, st1, ca1⟩ := ch
        sview hch isChain
        sviews isId
        exact ⟨_, by assumption⟩
      obtain ⟨w5, hw5⟩ := hcid
      have eq := kxCreateWithData_eq (E := E) (s := s) (r := ⟨dv, ch, some e, st, ca⟩) (e := e) (data := data) (ci := ci) (psk := psk)
        (v := v) (iv := iv) rfl hx hw5
      rw [eq] at hr ⊢
      clear eq
      obtain ⟨ei, ek, es⟩ := e
      dsimp only at *
      have hr1 : ∀ y, kxSealed E s ⟨dv, ch, some ⟨ei, ek, es⟩, st, ca⟩ ek exKey data ci psk v iv = some y → ∀ z ∈ y.publics, c.pub z :=
        fun y hy z hz => hr _ (by rw [hy]; rfl) z (List.mem_cons_of_mem _ hz)
      have hr2 : ∀ y, kxSealed E s ⟨dv, ch, some ⟨ei, ek, es⟩, st, ca⟩ ek exKey data ci psk v iv = some y → c.pub ch.node.identifier :=
        fun y hy => hr _ (by rw [hy]; rfl) _ (List.mem_cons_self ..)
      clear hr
      obtain ⟨t1, ⟨t2, i2, k2, s2⟩, st1, ca1⟩ := ch
      sview hch isChain
      sviews isId
      clear heph
      sview heph' isEph
      unfold onNull
      sgo1
      dsimp only
      sgo1
      sgo1
      sgo1
      sstep hKxSeal_view hE c f hc hl h a w2 w1 _ x d k s ⟨dv, ⟨t1, ⟨t2, i2, k2, s2⟩, st1, ca1⟩, some ⟨ei, ek, es⟩, st, ca⟩ ek exKey data ci psk v iv rfl hi hx' hr1
        ha hch' hdv (by assumption) hx hd hk
      clear hi
      revert hr1 hr2
      generalize kxSealed E s _ ek exKey data ci psk v iv = z
      intro hr1 hr2 y f1 _
      cases y with
      | none => dsimp only [givesN]; sintro; vgo
      | some y =>
        dsimp only [givesN]
        sintro
        rename_i w hw
        subst hw
        have hr3 := hr1 w rfl
        have hr4 := hr2 w rfl
        clear hr1 hr2
        vgo

theorem hKxCreateWithKey_view (hE : E.Fits) (c : Rules) (f : Bool) (hc : c.crash) (hl : c.lax) (h : Heap) (a n x d : Addr) (k : Ptr)
    (s : Chain) (r : Node) (exKey : EcKey) (pk : CipherKey) (psk : Option Bytes) (v : UInt8) (iv : Bytes)
    (hi : ∀ i, kxInfo s r v = some i → c.pub i) (hx' : c.pub exKey.pub)
    (hr : ∀ y, kxCreateWithKey E s r exKey pk psk v iv = some y → ∀ z ∈ y.publics, c.pub z)
    (ha : Has isChain h a s) (hn : Has isNode h n r) (hx : Has isKey h x exKey) (hd : Has isCKey h d pk) (hk : HasOpt isBuf h k psk) :
    Triple c f (keep h) (hKxCreateWithKey E (some a) (some n) (some x) (some d) k v iv)
      (fun y f' => keep h ∗ givesN isEx (kxCreateWithKey E s r exKey pk psk v iv) y f') := by
  unfold hKxCreateWithKey
  unfold kxCreateWithKey at *
  have hd' := hd
  obtain ⟨ci, kb⟩ := pk
  have hr' : ∀ b, cipherKeySerialize ⟨ci, kb⟩ = some b → ∀ y, kxCreateWithData E s r exKey b (exchangeCipherMatchingCipher ci) psk v iv = some y →
      ∀ z ∈ y.publics, c.pub z := fun b hb y hy z hz => hr y (by rw [hb]; exact hy) z hz
  clear hr
  sview hd' isCKey
  vgo

/-- What is derived from an exchange. -/
theorem kxDeriveData_eq {h : Heap} {o : Addr} {s : Chain} {r : Node} {e : EphKey} {exKey : EcKey} {x : KeyExchange}
    {psk : Option Bytes} {v : UInt8} (he : r.eph = some e) (ho : Has isKey h o e.key) :
    kxDeriveData E s r exKey x psk v = (kxMeta s r psk v).bind fun m => ecdhDecipher E ⟨x.ct.cipher, e.key⟩ x.ct exKey m := by
  unfold kxDeriveData
  rw [he]
  dsimp only
  have hk : ecKeyCopy e.key = some e.key := by
    obtain ⟨ei, ⟨cv, pub, pri⟩, es⟩ := e
    dsimp only at ho
    sview ho isKey
    unfold ecKeyCopy
    rename_i h1 h2
    simp [dup_of (has_valid h1), dupOpt_of (optHas_valid h2)]
  rw [hk]
  rfl

theorem hKxDeriveData_view (hE : E.Fits) (c : Rules) (f : Bool) (hc : c.crash) (hl : c.lax) (h : Heap) (a p q o x y : Addr) (k : Ptr)
    (s : Chain) (r : Node) (e : EphKey) (exKey : EcKey) (ex : KeyExchange) (psk : Option Bytes) (v : UInt8)
    (he : r.eph = some e) (hi : ∀ i, kxInfo s r v = some i → c.pub i) (ho' : c.pub e.key.pub)
    (ha : Has isChain h a s) (hp : Has isChain h p r.chain) (hq : Has isBuf h q r.devId) (ho : Has isKey h o e.key)
    (hx : Has isKey h x exKey) (hy : Has isEx h y ex) (hk : HasOpt isBuf h k psk) :
    Triple c f (keep h) (hKxDeriveData E (some a) (some p) (some q) (some o) (some x) (some y) k v)
      (fun z f' => keep h ∗ givesN isBuf (kxDeriveData E s r exKey ex psk v) z f') := by
  rw [kxDeriveData_eq he ho]
  unfold hKxDeriveData
  have hv := optHas_valid hk
  have he' : r.eph.isSome := by rw [he]; rfl
  have hmp : ∀ m, kxMeta s r psk v = some m → ∀ y ∈ m.publics, c.pub y := fun m hm y hy => hi y (kxMeta_publics he' hv hm y hy)
  obtain ⟨ei, en, ec⟩ := ex
  dsimp only
  have hy' := hy
  sview hy' isEx
  rename_i hec
  obtain ⟨cc, c2, c3, c4⟩ := ec
  have hec' := hec
  sview hec' isCRes
  vgo

theorem hKxDeriveKey_view (hE : E.Fits) (c : Rules) (f : Bool) (hc : c.crash) (hl : c.lax) (h : Heap) (a p q o x y : Addr) (k : Ptr)
    (s : Chain) (r : Node) (e : EphKey) (exKey : EcKey) (ex : KeyExchange) (psk : Option Bytes) (v : UInt8)
    (he : r.eph = some e) (hi : ∀ i, kxInfo s r v = some i → c.pub i) (ho' : c.pub e.key.pub)
    (ha : Has isChain h a s) (hp : Has isChain h p r.chain) (hq : Has isBuf h q r.devId) (ho : Has isKey h o e.key)
    (hx : Has isKey h x exKey) (hy : Has isEx h y ex) (hk : HasOpt isBuf h k psk) :
    Triple c f (keep h) (hKxDeriveKey E (some a) (some p) (some q) (some o) (some x) (some y) k v)
      (fun z f' => keep h ∗ givesN isCKey (kxDeriveKey E s r exKey ex psk v) z f') := by
  unfold hKxDeriveKey kxDeriveKey
  vgo

theorem hKxNodeData_view (hE : E.Fits) (c : Rules) (f : Bool) (hc : c.crash) (hl : c.lax) (h : Heap) (a n x y : Addr) (k : Ptr)
    (s : Chain) (r : Node) (exKey : EcKey) (ex : KeyExchange) (psk : Option Bytes) (v : UInt8)
    (hi : ∀ i, kxInfo s r v = some i → c.pub i) (ho' : ∀ e, r.eph = some e → c.pub e.key.pub)
    (ha : Has isChain h a s) (hn : Has isNode h n r) (hx : Has isKey h x exKey) (hy : Has isEx h y ex) (hk : HasOpt isBuf h k psk) :
    Triple c f (keep h) (hKxNodeData E (some a) (some n) (some x) (some y) k v)
      (fun z f' => keep h ∗ givesN isBuf (kxDeriveData E s r exKey ex psk v) z f') := by
  unfold hKxNodeData
  dsimp only
  obtain ⟨dv, rc, eph, st, ca⟩ := r
  sview hn isNode
  have hrc := ‹Has isChain h _ rc›
  have hdv := ‹Has isBuf h _ dv›
  have hn' := ‹h n = _›
  have heph := ‹HasOpt isEph h _ eph›
  sread field_view hn' (by rfl)
  revert heph hn'
  rename_i _ _ w _ _ _ _ _ _
  intro hn' heph
  cases w with
  | none =>
    cases eph with
    | some e => exact heph.elim
    | none =>
      unfold kxDeriveData
      vgo
  | some w =>
    cases eph with
    | none => exact heph.elim
    | some e =>
      have he : Has isEph h w e := heph
      obtain ⟨en, ek, es⟩ := e
      sview he isEph
      have hek := ‹Has isKey h _ ek›
      sread field_view (by assumption) (by rfl)
      sread field_view hn' (by rfl)
      sread field_view hn' (by rfl)
      exact hKxDeriveData_view hE c f hc hl h a _ _ _ x y k s ⟨dv, rc, some ⟨en, ek, es⟩, st, ca⟩ ⟨en, ek, es⟩ exKey ex psk v rfl hi
        (ho' _ rfl) ha hrc hdv hek hx hy hk

theorem hKxNodeKey_view (hE : E.Fits) (c : Rules) (f : Bool) (hc : c.crash) (hl : c.lax) (h : Heap) (a n x y : Addr) (k : Ptr)
    (s : Chain) (r : Node) (exKey : EcKey) (ex : KeyExchange) (psk : Option Bytes) (v : UInt8)
    (hi : ∀ i, kxInfo s r v = some i → c.pub i) (ho' : ∀ e, r.eph = some e → c.pub e.key.pub)
    (ha : Has isChain h a s) (hn : Has isNode h n r) (hx : Has isKey h x exKey) (hy : Has isEx h y ex) (hk : HasOpt isBuf h k psk) :
    Triple c f (keep h) (hKxNodeKey E (some a) (some n) (some x) (some y) k v)
      (fun z f' => keep h ∗ givesN isCKey (kxDeriveKey E s r exKey ex psk v) z f') := by
  unfold hKxNodeKey kxDeriveKey
  vgo

end Wickr
