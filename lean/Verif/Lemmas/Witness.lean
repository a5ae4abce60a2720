import Verif.Lemmas.MemorySpecs
/-
Concrete objects in memory, and concrete allocators: they show that the statements about memory are not about nothing, and refute
what does not hold.
-/
set_option linter.unusedVariables false
namespace Wickr
open Asrt Spec

/-- The n-th block is at address n; the allocations in `fail` fail. -/
def bump (fail : List Nat) : Alloc where
  pick h n := if n ∈ fail then none else if (h n).isNone then some n else none
  fresh h n a := by
    intro hp
    split at hp
    · exact nomatch hp
    · split at hp
      · obtain rfl := Option.some.inj hp
        simpa using (‹_› : (h n).isNone = true)
      · exact nomatch hp

def St.init : St := ⟨fun _ => none, 0, false, []⟩

/-- Memory after a program has run without failures. -/
def built (m : H Ptr) : Option (Addr × St) :=
  match m (bump []) St.init with
  | .ret (some a) s => if s.oom then none else some (a, s)
  | _ => none

/-- What may be done in building an example. -/
def free4all : Rules := { pub := fun _ => True, crash := True }

theorem built_has {V : Type} {R : Addr → V → Asrt} {v : V} {m : H Ptr} {a : Addr} {s : St}
    (hm : Triple free4all false emp m (fun r _ => made R v r)) (hb : built m = some (a, s)) :
    s.oom = false ∧ Has R s.heap a v := by
  have := hm (bump []) St.init emp rfl ⟨_, _, fun _ => Or.inl rfl, rfl, rfl, rfl⟩
  unfold built at hb
  cases hr : m (bump []) St.init with
  | ub => rw [hr] at hb; exact nomatch hb
  | crash s' => rw [hr] at hb; exact nomatch hb
  | ret r s' =>
    rw [hr] at this hb
    obtain ⟨hq, -, -⟩ := this
    cases r with
    | none => exact nomatch hb
    | some b =>
      dsimp only at hb
      split at hb
      · exact nomatch hb
      · rename_i ho
        obtain ⟨rfl, rfl⟩ := Prod.mk.inj (Option.some.inj hb)
        exact ⟨by simpa using ho, Asrt.le_star (Asrt.le_refl _) (Asrt.le_any _) _ hq⟩

theorem exists_has {V : Type} {R : Addr → V → Asrt} {v : V} {m : H Ptr}
    (hm : Triple free4all false emp m (fun r _ => made R v r)) (hb : (built m).isSome = true) :
    ∃ (s : St) (a : Addr), s.oom = false ∧ Has R s.heap a v := by
  obtain ⟨⟨a, s⟩, he⟩ := Option.isSome_iff_exists.1 hb
  exact ⟨s, a, built_has hm he⟩

section
variable {V : Type} {R : Addr → V → Asrt} {v : V} {m : H Ptr} {ok : V → Prop} {copy destroy : Ptr → H Ptr}

def Out.isCrash : Out α → Bool
  | .crash _ => true
  | _ => false

theorem not_noCrash (fail : List Nat) (ho : ok v) (hm : Triple free4all false emp m (fun r _ => made R v r))
    (hb : (match built m with
      | some (a, s) => (copy (some a) (bump fail) s).isCrash
      | none => false) = true) : ¬ CopyNoCrash R ok copy := by
  intro h
  split at hb
  · rename_i a s he
    obtain ⟨h1, h2⟩ := built_has hm he
    have := h (bump fail) s a v ho h1 h2
    revert this hb
    cases copy (some a) (bump fail) s with
    | crash s' => exact fun _ h => h s' rfl
    | ub => exact fun h => nomatch h
    | ret _ _ => exact fun h => nomatch h
  · exact nomatch hb

/-- Whether a failed copy left something at address `x`. -/
def Out.left (x : Addr) (s : St) : Out Ptr → Bool
  | .ret none s' => decide (s'.heap x ≠ s.heap x)
  | _ => false

theorem not_noLeak (fail : List Nat) (x : Addr) (ho : ok v) (hm : Triple free4all false emp m (fun r _ => made R v r))
    (hb : (match built m with
      | some (a, s) => (copy (some a) (bump fail) s).left x s
      | none => false) = true) : ¬ CopyNoLeak R ok copy := by
  intro h
  split at hb
  · rename_i a s he
    obtain ⟨h1, h2⟩ := built_has hm he
    have := h (bump fail) s a v
    revert this hb
    cases copy (some a) (bump fail) s with
    | crash s' => exact fun h => nomatch h
    | ub => exact fun h => nomatch h
    | ret r s' =>
      cases r with
      | some _ => exact fun h => nomatch h
      | none =>
        intro hb h
        exact (of_decide_eq_true hb) (by rw [h s' ho h1 h2 rfl])
  · exact nomatch hb

/-- Whether `probe` finds something missing in the copy. -/
def Out.lacks (probe : Ptr → H Bool) (A : Alloc) : Out Ptr → Bool
  | .ret (some b) s' => match probe (some b) A s' with
    | .ret true _ => true
    | _ => false
  | _ => false

theorem not_faithful {probe : Ptr → H Bool} {img : V → V} (fail : List Nat) (ho : ok v)
    (hm : Triple free4all false emp m (fun r _ => made R v r)) (hp : ∀ b, Reads (R b (img v)) (probe (some b)) false)
    (hb : (match built m with
      | some (a, s) => (copy (some a) (bump fail) s).lacks probe (bump [])
      | none => false) = true) : ¬ CopyFaithful R ok img copy := by
  intro h
  split at hb
  · rename_i a s he
    obtain ⟨h1, h2⟩ := built_has hm he
    have := h (bump fail) s a v
    revert this hb
    cases copy (some a) (bump fail) s with
    | crash s' => exact fun h => nomatch h
    | ub => exact fun h => nomatch h
    | ret r s' =>
      cases r with
      | none => exact fun h => nomatch h
      | some b =>
        intro hb h
        have h3 := h b s' ho h1 h2 rfl
        have := hp b free4all s'.oom (bump []) s' Asrt.any rfl h3
        revert this hb
        unfold Out.lacks
        dsimp only
        cases probe (some b) (bump []) s' with
        | ub => exact fun h => nomatch h
        | crash _ => exact fun h => nomatch h
        | ret x s'' =>
          cases x with
          | false => exact fun h => nomatch h
          | true =>
            rintro - ⟨hq, -, -⟩
            rw [Asrt.star_assoc] at hq
            exact absurd (Asrt.pure_star.1 hq).1.1 (by simp)
  · exact nomatch hb

/-- Whether something is left at address `x` when the copy is released. -/
def Out.remains (destroy : Ptr → H Ptr) (A : Alloc) (x : Addr) (s : St) : Out Ptr → Bool
  | .ret (some b) s' => match destroy (some b) A s' with
    | .ret none s'' => decide (s''.heap x ≠ s.heap x)
    | _ => false
  | _ => false

theorem not_undone (fail : List Nat) (x : Addr) (ho : ok v) (hm : Triple free4all false emp m (fun r _ => made R v r))
    (hb : (match built m with
      | some (a, s) => (copy (some a) (bump fail) s).remains destroy (bump []) x s
      | none => false) = true) : ¬ CopyUndone R ok copy destroy := by
  intro h
  split at hb
  · rename_i a s he
    obtain ⟨h1, h2⟩ := built_has hm he
    have := h (bump fail) (bump []) s a v
    revert this hb
    cases copy (some a) (bump fail) s with
    | crash s' => exact fun h => nomatch h
    | ub => exact fun h => nomatch h
    | ret r s' =>
      cases r with
      | none => exact fun h => nomatch h
      | some b =>
        intro hb h
        obtain ⟨s'', h3, h4⟩ := h b s' ho h1 h2 rfl
        simp only [Out.remains, h3] at hb
        exact (of_decide_eq_true hb) (by rw [h4])
  · exact nomatch hb

/-- Whether something that is neither wiped nor in `pubs` was released. -/
def Out.spilled (pubs : List Bytes) (s : St) : Out Ptr → Bool
  | .ret _ s' => s'.log.any fun b => !(decide (b ∈ s.log)) && !(b.all (· == 0)) && !(decide (b ∈ pubs))
  | .crash s' => s'.log.any fun b => !(decide (b ∈ s.log)) && !(b.all (· == 0)) && !(decide (b ∈ pubs))
  | .ub => false

theorem not_wipes {pubs : V → List Bytes} (fail : List Nat) (ho : ok v)
    (hm : Triple free4all false emp m (fun r _ => made R v r))
    (hb : (match built m with
      | some (a, s) => (copy (some a) (bump fail) s).spilled (pubs v) s
      | none => false) = true) : ¬ Wipes R ok pubs copy := by
  intro h
  split at hb
  · rename_i a s he
    obtain ⟨h1, h2⟩ := built_has hm he
    have := h (bump fail) s a v ho h1 h2
    have key : ∀ s' : St, (s'.log.any fun b => !(decide (b ∈ s.log)) && !(b.all (· == 0)) && !(decide (b ∈ pubs v))) = true →
        ¬ ∀ b ∈ s'.log, b ∈ s.log ∨ Wiped b ∨ b ∈ pubs v := by
      intro s' ha hall
      obtain ⟨b, hb, hx⟩ := List.any_eq_true.1 ha
      rcases hall b hb with h | h | h
      · simp [h] at hx
      · unfold Wiped at h
        simp at hx
        obtain ⟨⟨-, x, hm, hn⟩, -⟩ := hx
        exact hn (h x hm)
      · simp [h] at hx
    revert this hb
    cases copy (some a) (bump fail) s with
    | ub => exact fun h => nomatch h
    | crash s' => exact fun h h' => key s' h h'
    | ret r s' => exact fun h h' => key s' h h'
  · exact nomatch hb
end

/-- Follows pointers; whether the last one is NULL. -/
def probe : List Nat → Ptr → H Bool
  | [], p => pure p.isNone
  | i :: r, p => do
    let q ← field p i
    probe r q

/-! ### Examples -/

local macro "dead!" : term => `((do store none (Cell.raw 0); Pure.pure none : H Ptr))

macro_rules | `(tactic| sside) => `(tactic| assumption)
macro_rules | `(tactic| sarg) => `(tactic| (decide; done))
macro_rules | `(tactic| sarg) => `(tactic| (intros; decide; done))

def litBuf (b : Bytes) : H Ptr := onNull (hBufCreate b) dead! fun p => pure p

theorem litBuf_spec (c : Rules) (f : Bool) (hc : c.crash) (b : Bytes) (hb : 0 < b.length ∧ b.length ≤ 1000) :
    Triple c f emp (litBuf b) (fun r _ => made isBuf b r) := by
  have hv : ValidBuf b := ⟨hb.1, Nat.le_trans hb.2 (by decide)⟩
  unfold litBuf
  have := hBufCreate_spec c f b
  have h2 : Triple c f emp (hBufCreate b) (fun r f' => fresh isBuf b r f') := by
    refine Triple.conseq this (fun _ h => h) ?_
    intro r f' z _ hz
    cases r with
    | none => exact ⟨hz.1.resolve_right (fun h => h hv), hz.2⟩
    | some a => exact hz
  refine Triple.onNull' h2 ?_ ?_
  · intro f' _ hf'; subst hf'; sgo
  · intro q f' _; sgo

def mkKey : H Ptr := do
  let b ← litBuf [1]
  let p ← litBuf [2]
  hKeyCreate .p521 b p

abbrev exKey : EcKey := ⟨.p521, [1], some [2]⟩

theorem mkKey_spec (c : Rules) (f : Bool) (hc : c.crash) : Triple c f emp mkKey (fun r _ => made isKey exKey r) := by
  unfold mkKey
  sgo

def mkSig : H Ptr := do
  let b ← litBuf [3]
  hSigCreate .p521 .sha512 b

abbrev exSig : EcdsaResult := ⟨.p521, .sha512, [3]⟩

theorem mkSig_spec (c : Rules) (f : Bool) (hc : c.crash) : Triple c f emp mkSig (fun r _ => made isSig exSig r) := by
  unfold mkSig
  sgo

def mkId : H Ptr := do
  let b ← litBuf [4]
  let k ← mkKey
  let s ← mkSig
  onNull (hIdCreate .root b k s) dead! fun p => pure p

abbrev exId : Identity := ⟨.root, [4], exKey, some exSig⟩

theorem mkId_spec (c : Rules) (f : Bool) (hc : c.crash) : Triple c f emp mkId (fun r _ => made isId exId r) := by
  unfold mkId
  sgo

def mkChain : H Ptr := do
  let r ← mkId
  let n ← mkId
  onNull (hChainCreate r n) dead! fun p => pure p

abbrev exChain : Chain := ⟨exId, exId, .unknown, none⟩

theorem mkChain_spec (c : Rules) (f : Bool) (hc : c.crash) : Triple c f emp mkChain (fun r _ => made isChain exChain r) := by
  unfold mkChain
  sgo

def mkEph : H Ptr := do
  let k ← mkKey
  let s ← mkSig
  onNull (hEphCreate 7 k s) dead! fun p => pure p

abbrev exEph : EphKey := ⟨7, exKey, some exSig⟩

theorem mkEph_spec (c : Rules) (f : Bool) (hc : c.crash) : Triple c f emp mkEph (fun r _ => made isEph exEph r) := by
  unfold mkEph
  sgo

def mkNode : H Ptr := do
  let d ← litBuf [5]
  let c ← mkChain
  let e ← mkEph
  onNull (hNodeCreate d c e) dead! fun p => pure p

abbrev exNode : Node := ⟨[5], exChain, some exEph, .unknown, none⟩

theorem mkNode_spec (c : Rules) (f : Bool) (hc : c.crash) : Triple c f emp mkNode (fun r _ => made isNode exNode r) := by
  unfold mkNode
  sgo

def mkCKey : H Ptr := do
  let b ← litBuf (List.replicate 32 9)
  hCKeyCreate .gcm b

abbrev exCKey : CipherKey := ⟨.gcm, List.replicate 32 9⟩

theorem mkCKey_spec (c : Rules) (f : Bool) (hc : c.crash) : Triple c f emp mkCKey (fun r _ => made isCKey exCKey r) := by
  unfold mkCKey
  sgo

def mkCRes : H Ptr := do
  let i ← litBuf (List.replicate 12 1)
  let b ← litBuf [6]
  let t ← litBuf (List.replicate 16 2)
  hCResCreate .gcm i b t

abbrev exCRes : CipherResult := ⟨.gcm, List.replicate 12 1, some [6], some (List.replicate 16 2)⟩

theorem mkCRes_spec (c : Rules) (f : Bool) (hc : c.crash) : Triple c f emp mkCRes (fun r _ => made isCRes exCRes r) := by
  unfold mkCRes
  have ho : CipherResult.Ok ⟨.gcm, List.replicate 12 1, some [6], some (List.replicate 16 2)⟩ :=
    ⟨by decide, by decide, by rintro s ⟨⟩; decide⟩
  sgo

def mkInfo : H Ptr := do
  let b ← litBuf [8]
  hInfoCreate 1 2 b 3

abbrev exInfo : PktInfo := ⟨1, 2, [8], 3⟩

theorem mkInfo_spec (c : Rules) (f : Bool) (hc : c.crash) : Triple c f emp mkInfo (fun r _ => made isInfo exInfo r) := by
  unfold mkInfo
  sgo

def mkPayload : H Ptr := do
  let i ← mkInfo
  let b ← litBuf [10]
  onNull (hPayloadCreate i b) dead! fun p => pure p

abbrev exPayload : Payload := ⟨exInfo, [10]⟩

theorem mkPayload_spec (c : Rules) (f : Bool) (hc : c.crash) : Triple c f emp mkPayload (fun r _ => made isPayload exPayload r) := by
  unfold mkPayload
  sgo

def mkEx : H Ptr := do
  let b ← litBuf [11]
  let r ← mkCRes
  hExCreate b 7 r

abbrev exEx : KeyExchange := ⟨[11], 7, exCRes⟩

theorem mkEx_spec (c : Rules) (f : Bool) (hc : c.crash) : Triple c f emp mkEx (fun r _ => made isEx exEx r) := by
  unfold mkEx
  sgo

def mkPacket : H Ptr := do
  let b ← litBuf [12]
  let g ← mkSig
  onNull (hPacketCreate 4 b g) dead! fun p => pure p

abbrev exPacket : Msg := ⟨4, [12], exSig⟩

theorem mkPacket_spec (c : Rules) (f : Bool) (hc : c.crash) : Triple c f emp mkPacket (fun r _ => made isPacket exPacket r) := by
  unfold mkPacket
  sgo

def mkEnc : H Ptr := do
  let k ← mkCKey
  let m ← mkPacket
  onNull (hEncCreate k m) dead! fun p => pure p

abbrev exEnc : Encoded := ⟨exCKey, exPacket⟩

theorem mkEnc_spec (c : Rules) (f : Bool) (hc : c.crash) : Triple c f emp mkEnc (fun r _ => made isEnc exEnc r) := by
  unfold mkEnc
  sgo

def mkDec : H Ptr := do
  let v ← mkPayload
  let k ← mkCKey
  onNull (hDecCreate .success v k) dead! fun p => pure p

abbrev exDec : DecodeResult := ⟨.success, some exPayload, some exCKey⟩

theorem mkDec_spec (c : Rules) (f : Bool) (hc : c.crash) : Triple c f emp mkDec (fun r _ => made isDec exDec r) := by
  unfold mkDec
  sgo

def mkStorage : H Ptr := do
  let k ← mkCKey
  let l ← mkCKey
  onNull (hStorageCreate k l) dead! fun p => pure p

abbrev exStorage : StorageKeys := ⟨exCKey, exCKey⟩

theorem mkStorage_spec (c : Rules) (f : Bool) (hc : c.crash) : Triple c f emp mkStorage (fun r _ => made isStorage exStorage r) := by
  unfold mkStorage
  sgo

def mkRoot : H Ptr := do
  let r ← mkKey
  let k ← mkCKey
  let l ← mkCKey
  onNull (hRootCreate r k l) dead! fun p => pure p

abbrev exRoot : RootKeys := ⟨exKey, exCKey, exCKey⟩

theorem mkRoot_spec (c : Rules) (f : Bool) (hc : c.crash) : Triple c f emp mkRoot (fun r _ => made isRoot exRoot r) := by
  unfold mkRoot
  sgo

/-- Root keys whose signature key has no private part. -/
def mkRootPublic : H Ptr := do
  let b ← litBuf [1]
  let s ← hKeyCreate .p521 b none
  let k ← mkCKey
  let l ← mkCKey
  onNull (hRootCreate s k l) dead! fun p => pure p

abbrev exRootPublic : RootKeys := ⟨⟨.p521, [1], none⟩, exCKey, exCKey⟩

theorem mkRootPublic_spec (c : Rules) (f : Bool) (hc : c.crash) : Triple c f emp mkRootPublic (fun r _ => made isRoot exRootPublic r) := by
  unfold mkRootPublic
  sgo

def mkDev : H Ptr := do
  let p ← litBuf [13]
  let q ← litBuf [14]
  let r ← litBuf [15]
  let t ← litBuf [16]
  onNull (hDevCreate p q r t) dead! fun p => pure p

abbrev exDev : DevInfo := ⟨[13], some [14], [15], [16]⟩

theorem mkDev_spec (c : Rules) (f : Bool) (hc : c.crash) : Triple c f emp mkDev (fun r _ => made isDev exDev r) := by
  unfold mkDev
  sgo

def mkDevNoSalt : H Ptr := do
  let p ← litBuf [13]
  let r ← litBuf [15]
  let t ← litBuf [16]
  onNull (hDevCreate p none r t) dead! fun p => pure p

abbrev exDevNoSalt : DevInfo := ⟨[13], none, [15], [16]⟩

theorem mkDevNoSalt_spec (c : Rules) (f : Bool) (hc : c.crash) : Triple c f emp mkDevNoSalt (fun r _ => made isDev exDevNoSalt r) := by
  unfold mkDevNoSalt
  sgo

def mkKdfMeta : H Ptr := do
  let p ← litBuf (List.replicate 16 17)
  let q ← litBuf [18]
  onNull (hKdfMetaCreate scrypt17 p q) dead! fun p => pure p

abbrev exKdfMeta : KdfMeta := ⟨scrypt17, some (List.replicate 16 17), some [18]⟩

theorem mkKdfMeta_spec (c : Rules) (f : Bool) (hc : c.crash) : Triple c f emp mkKdfMeta (fun r _ => made isKdfMeta exKdfMeta r) := by
  unfold mkKdfMeta
  have ho : KdfMeta.Ok ⟨scrypt17, some (List.replicate 16 17), some [18]⟩ := ⟨by decide, by decide, by rintro s - ⟨⟩; decide⟩
  sgo

def mkKdfRes : H Ptr := do
  let m ← mkKdfMeta
  let b ← litBuf [19]
  onNull (hKdfResCreate m b) dead! fun p => pure p

abbrev exKdfRes : KdfResult := ⟨exKdfMeta, [19]⟩

theorem mkKdfRes_spec (c : Rules) (f : Bool) (hc : c.crash) : Triple c f emp mkKdfRes (fun r _ => made isKdfRes exKdfRes r) := by
  unfold mkKdfRes
  sgo

def mkSKey : H Ptr := do
  let k ← mkCKey
  let b ← litBuf [20]
  let u ← litBuf [21]
  onNull (hSKeyCreate k b 64 u) dead! fun p => pure p

abbrev exSKey : StreamKey := ⟨exCKey, [20], 64, some [21]⟩

theorem mkSKey_spec (c : Rules) (f : Bool) (hc : c.crash) : Triple c f emp mkSKey (fun r _ => made isSKey exSKey r) := by
  unfold mkSKey
  sgo

def mkSIv : H Ptr := do
  let b ← litBuf [22]
  onNull (alloc (.obj .plain [none])) dead! fun p => do
    store p (.obj (.iv .gcm 5) [b])
    pure p

abbrev exSIv : StreamIv := ⟨.gcm, [22], 5⟩

theorem mkSIv_spec (c : Rules) (f : Bool) (hc : c.crash) : Triple c f emp mkSIv (fun r _ => made isSIv exSIv r) := by
  unfold mkSIv
  sgo

def mkSCtx : H Ptr := do
  let k ← mkSKey
  let i ← mkSIv
  onNull (alloc (.obj .plain [none, none])) dead! fun p => do
    store p (.obj (.stream 3 .encode 1) [k, i])
    pure p

abbrev exSCtx : StreamCtx := ⟨exSKey, some exSIv, 3, .encode, 1⟩

theorem mkSCtx_spec (c : Rules) (f : Bool) (hc : c.crash) : Triple c f emp mkSCtx (fun r _ => made isSCtx exSCtx r) := by
  unfold mkSCtx
  sgo

def mkTRoot : H Ptr := do
  let b ← litBuf (List.replicate 32 23)
  onNull (hTRootCreate b .gcm 64 65) dead! fun p => pure p

abbrev exTRoot : RootKey := ⟨List.replicate 32 23, .gcm, 64, 65⟩

theorem mkTRoot_spec (c : Rules) (f : Bool) (hc : c.crash) : Triple c f emp mkTRoot (fun r _ => made isTRoot exTRoot r) := by
  unfold mkTRoot
  sgo

def mkEcdh : H Ptr := do
  let k ← mkKey
  onNull (hEcdhCreate k .gcm) dead! fun p => pure p

abbrev exEcdh : EcdhCtx := ⟨.gcm, exKey⟩

theorem mkEcdh_spec (c : Rules) (f : Bool) (hc : c.crash) : Triple c f emp mkEcdh (fun r _ => made isEcdh exEcdh r) := by
  unfold mkEcdh
  sgo

/-- An array of one item. -/
def litArr (x : Ptr) : H Ptr := onNull (hArrNew 1) dead! fun p => do
  let st ← field p 0
  let b ← field st 0
  setField b 0 x
  pure p

theorem litArr_spec {V : Type} {R : Addr → V → Asrt} (c : Rules) (f : Bool) (hc : c.crash) (q : Addr) (v : V) :
    Triple c f (R q v) (litArr (some q)) (fun r _ => made (isArr R) [some v] r) := by
  unfold litArr
  have h8 : 8 * 1 ≤ maxBuffer := by decide
  refine Triple.onNullF (hArrNew_spec c f 1 h8) (F := R q v) (Asrt.emp_star _).symm ?_ ?_
  · intro f' _ hf'; subst hf'; sgo
  · intro p f' _
    unfold isSlots
    sintro
    rename_i st
    cases st with
    | none =>
      unfold isStore
      refine Triple.pureAt (φ := 1 = 0 ∧ List.replicate 1 none = ([] : List Ptr)) (by frame) fun h => ?_
      exact absurd h.1 (by decide)
    | some st =>
      unfold isStore
      sintro
      simp only [List.replicate]
      sgo
      have e : items R [some q] [some v] = R q v := Asrt.star_emp _
      have key : ∀ b : Addr, ∀ z, ((b ↦ .obj .plain [some q]) ∗ (st ↦ .obj (.len (8 * 1)) [some b]) ∗
          (p ↦ .obj (.len 1) [some st]) ∗ R q v) z → (isSlots p 1 [some q] ∗ R q v) z := by
        intro b
        have hf : 1 ≠ 0 ∧ 8 * 1 ≤ maxBuffer ∧ [some q].length = 1 := ⟨by decide, h8, rfl⟩
        sentail
      refine Triple.ret fun z hz => ⟨[some q], ?_⟩
      dsimp only
      rw [e]
      exact key _ z hz

def mkNodes : H Ptr := do
  let x ← mkNode
  litArr x

abbrev exNodes : List (Option Node) := [some exNode]

theorem mkNodes_spec (c : Rules) (f : Bool) (hc : c.crash) : Triple c f emp mkNodes (fun r _ => made (isArr isNode) exNodes r) := by
  unfold mkNodes
  sgo

def mkExs : H Ptr := do
  let x ← mkEx
  litArr x

abbrev exExs : List (Option KeyExchange) := [some exEx]

theorem mkExs_spec (c : Rules) (f : Bool) (hc : c.crash) : Triple c f emp mkExs (fun r _ => made (isArr isEx) exExs r) := by
  unfold mkExs
  sgo

def mkSet : H Ptr := do
  let k ← mkKey
  let x ← mkExs
  onNull (hSetCreate k x) dead! fun p => pure p

abbrev exSet : KeyExchangeSet := ⟨exKey, exExs⟩

theorem mkSet_spec (c : Rules) (f : Bool) (hc : c.crash) : Triple c f emp mkSet (fun r _ => made isSet exSet r) := by
  unfold mkSet
  sgo

def mkParse : H Ptr := do
  let s ← mkSet
  let x ← mkEx
  let r ← mkCRes
  onNull (hParseCreate s x r .valid .success) dead! fun p => pure p

abbrev exParse : ParseResult := ⟨.success, .valid, some exSet, some exEx, some exCRes⟩

theorem mkParse_spec (c : Rules) (f : Bool) (hc : c.crash) : Triple c f emp mkParse (fun r _ => made isParse exParse r) := by
  unfold mkParse
  sgo

/-- Two objects. -/
def isPair {V W : Type} (R : Addr → V → Asrt) (v : V) (S : Addr → W → Asrt) (w : W) : Asrt := Asrt.ex fun p => Asrt.ex fun q => R p v ∗ S q w

/-- The outcome is regular and no allocation failed. -/
def Out.fine : Out α → Bool
  | .ret _ s => !s.oom
  | _ => false

theorem exists_sep {P : Asrt} {m : H Unit} (hm : Triple free4all false emp m (fun _ _ => P))
    (hb : (m (bump []) St.init).fine = true) : ∃ (s : St) (rest : Heap), s.oom = false ∧ (P ∗ keep rest) s.heap := by
  have := hm (bump []) St.init (keep fun _ => none) rfl ⟨_, _, fun _ => Or.inl rfl, rfl, rfl, rfl⟩
  revert this hb
  cases m (bump []) St.init with
  | ub => exact fun h => nomatch h
  | crash s' => exact fun h => nomatch h
  | ret r s' => exact fun hb h => ⟨s', _, by simpa [Out.fine] using hb, h.1⟩

theorem exists_pair {V W : Type} {R : Addr → V → Asrt} {v : V} {S : Addr → W → Asrt} {w : W} {m n : H Ptr}
    (hm : ∀ c f, c.crash → Triple c f emp m (fun r _ => made R v r)) (hn : ∀ c f, c.crash → Triple c f emp n (fun r _ => made S w r))
    (hb : ((do let _ ← m; let _ ← n; pure () : H Unit) (bump []) St.init).fine = true) :
    ∃ (s : St) (p q : Addr) (rest : Heap), s.oom = false ∧ ((R p v ∗ S q w) ∗ keep rest) s.heap := by
  have : Triple free4all false emp (do let _ ← m; let _ ← n; pure ()) (fun _ _ => isPair R v S w) := by
    refine Triple.bind (hm _ _ trivial) fun p f' _ => ?_
    cases p with
    | none => exact Triple.pure' fun h => h.elim
    | some p =>
      refine Triple.seq (F := R p v) (hn _ _ trivial) (Asrt.emp_star _).symm fun q f'' _ => ?_
      cases q with
      | none => exact Triple.pure fun h => h.elim
      | some q => exact Triple.ret fun z hz => ⟨p, q, by dsimp only; rw [Asrt.star_comm]; exact hz⟩
  obtain ⟨s, rest, h1, h2⟩ := exists_sep this hb
  unfold isPair at h2
  rw [Asrt.ex_star] at h2
  obtain ⟨p, h2⟩ := h2
  rw [Asrt.ex_star] at h2
  obtain ⟨q, h2⟩ := h2
  exact ⟨s, p, q, rest, h1, h2⟩

end Wickr
