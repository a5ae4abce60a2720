import Verif.Lemmas.SepBuffer
import Verif.Model.HeapObj
/-
Keys, signatures, identities and chains on the heap.
-/
namespace Wickr
open Asrt

macro_rules | `(tactic| sarg) => `(tactic| exact Or.inr (by assumption))



theorem hKeyCreate_spec (c : Rules) (f : Bool) (hc : c.crash) (q : Addr) (p : Ptr) (cv : Curve) (b : Bytes) (v : Option Bytes) :
    Triple c f (isBuf q b ∗ optRep isBuf p v) (hKeyCreate cv (some q) p) (fun r _ => made isKey ⟨cv, b, v⟩ r) := by
  unfold hKeyCreate
  sgo


theorem hKeyCopy_keep (c : Rules) (f : Bool) (hc : c.crash) (a : Addr) (k : EcKey) (hp : c.pub k.pub) (h : Heap) (hx : isKey a k h) :
    Triple c f (keep h) (hKeyCopy (some a)) (fun r f' => keep h ∗ fresh isKey k r f') := by
  unfold hKeyCopy
  obtain ⟨cv, pub, pri⟩ := k
  skeep hx isKey
  skopt <;> sgo

theorem hKeyCopy_spec (c : Rules) (f : Bool) (hc : c.crash) (a : Addr) (k : EcKey) (hp : c.pub k.pub) :
    Triple c f (isKey a k) (hKeyCopy (some a)) (fun r f' => isKey a k ∗ fresh isKey k r f') :=
  Triple.owned fun h hx => hKeyCopy_keep c f hc a k hp h hx

theorem hKeyDestroy_spec (c : Rules) (a : Addr) (k : EcKey) : Destroys c (isKey a k) (hKeyDestroy (some a)) := by
  intro f
  unfold hKeyDestroy
  obtain ⟨cv, pub, pri⟩ := k
  sopen isKey
  sopt <;> sgo


theorem hSigCreate_spec (c : Rules) (f : Bool) (hc : c.crash) (q : Addr) (cv : Curve) (d : Digest) (b : Bytes) :
    Triple c f (isBuf q b) (hSigCreate cv d (some q)) (fun r _ => made isSig ⟨cv, d, b⟩ r) := by
  unfold hSigCreate
  sgo


theorem hSigCopy_keep (c : Rules) (f : Bool) (hc : c.crash) (a : Addr) (s : EcdsaResult) (h : Heap) (hx : isSig a s h) :
    Triple c f (keep h) (hSigCopy (some a)) (fun r f' => keep h ∗ fresh isSig s r f') := by
  unfold hSigCopy
  obtain ⟨cv, d, s⟩ := s
  skeep hx isSig
  sgo

theorem hSigCopy_spec (c : Rules) (f : Bool) (hc : c.crash) (a : Addr) (s : EcdsaResult) :
    Triple c f (isSig a s) (hSigCopy (some a)) (fun r f' => isSig a s ∗ fresh isSig s r f') :=
  Triple.owned fun h hx => hSigCopy_keep c f hc a s h hx

theorem hSigDestroy_spec {c : Rules} {a : Addr} {s : EcdsaResult} (hp : c.pub s.sig) :
    Destroys c (isSig a s) (hSigDestroy (some a)) := by
  intro f
  unfold hSigDestroy
  obtain ⟨cv, d, s⟩ := s
  sopen isSig
  sgo

theorem hBufLen_keep (a : Addr) (b : Bytes) (h : Heap) (hx : isBuf a b h) : Reads (keep h) (hBufLen (some a)) b.length := by
  intro c f
  unfold hBufLen
  skeep hx isBuf
  sgo

theorem hBufLen_reads (a : Addr) (b : Bytes) : Reads (isBuf a b) (hBufLen (some a)) b.length := by
  intro c f
  unfold hBufLen
  sopen isBuf
  sgo

theorem hBufLen_spec (a : Addr) (b : Bytes) : Reads (isBuf a b) (hBufLen (some a)) b.length := hBufLen_reads a b

theorem hIdCreate_spec (c : Rules) (f : Bool) (t : IdType) (q k : Addr) (p : Ptr) (b : Bytes) (key : EcKey)
    (s : Option EcdsaResult) (hb : b.length < 128) :
    Triple c f (isBuf q b ∗ isKey k key ∗ optRep isSig p s) (hIdCreate t (some q) (some k) p)
      (fun r f' => orKeep (isBuf q b ∗ isKey k key ∗ optRep isSig p s) isId ⟨t, b, key, s⟩ r f') := by
  unfold hIdCreate
  sgo

theorem hIdDestroy_spec {c : Rules} {a : Addr} {i : Identity} (hp : ∀ b ∈ i.publics, c.pub b) :
    Destroys c (isId a i) (hIdDestroy (some a)) := by
  intro f
  unfold hIdDestroy
  obtain ⟨t, b, key, s⟩ := i
  sopen isId
  sopt <;> simp [Identity.publics] at hp
  · sgo
  · obtain ⟨h1, h2, h3⟩ := hp
    sgo

macro_rules | `(tactic| sside) => `(tactic| (refine ⟨by simp_all [idLoss], by simp_all⟩))

theorem hIdCopy_keep (c : Rules) (f : Bool) (hc : c.crash) (a : Addr) (i : Identity) (hp : ∀ b ∈ i.publics, c.pub b) (h : Heap) (hx : isId a i h) :
    Triple c f (keep h) (hIdCopy (some a)) (fun r f' => keep h ∗ freshL isId idLoss i r f') := by
  unfold hIdCopy
  obtain ⟨t, b, key, s⟩ := i
  skeep hx isId
  skopt <;> simp [Identity.publics] at hp
  · sgo
  · obtain ⟨h1, h2, h3⟩ := hp
    sgo

theorem hIdCopy_spec (c : Rules) (f : Bool) (hc : c.crash) (a : Addr) (i : Identity) (hp : ∀ b ∈ i.publics, c.pub b) :
    Triple c f (isId a i) (hIdCopy (some a)) (fun r f' => isId a i ∗ freshL isId idLoss i r f') :=
  Triple.owned fun h hx => hIdCopy_keep c f hc a i hp h hx

/-! ### Chains -/

theorem hChainCreate_spec (c : Rules) (f : Bool) (r n : Addr) (i j : Identity) :
    Triple c f (isId r i ∗ isId n j) (hChainCreate (some r) (some n))
      (fun x f' => orKeep (isId r i ∗ isId n j) isChain ⟨i, j, .unknown, none⟩ x f') := by
  unfold hChainCreate
  sgo

theorem publics_of_loss {α : Type} {L : α → α → Prop} {pubs : α → List Bytes} {pub : Bytes → Prop} {v v' : α}
    (h : ∀ {v v'}, L v v' → ∀ b ∈ pubs v', b ∈ pubs v) (hl : L v v') (hp : ∀ b ∈ pubs v, pub b) : ∀ b ∈ pubs v', pub b :=
  fun b hb => hp b (h hl b hb)

theorem idLoss_publics {i i' : Identity} (h : idLoss i i') : ∀ b ∈ i'.publics, b ∈ i.publics := by
  rcases h with rfl | rfl
  · exact fun _ h => h
  · intro b hb
    simp [Identity.publics] at hb ⊢
    rcases hb with h | h <;> simp [h]

theorem hChainDestroy_spec {c : Rules} {a : Addr} {v : Chain} (hp : ∀ b ∈ v.publics, c.pub b) :
    Destroys c (isChain a v) (hChainDestroy (some a)) := by
  intro f
  unfold hChainDestroy
  obtain ⟨i, j, st, b⟩ := v
  sopen isChain
  simp [Chain.publics, or_imp, forall_and] at hp
  obtain ⟨h1, h2, h3⟩ := hp
  sopt <;> simp at h3 <;> sgo

macro_rules | `(tactic| sside) => `(tactic| (refine ⟨by simp_all [chainLoss], by grind⟩))
macro_rules | `(tactic| sarg) => `(tactic| exact publics_of_loss idLoss_publics (by assumption) (by assumption))

theorem hChainCopy_keep (c : Rules) (f : Bool) (hc : c.crash) (a : Addr) (v : Chain) (hp : ∀ b ∈ v.publics, c.pub b) (h : Heap) (hx : isChain a v h) :
    Triple c f (keep h) (hChainCopy (some a)) (fun r f' => keep h ∗ freshL isChain chainLoss v r f') := by
  unfold hChainCopy
  obtain ⟨i, j, st, b⟩ := v
  skeep hx isChain
  simp only [Chain.publics, List.mem_append, or_imp, forall_and] at hp
  obtain ⟨⟨h1, h2⟩, h3⟩ := hp
  skopt <;> simp at h3 <;> sgo <;> (sopen isChain; sopt <;> sgo)

theorem hChainCopy_spec (c : Rules) (f : Bool) (hc : c.crash) (a : Addr) (v : Chain) (hp : ∀ b ∈ v.publics, c.pub b) :
    Triple c f (isChain a v) (hChainCopy (some a)) (fun r f' => isChain a v ∗ freshL isChain chainLoss v r f') :=
  Triple.owned fun h hx => hChainCopy_keep c f hc a v hp h hx

/-! ### Cipher keys and results -/

theorem hCKeyCreate_spec (c : Rules) (f : Bool) (hc : c.crash) (q : Addr) (ci : Cipher) (b : Bytes) (hb : b.length = ci.keyLen) :
    Triple c f (isBuf q b) (hCKeyCreate ci (some q)) (fun r _ => made isCKey ⟨ci, b⟩ r) := by
  unfold hCKeyCreate
  sgo

theorem hCKeyCopy_keep (c : Rules) (f : Bool) (hc : c.crash) (a : Addr) (k : CipherKey) (h : Heap) (hx : isCKey a k h) :
    Triple c f (keep h) (hCKeyCopy (some a)) (fun r f' => keep h ∗ fresh isCKey k r f') := by
  unfold hCKeyCopy
  obtain ⟨ci, b⟩ := k
  skeep hx isCKey
  sgo

theorem hCKeyCopy_spec (c : Rules) (f : Bool) (hc : c.crash) (a : Addr) (k : CipherKey) :
    Triple c f (isCKey a k) (hCKeyCopy (some a)) (fun r f' => isCKey a k ∗ fresh isCKey k r f') :=
  Triple.owned fun h hx => hCKeyCopy_keep c f hc a k h hx

theorem hCKeyDestroy_spec (c : Rules) (a : Addr) (k : CipherKey) : Destroys c (isCKey a k) (hCKeyDestroy (some a)) := by
  intro f
  unfold hCKeyDestroy
  obtain ⟨ci, b⟩ := k
  sopen isCKey
  sgo

theorem CipherResult.ok_iff (r : CipherResult) : r.Ok ↔ cipherResultCreate r.cipher r.iv r.ct r.tag = some r := by
  obtain ⟨c, iv, ct, tag⟩ := r
  unfold cipherResultCreate CipherResult.Ok
  cases tag <;> cases c <;> simp [Cipher.isAuth, and_comm]

theorem hCResCreate_spec (c : Rules) (f : Bool) (hc : c.crash) (ci : Cipher) (q : Addr) (p t : Ptr) (iv : Bytes)
    (ct tag : Option Bytes) (ho : CipherResult.Ok ⟨ci, iv, ct, tag⟩) :
    Triple c f (isBuf q iv ∗ optRep isBuf p ct ∗ optRep isBuf t tag) (hCResCreate ci (some q) p t)
      (fun r _ => made isCRes ⟨ci, iv, ct, tag⟩ r) := by
  unfold hCResCreate
  obtain ⟨h1, h2, h3⟩ := id ho
  dsimp at h1 h2 h3
  sopt <;> try have h3 := h3 _ rfl
  all_goals sgo

theorem hCResDestroy_spec {c : Rules} {a : Addr} {r : CipherResult} (hp : ∀ b ∈ r.publics, c.pub b) :
    Destroys c (isCRes a r) (hCResDestroy (some a)) := by
  intro f
  unfold hCResDestroy
  obtain ⟨ci, iv, ct, tag⟩ := r
  sopen isCRes
  simp [CipherResult.publics, or_imp, forall_and] at hp
  obtain ⟨h1, h2, h3⟩ := hp
  sopt <;> simp at h2 h3 <;> sgo

macro_rules | `(tactic| sside) => `(tactic| (refine ⟨by simp_all [cresLoss], by grind⟩))

theorem cresLoss_publics {r r' : CipherResult} (h : cresLoss r r') : ∀ b ∈ r'.publics, b ∈ r.publics := by
  rcases h with rfl | rfl
  · exact fun _ h => h
  · intro b hb
    simp [CipherResult.publics] at hb ⊢
    rcases hb with h | h <;> simp [h]

macro_rules | `(tactic| sarg) => `(tactic| exact publics_of_loss cresLoss_publics (by assumption) (by assumption))

theorem hCResCopy_keep (c : Rules) (f : Bool) (hc : c.crash) (a : Addr) (r : CipherResult) (h : Heap) (hx : isCRes a r h) :
    Triple c f (keep h) (hCResCopy (some a)) (fun p f' => keep h ∗ leaky isCRes cresLoss r p f') := by
  unfold hCResCopy
  obtain ⟨ci, iv, ct, tag⟩ := r
  skeep hx isCRes
  have ho : CipherResult.Ok ⟨ci, iv, ct, tag⟩ := by assumption
  obtain ⟨h1, h2, h3⟩ := id ho
  dsimp at h1 h2 h3
  have key : ∀ q t h, tag = some t → isBuf q t h → ci.isAuth = true := by
    intro q t h ht hb
    have h3 := h3 _ ht
    have := (isBuf_valid hb).1
    cases ci
    · rfl
    · simp [Cipher.tagLen] at h3
      simp [h3] at this
  skopt
  case' none.some.none.some | some.some.some.some =>
    have h3 := h3 _ rfl
    have hi := key _ _ _ rfl (by assumption)
  all_goals clear key
  all_goals sgo
  all_goals (unfold hCResCreate; sgo)

theorem hCResCopy_spec (c : Rules) (f : Bool) (hc : c.crash) (a : Addr) (r : CipherResult) :
    Triple c f (isCRes a r) (hCResCopy (some a)) (fun p f' => isCRes a r ∗ leaky isCRes cresLoss r p f') :=
  Triple.owned fun h hx => hCResCopy_keep c f hc a r h hx

/-! ### Ephemeral key pairs -/

theorem hEphCreate_spec (c : Rules) (f : Bool) (n : UInt64) (k : Addr) (p : Ptr) (key : EcKey) (s : Option EcdsaResult) :
    Triple c f (isKey k key ∗ optRep isSig p s) (hEphCreate n (some k) p)
      (fun r f' => orKeep (isKey k key ∗ optRep isSig p s) isEph ⟨n, key, s⟩ r f') := by
  unfold hEphCreate
  sgo

theorem hEphDestroy_spec {c : Rules} {a : Addr} {e : EphKey} (hp : ∀ b ∈ e.publics, c.pub b) :
    Destroys c (isEph a e) (hEphDestroy (some a)) := by
  intro f
  unfold hEphDestroy
  obtain ⟨n, key, s⟩ := e
  sopen isEph
  simp [EphKey.publics] at hp
  sopt <;> simp at hp <;> sgo

theorem hEphCopy_keep (c : Rules) (f : Bool) (hc : c.crash) (a : Addr) (e : EphKey) (hp : ∀ b ∈ e.publics, c.pub b) (h : Heap) (hx : isEph a e h) :
    Triple c f (keep h) (hEphCopy (some a)) (fun r f' => keep h ∗ fresh isEph e r f') := by
  unfold hEphCopy
  obtain ⟨n, key, s⟩ := e
  skeep hx isEph
  simp [EphKey.publics] at hp
  skopt <;> simp at hp <;> sgo

theorem hEphCopy_spec (c : Rules) (f : Bool) (hc : c.crash) (a : Addr) (e : EphKey) (hp : ∀ b ∈ e.publics, c.pub b) :
    Triple c f (isEph a e) (hEphCopy (some a)) (fun r f' => isEph a e ∗ fresh isEph e r f') :=
  Triple.owned fun h hx => hEphCopy_keep c f hc a e hp h hx

/-! ### Nodes -/

theorem chainLoss_publics {v v' : Chain} (h : chainLoss v v') : ∀ b ∈ v'.publics, b ∈ v.publics := by
  obtain ⟨h1, h2, -, h4⟩ := h
  intro b hb
  simp only [Chain.publics, List.mem_append, h4] at hb ⊢
  rcases hb with (hb | hb) | hb
  · exact Or.inl (Or.inl (idLoss_publics h1 b hb))
  · exact Or.inl (Or.inr (idLoss_publics h2 b hb))
  · exact Or.inr hb

macro_rules | `(tactic| sside) => `(tactic| (refine ⟨by simp_all [nodeLoss], by grind⟩))
macro_rules | `(tactic| sarg) => `(tactic| exact publics_of_loss chainLoss_publics (by assumption) (by assumption))

theorem hNodeCreate_spec (c : Rules) (f : Bool) (d ch : Addr) (p : Ptr) (b : Bytes) (v : Chain) (e : Option EphKey) :
    Triple c f (isBuf d b ∗ isChain ch v ∗ optRep isEph p e) (hNodeCreate (some d) (some ch) p)
      (fun r f' => orKeep (isBuf d b ∗ isChain ch v ∗ optRep isEph p e) isNode ⟨b, v, e, .unknown, none⟩ r f') := by
  unfold hNodeCreate
  sgo

theorem hNodeDestroy_spec {c : Rules} {a : Addr} {v : Node} (hp : ∀ b ∈ v.publics, c.pub b) :
    Destroys c (isNode a v) (hNodeDestroy (some a)) := by
  intro f
  unfold hNodeDestroy
  obtain ⟨d, ch, e, st, b⟩ := v
  sopen isNode
  simp only [Node.publics, List.mem_append, List.mem_cons, or_imp, forall_and, forall_eq] at hp
  obtain ⟨⟨⟨h1, h2⟩, h3⟩, h4⟩ := hp
  sopt <;> simp at h3 h4 <;> sgo

theorem hNodeCopy_keep (c : Rules) (f : Bool) (hc : c.crash) (a : Addr) (v : Node) (hp : ∀ b ∈ v.publics, c.pub b) (h : Heap) (hx : isNode a v h) :
    Triple c f (keep h) (hNodeCopy (some a)) (fun r f' => keep h ∗ freshL isNode nodeLoss v r f') := by
  unfold hNodeCopy
  obtain ⟨d, ch, e, st, b⟩ := v
  skeep hx isNode
  simp only [Node.publics, List.mem_append, List.mem_cons, or_imp, forall_and, forall_eq] at hp
  obtain ⟨⟨⟨h1, h2⟩, h3⟩, h4⟩ := hp
  skopt <;> simp at h3 h4 <;> sgo <;> (sopen isNode; sopt <;> sgo)

theorem hNodeCopy_spec (c : Rules) (f : Bool) (hc : c.crash) (a : Addr) (v : Node) (hp : ∀ b ∈ v.publics, c.pub b) :
    Triple c f (isNode a v) (hNodeCopy (some a)) (fun r f' => isNode a v ∗ freshL isNode nodeLoss v r f') :=
  Triple.owned fun h hx => hNodeCopy_keep c f hc a v hp h hx

end Wickr
