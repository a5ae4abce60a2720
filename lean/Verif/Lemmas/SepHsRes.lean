import Verif.Lemmas.SepHsLife
import Verif.Lemmas.MemorySpecs
/-
Copies of the keys a handshake ends with.
-/
namespace Wickr
open Asrt

theorem hResJoin_spec (c : Rules) (f : Bool) (p q : Addr) (x y : StreamKey) (h1 : ∀ b ∈ x.publics, c.pub b) (h2 : ∀ b ∈ y.publics, c.pub b) :
    Triple c f (isSKey p x ∗ isSKey q y) (hResJoin (some p) (some q)) (fun r f' => fresh isHsKeys ⟨x, y⟩ r f') := by
  unfold hResJoin onNull
  sstep hResCreate_spec c f p q x y
  intro r f1 hf1
  cases r with
  | none =>
    dsimp only
    sintro
    rename_i hf
    sdestroy hSKeyDestroy_spec (v := x) h1
    intro f2 hf2
    sdestroy hSKeyDestroy_spec (v := y) h2
    intro f3 hf3
    have := hf3 (hf2 hf)
    sgo
  | some u => sgo

theorem hResCopy_keep (c : Rules) (f : Bool) (hc : c.crash) (a : Addr) (v : HsKeys)
    (hp : ∀ b ∈ v.localKey.publics ++ v.remoteKey.publics, c.pub b) (h : Heap) (hx : isHsKeys a v h) :
    Triple c f (keep h) (hResCopy (some a)) (fun r f' => keep h ∗ fresh isHsKeys v r f') := by
  unfold hResCopy
  obtain ⟨k, l⟩ := v
  simp only [List.mem_append, or_imp, forall_and] at hp
  obtain ⟨h1, h2⟩ := hp
  skeep hx isHsKeys
  have e : hSKeyDestroy none = Pure.pure none := rfl
  sgo
  · show Triple _ _ _ (do let _ ← hSKeyDestroy none; let _ ← hSKeyDestroy _; Pure.pure none) _
    rw [e]
    sgo

end Wickr
