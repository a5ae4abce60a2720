import Verif.Lemmas.SepHsRes
import Verif.Lemmas.Witness
import Verif.Props.HandshakeMem
/-
C97: copies of the keys a handshake ends with.
-/
namespace Wickr
open Asrt Spec

theorem hsKeysKeep : KeepSpec (V := HsKeys) (fun v => ⟨(· ∈ v.localKey.publics ++ v.remoteKey.publics), True, False⟩) isHsKeys (fun _ => True)
    (fun v => fresh isHsKeys v) hResCopy := fun a v _ f h hx => hResCopy_keep _ f trivial a v (fun _ h => h) h hx

/-- `wickr_transport_handshake_res_copy` makes a separate object with the same keys and leaves the original alone. -/
theorem C97_keys_copy : CopySafe isHsKeys (fun _ => True) id hResCopy :=
  CopySafe.of (KeepSpec.wasteful (KeepSpec.leaky (KeepSpec.freshL hsKeysKeep)))

/-- The copy has the same keys even if allocations fail on the way. -/
theorem C97_keys_copy_faithful : CopyFaithful isHsKeys (fun _ => True) id hResCopy :=
  CopyFaithful.of (KeepSpec.wasteful (KeepSpec.leaky (KeepSpec.freshL hsKeysKeep)))

/-- A copy that fails leaves nothing behind. -/
theorem C97_keys_copy_no_leak : CopyNoLeak isHsKeys (fun _ => True) hResCopy := CopyNoLeak.of (KeepSpec.freshL hsKeysKeep)

/-- Releasing the copy restores the memory. -/
theorem C97_keys_copy_undone : CopyUndone isHsKeys (fun _ => True) hResCopy hResDestroy :=
  CopyUndone.of (KeepSpec.leaky (KeepSpec.freshL hsKeysKeep)) C97_keys_destroy (fun _ _ _ _ => trivial)

/-- No key is released unwiped by a copy, whether it fails or not. -/
theorem C97_keys_copy_wipes : Wipes isHsKeys (fun _ => True) (fun v => v.localKey.publics ++ v.remoteKey.publics) hResCopy :=
  Wipes.of hsKeysKeep

def mkHsKeys : H Ptr := do
  let k ← mkSKey
  let l ← mkSKey
  onNull (alloc (.obj .plain [none, none])) (do store none (Cell.raw 0); pure none) fun p => do
    store p (.obj .plain [k, l])
    pure p

abbrev exHsKeys : HsKeys := ⟨exSKey, exSKey⟩

theorem mkHsKeys_spec (c : Rules) (f : Bool) (hc : c.crash) : Triple c f emp mkHsKeys (fun r _ => made isHsKeys exHsKeys r) := by
  unfold mkHsKeys
  sgo

/-- C97, refuted for lack of memory: a copy dereferences NULL when there is none for a cipher key. -/
theorem C97_keys_copy_crashes : ¬ CopyNoCrash isHsKeys (fun _ => True) hResCopy :=
  not_noCrash [19] trivial (mkHsKeys_spec _ _ trivial) (by decide +kernel)

/-- Keys in memory. -/
example : ∃ (s : St) (a : Addr), s.oom = false ∧ Has isHsKeys s.heap a exHsKeys := exists_has (mkHsKeys_spec _ _ trivial) (by decide +kernel)

end Wickr
