import Verif.Spec.Repr
import Verif.Model.HeapText
/-
What texts and fingerprints look like in memory.
-/
namespace Wickr
open Asrt

/-- A buffer whose block is larger than its declared length, as texts are: the block is `t.mem`. -/
def isText (a : Addr) (t : CBuf) : Asrt := Asrt.ex fun (q : Addr) =>
  ⌜t.length ≤ t.mem.length⌝ ∗ (a ↦ .obj (.len t.length) [some q]) ∗ (q ↦ .bytes t.mem)

/-- A buffer with the content `b` whose block may be larger. -/
def isSlack (a : Addr) (b : Bytes) : Asrt := Asrt.ex fun (t : CBuf) => ⌜t.content = b⌝ ∗ isText a t

/-- A fingerprint. -/
def isFp (a : Addr) (f : Bytes) : Asrt := Asrt.ex fun (q : Addr) => (a ↦ .obj .plain [some q]) ∗ isBuf q f

end Wickr
