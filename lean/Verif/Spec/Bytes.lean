import Verif.Model.Basic
/-
Specification vocabulary about byte strings, independent of the model of any C function.
-/
namespace Wickr.Spec

/-- `r` is the section of `b` that starts at offset `start` and has `len` bytes. -/
def IsSection (b : Bytes) (start len : Nat) (r : Bytes) : Prop :=
  r.length = len ∧ ∀ i, i < len → r[i]? = b[start + i]?

/-- `b'` is `b` with the bytes at offsets `start .. start+len-1` replaced by the first `len`
bytes of `src`, and nothing else changed. -/
def IsOverwrite (b src : Bytes) (start len : Nat) (b' : Bytes) : Prop :=
  b'.length = b.length ∧
  (∀ i, i < len → b'[start + i]? = src[i]?) ∧
  (∀ i, i < start ∨ start + len ≤ i → b'[i]? = b[i]?)

end Wickr.Spec
