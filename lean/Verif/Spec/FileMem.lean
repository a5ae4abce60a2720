import Verif.Model.HeapFile
import Verif.Spec.File
import Verif.Spec.Compute
/-
What a call of a file function owes its caller in memory, said about runs; what is in the output buffer when it is released.
-/
namespace Wickr

/-- The sizes of what the EVP functions deliver: assumption about OpenSSL. -/
structure Evp.Fits (V : Evp) : Prop where
  enc : ∀ (st st' : V.Enc) (b out : Bytes), V.encUpdate st b = some (st', out) → out.length = b.length
  dec : ∀ (st st' : V.Dec) (b out : Bytes), V.decUpdate st b = some (st', out) → out.length = b.length
  tag : ∀ st : V.Enc, (V.encTag st).length = 16
  md : ∀ (d : Digest) (cs : List Bytes), (V.mdFinal (cs.foldl V.mdUpdate (V.mdInit d))).length = d.size

/-- The assumption can be met. -/
theorem toyEvp_fits : toyEvp.Fits where
  enc st st' b out h := by simp only [toyEvp, Option.some.injEq] at h; have := congrArg (fun p => p.2.length) h; simpa using this.symm
  dec st st' b out h := by simp only [toyEvp, Option.some.injEq] at h; have := congrArg (fun p => p.2.length) h; simpa using this.symm
  tag st := by simp [toyEvp]
  md d cs := by rw [toyEvp_md]; simp [toyEvp]

namespace Spec

variable {α : Type}

/-- Whatever the allocator does: there is no undefined behaviour; NULL is dereferenced only after an allocation has failed; every
block that was there is as it was, and if no allocation failed nothing else is in memory; the answer is as `Q` says (given whether
an allocation failed). -/
def Answers (args : Heap → Prop) (Q : α → Bool → Prop) (m : H α) : Prop :=
  ∀ (A : Alloc) (s : St), s.oom = false → args s.heap →
    match m A s with
    | .ub => False
    | .crash s' => s'.oom = true
    | .ret r s' => (∀ a, s.heap a ≠ none → s'.heap a = s.heap a) ∧ (s'.oom = false → s'.heap = s.heap) ∧ Q r s'.oom

/-- Memory is afterwards what it was before, even if allocations failed. -/
def LeavesNothing (args : Heap → Prop) (m : H α) : Prop :=
  ∀ (A : Alloc) (s : St), s.oom = false → args s.heap → ∀ r s', m A s = .ret r s' → s'.heap = s.heap

/-- Every block of bytes that is released holds only zeros or something public. -/
def ReleasesWiped (args : Heap → Prop) (pub : Bytes → Prop) (m : H α) : Prop :=
  ∀ (A : Alloc) (s : St), s.oom = false → args s.heap →
    match m A s with
    | .ub => False
    | .crash s' | .ret _ s' => ∀ b ∈ s'.log, b ∈ s.log ∨ Wiped b ∨ pub b

/-- What is in a buffer after pieces were written to its beginning one after the other. -/
def overlay (buf : Bytes) (outs : List Bytes) : Bytes := outs.foldl (fun b o => o ++ b.drop o.length) buf

/-- The outputs of the single steps of an encryption. -/
def encSteps (V : Evp) : V.Enc → List Bytes → List Bytes
  | _, [] => []
  | st, c :: cs =>
    match V.encUpdate st c with
    | none => []
    | some (st', out) => out :: encSteps V st' cs

/-- The outputs of the single steps of a decryption. -/
def decSteps (V : Evp) : V.Dec → List Bytes → List Bytes
  | _, [] => []
  | st, c :: cs =>
    match V.decUpdate st c with
    | none => []
    | some (st', out) => out :: decSteps V st' cs

/-- A buffer in which only outputs of the encryption have been left. -/
def EncBuffer (V : Evp) (st : V.Enc) (content junk b : Bytes) : Prop :=
  ∃ cs : List Bytes, cs.flatten <+: content ∧ b = overlay junk (encSteps V st cs)

/-- A buffer in which outputs of the decryption have been left. -/
def DecBuffer (V : Evp) (st : V.Dec) (body junk b : Bytes) : Prop :=
  ∃ cs : List Bytes, cs.flatten <+: body ∧ b = overlay junk (decSteps V st cs)

/-- What decrypting a file may release: pieces of the encrypted file, and the output buffer with the decrypted pieces that were
left in it. -/
def DecReleases (V : Evp) (key : CipherKey) (content junk b : Bytes) : Prop :=
  b <:+: content ∨ ∃ (c : Cipher) (iv : Bytes) (tag : Option Bytes) (body : Bytes),
    (c.id :: iv ++ optBytes tag) ++ body = content ∧ DecBuffer V (V.decInit c key.key iv tag) body junk b

/-- What encrypting a file may release: pieces of the header, with the tag that was in the memory of its buffer at first or with
that of the whole content, a tag of zeros, and the output buffer with the encrypted pieces that were left in it. -/
def EncReleases (V : Evp) (key : CipherKey) (iv fresh content junk b : Bytes) : Prop :=
  b <:+: key.cipher.id :: iv ++ fresh ∨ b = List.replicate key.cipher.tagLen 0 ∨
  (∃ cs st out, cs.flatten = content ∧ V.encRun (V.encInit key.cipher key.key iv) cs = some (st, out) ∧
    b <:+: key.cipher.id :: iv ++ V.encTag st) ∨
  EncBuffer V (V.encInit key.cipher key.key iv) content junk b

/-- An encrypted file whose header has never got its tag: `fresh` is what was in the memory of the tag. -/
def staleImage (P : Prim) (key : CipherKey) (iv fresh content : Bytes) : Bytes :=
  match key.cipher with
  | .gcm => 0 :: iv ++ fresh ++ (P.gcm key.key iv none content).1
  | .ctr => fileImage P key iv content

/-- What an operation on paths may do to the file system, `x` being its answer, the last state and all the states before it:
nothing but the destination and the temporary file changes; the destination changes only if the operation reports success, and
then at once into what `new` says, which it is at the end. -/
def Installs (dst : Bytes) (fs : Fs) (new : Bytes → Prop) (x : Bool × Fs × List Fs) : Prop :=
  (∀ s ∈ x.2.1 :: x.2.2, (∀ p, p ≠ dst → p ≠ tempPath dst → s p = fs p) ∧
    (s dst = fs dst ∨ (x.1 = true ∧ ∃ b, s dst = some b ∧ new b))) ∧
  (x.1 = true → ∃ b, x.2.1 dst = some b ∧ new b)

end Spec

end Wickr
