import Verif.Spec.Compute
import Verif.Spec.Identity
import Verif.Model.Ctx
/-
What becomes of an object that is written in one process and read in another, whatever the allocators do.
-/
namespace Wickr.Spec
open Wickr Asrt

/-- `t` is the signature `s`, or lacks bytes at its beginning. -/
def SigCut (s t : Option EcdsaResult) : Prop :=
  t = s ∨ ∃ v n, s = some v ∧ t = some { v with sig := v.sig.drop n }

/-- The same identity, but for missing bytes of the signature. -/
def IdButSig (i j : Identity) : Prop :=
  j.type = i.type ∧ j.identifier = i.identifier ∧ j.key = i.key ∧ SigCut i.sig j.sig

/-- The same chain, but for missing bytes of signatures. -/
def ChainButSig (c d : Chain) : Prop :=
  IdButSig c.root d.root ∧ IdButSig c.node d.node ∧ d.status = c.status ∧ d.cache = c.cache

/-- The same ephemeral key pair, but for missing bytes of the signature. -/
def EphButSig (k l : EphKey) : Prop := l.identifier = k.identifier ∧ l.key = k.key ∧ SigCut k.sig l.sig

/-- The same node, but for missing bytes of signatures. -/
def NodeButSig (m n : Node) : Prop :=
  n.devId = m.devId ∧ ChainButSig m.chain n.chain ∧ n.status = m.status ∧ n.cache = m.cache ∧
    match m.eph, n.eph with
    | none, none => True
    | some k, some l => EphButSig k l
    | _, _ => False

/-- The same context, but for missing bytes of signatures. -/
def CtxButSig (c d : Ctx) : Prop :=
  d.dev = c.dev ∧ ChainButSig c.chain d.chain ∧ d.storage = c.storage ∧ d.headerKey = c.headerKey ∧ d.version = c.version

variable {V : Type}

/-- `w` writes an object and `rd` reads it, each with an allocator of its own and from a memory of its own (`extra`: what else is in the
second one).  Where there is a written object and an object is read from it, that is one that `same` allows; it is `v` if no allocation
failed when it was written.  Nothing is read only if an allocation failed in one of the two. -/
def ReadsBack (args extra : Heap → Prop) (same : V → Prop) (v : V) (R : Addr → V → Asrt) (w : H Ptr) (rd : Ptr → H Ptr) : Prop :=
  ∀ (A : Alloc) (s : St), s.oom = false → args s.heap →
    match w A s with
    | .ub => False
    | .crash s' => s'.oom = true
    | .ret none s' => s'.oom = true
    | .ret (some q) s' => ∃ b, Has isBuf s'.heap q b ∧
      ∀ (A' : Alloc) (t : St) (p : Addr), t.oom = false → Has isBuf t.heap p b ∧ extra t.heap →
        match rd (some p) A' t with
        | .ub => False
        | .crash t' => t'.oom = true
        | .ret none t' => s'.oom = true ∨ t'.oom = true
        | .ret (some r) t' => ∃ u, Has R t'.heap r u ∧ same u ∧ (s'.oom = false → u = v)

/-- The same where what is read takes over an object. -/
def ReadsBackInto {U : Type} (args extra : Heap → Prop) (same : V → Prop) (v : V) (R₀ : Addr → U → Asrt) (d : Addr) (u₀ : U)
    (R : Addr → V → Asrt) (w : H Ptr) (rd : Ptr → H Ptr) : Prop :=
  ∀ (A : Alloc) (s : St), s.oom = false → args s.heap →
    match w A s with
    | .ub => False
    | .crash s' => s'.oom = true
    | .ret none s' => s'.oom = true
    | .ret (some q) s' => ∃ b, Has isBuf s'.heap q b ∧
      ∀ (A' : Alloc) (t : St) (h : Heap) (p : Addr), t.oom = false → Has isBuf h p b ∧ extra h → (R₀ d u₀ ∗ keep h) t.heap →
        match rd (some p) A' t with
        | .ub => False
        | .crash t' => t'.oom = true
        | .ret none t' => s'.oom = true ∨ t'.oom = true
        | .ret (some r) t' => ∃ u, (R r u ∗ keep h) t'.heap ∧ same u ∧ (s'.oom = false → u = v)

/-- What `w` writes can be read in any memory, if allocations do not fail there. -/
def KeepsReadable (args : Heap → Prop) (w : H Ptr) (rd : Ptr → H Ptr) : Prop :=
  ∀ (A : Alloc) (s : St), s.oom = false → args s.heap →
    match w A s with
    | .ret (some q) s' => ∃ b, Has isBuf s'.heap q b ∧ ∀ (A' : Alloc) (t : St) (p : Addr), t.oom = false → Has isBuf t.heap p b →
      match rd (some p) A' t with
      | .ret none t' => t'.oom = true
      | _ => True
    | _ => True

end Wickr.Spec
