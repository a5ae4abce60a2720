import Verif.Spec.Identity
import Verif.Spec.Memory
import Verif.Model.HeapFun
/-
Chains and nodes in memory whose stored verification results tell the truth.
-/
namespace Wickr.Spec
open Wickr Asrt

/-- If the stored digest is the one of keys, signature and status, the status is true. -/
def ChainHonest (E : Engine) (c : Chain) : Prop := ∀ d s, c.cache = some d → c.node.sig = some s →
  E.digest (c.root.key.pub ++ s.sig ++ c.node.key.pub ++ [c.status.byte]) none .sha512 = some d →
  (c.status = .valid ↔ ChainGenuine E c)

/-- The same for a node and its chain. -/
def NodeHonest (E : Engine) (n : Node) : Prop := ChainHonest E n.chain ∧
  ∀ d k s, n.cache = some d → n.eph = some k → k.sig = some s →
    E.digest (k.key.pub ++ s.sig ++ [n.status.byte]) none .sha512 = some d → (n.status = .valid ↔ NodeGenuine E n)

/-- Two chains with the same identities. -/
def SameKeys (c c' : Chain) : Prop := c'.root = c.root ∧ c'.node = c.node

/-- Calling `m` once with each of these allocators; the answers. -/
def callMany (m : H Bool) : List Alloc → St → Option (List Bool × St)
  | [], s => some ([], s)
  | A :: As, s =>
    match m A s with
    | .ret b s' => (callMany m As s').map fun r => (b :: r.1, r.2)
    | _ => none

end Wickr.Spec
