import Verif.Props.Identity
/-
C42: what a certificate says.  A signature on a key covers the key and nothing else, so names, types and the role of the key are not bound.
-/
namespace Wickr
open Spec

/-- The answer for a chain just built is the answer of the signature check. -/
theorem validate_fresh (E : Engine) (r n : Identity) :
    (chainValidate E (chainCreate r n)).2 = E.verifyOpt n.sig r.key n.key.pub := by
  simp [chainValidate, chainCreate, chainHasValidCache]

/-- C42: the names and types in a chain are not certified.  Whatever identifiers and types the two identities of a chain carry, and whatever signature
the root carries, validation of a chain built from them gives the same answer. -/
theorem C42_names_not_certified (E : Engine) (r r' n n' : Identity) (hr : r'.key = r.key) (hn : n'.key = n.key) (hs : n'.sig = n.sig) :
    (chainValidate E (chainCreate r' n')).2 = (chainValidate E (chainCreate r n)).2 := by
  rw [validate_fresh, validate_fresh, hr, hn, hs]

/-- C42: the role of a key is not certified.  A message key is accepted as a message key of an identity exactly when it is accepted as a device of a
user whose root has that identity's key, under any names and types. -/
theorem C42_roles_not_certified (E : Engine) (owner : Identity) (k : EphKey) (t t' : IdType) (a a' : Bytes) (s : Option EcdsaResult) :
    (chainValidate E (chainCreate ⟨t, a, owner.key, s⟩ ⟨t', a', k.key, k.sig⟩)).2 = ephVerifyOwner E (some k) owner := by
  rw [validate_fresh]
  rfl

/-- C42: a message key serves as a device.  Let a node be accepted.  Then with its device's key as root, its message key as device, any names, and
any key the message key has signed, there is another node that is accepted. -/
theorem C42_message_key_as_device (E : Engine) (d a a' dev : Bytes) (c : Chain) (k : EphKey) (hv : (nodeVerify E (nodeCreate d (chainCreate c.root c.node) (some k))).2 = true)
    (t t' : IdType) (s : Option EcdsaResult) (k2 : EphKey) (h2 : E.verifyOpt k2.sig k.key k2.key.pub = true) :
    (nodeVerify E (nodeCreate dev (chainCreate ⟨t, a, c.node.key, s⟩ ⟨t', a', k.key, k.sig⟩) (some k2))).2 = true := by
  have key : E.verifyOpt k.sig c.node.key k.key.pub = true := by
    cases hk : E.verifyOpt k.sig c.node.key k.key.pub with
    | true => rfl
    | false =>
      exfalso
      cases hc : E.verifyOpt c.node.sig c.root.key c.node.key.pub <;>
      simp [nodeVerify, nodeCreate, nodeHasValidCache, chainValidate, chainCreate, chainHasValidCache, ephVerifyOwner, chainUpdateCache,
        hk, hc] at hv
  simp [nodeVerify, nodeCreate, nodeHasValidCache, chainValidate, chainCreate, chainHasValidCache, ephVerifyOwner, chainUpdateCache, key, h2]

/-- The hypotheses are met: the toy node is accepted, and its message key, 11, has signed the key 13. -/
example : (nodeVerify toyEngine (nodeCreate [9] (chainCreate toyChain.root toyChain.node)
      (some ⟨1, toyKey 11, some ⟨.p521, .sha512, [7, 3, toySum [0, 11]]⟩⟩))).2 = true ∧
    toyEngine.verifyOpt (some ⟨.p521, .sha512, [11, 3, toySum [0, 13]]⟩) (toyKey 11) (toyKey 13).pub = true := by decide

/-- … so the key 13 passes as a message key of a device "2" of the user "1" whose root is the device key. -/
example : (nodeVerify toyEngine (nodeCreate [9] (chainCreate ⟨.root, [1], toyKey 7, none⟩
      ⟨.node, [2], toyKey 11, some ⟨.p521, .sha512, [7, 3, toySum [0, 11]]⟩⟩)
      (some ⟨1, toyKey 13, some ⟨.p521, .sha512, [11, 3, toySum [0, 13]]⟩⟩))).2 = true := by decide

/-- Validation is not always positive. -/
example : (chainValidate toyEngine (chainCreate ⟨.root, [1], toyKey 5, none⟩
    ⟨.node, [2], toyKey 11, some ⟨.p521, .sha512, [7, 3, toySum [0, 11]]⟩⟩)).2 = false := by decide

end Wickr
