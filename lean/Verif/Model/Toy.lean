import Verif.Model.OpenSsl
/-
A concrete, insecure instance of the primitives.  It shows that the laws assumed in `Spec/Prim.lean`
and `Spec/Engine.lean` can be met, and it runs the concrete examples and counterexamples.
It models nothing in /repo.
-/
namespace Wickr

/-- A one-byte polynomial checksum. -/
def toySum (b : Bytes) : UInt8 := b.foldl (fun h x => h * 31 + x + 7) 1

/-- Toy primitives: scalars and points are bytes, the hash is a repeated checksum. -/
def toyPrim : Prim where
  gcm key iv aad pt :=
    (pt.map (· ^^^ toySum (key ++ iv)),
      List.replicate 16 (toySum (key ++ iv ++ optBytes aad ++ [170] ++ pt)))
  gcmOpen key iv aad ct tag :=
    let pt := ct.map (· ^^^ toySum (key ++ iv))
    if tag = List.replicate 16 (toySum (key ++ iv ++ optBytes aad ++ [170] ++ pt)) then some pt else none
  ctr key iv data := data.map (· ^^^ toySum (key ++ iv))
  sha d b := List.replicate d.size (toySum b)
  hmac d k b := List.replicate d.size (toySum (k ++ b))
  hkdf d ikm salt info n := some ((0 :: List.replicate n (toySum (d.id :: ikm ++ optBytes salt ++ optBytes info))).take n)
  hkdfExpand d prk info n := some (List.replicate n (toySum (d.id :: prk ++ optBytes info)))
  scrypt pass salt _ _ _ len := some ((0 :: List.replicate len (toySum (pass ++ salt))).take len)
  bcrypt pass salt := some [toySum (pass ++ salt)]
  Pub := UInt8
  o2i b := match b with | [p] => some p | _ => none
  i2o p := [p]
  isInf p := p == 0
  Pri := UInt8
  d2i b := match b with | [48, s] => some s | _ => none
  i2d s := [48, s]
  isP521 _ := true
  pubOf s := s
  ecdsaSign s d data _ := some [s, d.id, toySum data]
  ecdsaVerify p d data sig := sig == [p, d.id, toySum data]
  ecdh a b := some [a + b]

/-- The default engine over the toy primitives. -/
def toyEngine : Engine := defaultEngine toyPrim

/-- The toy key pair with scalar `s`. -/
def toyKey (s : UInt8) : EcKey := ⟨.p521, [0, s], some [48, s]⟩

end Wickr
