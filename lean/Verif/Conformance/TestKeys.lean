import Verif.Conformance.Setup
import Verif.Model.Keys
import Verif.Model.Builders
import Verif.Model.Pretty

/-!
# Private keys
An instance of `Ring` with Ed25519 keys, and the keys in tests/ed25519.
-/

namespace RustTuf.Conformance

namespace Ed25519

/-- The scalar and the second half of the hashed seed. -/
def expand (seed : Bytes) : Nat × Bytes :=
  let h := sha512 seed
  let a := ofLittle (h.take 32) % 2 ^ 254
  (a - a % 8 + 2 ^ 254, h.drop 32)

def publicOf (seed : Bytes) : Bytes := compress (mul 256 (expand seed).1 base)

def sign (seed pub msg : Bytes) : Bytes :=
  let (a, pre) := expand seed
  let r := ofLittle (sha512 (pre ++ msg)) % order
  let R := compress (mul 256 r base)
  let h := ofLittle (sha512 (R ++ pub ++ msg)) % order
  R ++ toLittle ((r + h * a) % order)

end Ed25519

/-- Hexadecimal digits as bytes. -/
def hex (s : String) : Bytes := (hexLowerDecode s.toList).getD []

/-- Ed25519 with keys in the only PKCS#8 form that `ring` writes; no RSA. -/
def ring : Keys.Ring where
  Ed := Bytes × Bytes
  edFromSeed seed pub := if Ed25519.publicOf seed = pub then some (seed, pub) else none
  edFromPkcs8 der :=
    let seed := (der.drop 16).take 32
    let pub := der.drop 53
    if der.take 16 = hex "3053020101300506032b657004220420" ∧ (der.drop 48).take 5 = hex "a123032100" ∧
        Ed25519.publicOf seed = pub then some (seed, pub)
    else none
  edPublic k := k.2
  edSign k msg := Ed25519.sign k.1 k.2 msg
  Rsa := Unit
  rsaFromPkcs8 _ := none
  rsaModulusLen _ := 0
  rsaSign _ _ _ _ := none

/-- tests/ed25519/ed25519-1.pk8.der to ed25519-6.pk8.der. -/
def pkcs8 : List String := [
  "3053020101300506032b6570042204208abb8f3c8d40df4d166c8a874c4e809a0e3ed768dd96822d4a09cb38fc4849a0a123032100eb8ac26b5c9ef0279e3be3e82262a93bce16fe58ee422500d38caf461c65a3b6",
  "3053020101300506032b65700422042091aba4e170ccdc155b67f74efd323b92f5c2a4113c8d8a3d3c738110106d8011a12303210068d9ecb387371005a8eb8e60105305c34356a8fcd859d7fef3cc228bf2b2b3b2",
  "3053020101300506032b657004220420cceaf9057410d78c29c9015eebf827028b85026b319351ae7fe0c110745ef811a123032100166376c90a7f717d027056272f361c252fb050bed1a067ff2089a0302fbab73d",
  "3053020101300506032b6570042204202104d935f33a98aba34f21b240c618659e5deef13a7aeeacfa5825a66adab8ada1230321001410ae3053aa70bbfa98428a879d64d3002a3578f7dfaaeb1cb0764e860f7e0b",
  "3053020101300506032b657004220420b113d82cc9bcd1c75bfa142b36cf7c4cb7a0afb8f397bd6af2fd73c2d1f02ee7a12303210030232116fc1412231f724475b97fa80dd61f89da2a2c5a984d5c7bbda01508f6",
  "3053020101300506032b6570042204200e349f3f84a130c7cd7a909da1cbe63c09be20281d802fb998c4343659055244a123032100f42d0a28c7080f32ff98b739179c41995376d5ed08aae8aa6e6176f85794029c"]

/-- `KEYS` of src/client.rs and src/tuf.rs. -/
def testKeys : List (Keys.Ed25519Key ring) :=
  pkcs8.filterMap fun s => (Keys.ed25519FromPkcs8 lib ring (hex s)).toOption

end RustTuf.Conformance
