import Verif.Model.Formats
import Verif.Model.Signed

/-!
# Private keys (src/crypto.rs:331-555, 912-957)
The cryptography of `ring` is a parameter. The readers and writers of DER integers follow the
documentation of derp, whose source is not part of the repository.
-/

namespace RustTuf.Keys
open Formats

/-! ### Integers in DER -/

/-- `derp::nonnegative_integer`: the content of an integer without the zero byte that keeps it from
being negative; at least `min`. -/
def stripInteger (min : Nat) : Bytes → Option Bytes
  | [] => none
  | [x] => if 128 ≤ x.toNat then none else if x.toNat < min then none else some [x]
  | x :: y :: v =>
    if x = 0 then if y.toNat < 128 then none else some (y :: v)
    else if 128 ≤ x.toNat then none
    else some (x :: y :: v)

/-- `derp::nonnegative_integer`. -/
def nonnegativeInteger (min : Nat) : Reader Bytes := fun b =>
  match expectTag tagInteger b with
  | none => none
  | some (v, b) =>
    match stripInteger min v with
    | none => none
    | some w => some (w, b)

/-- `derp::small_nonnegative_integer`: of one byte. -/
def smallInteger : Reader UInt8 := fun b =>
  match nonnegativeInteger 0 b with
  | some ([x], b) => some (x, b)
  | _ => none

/-- `derp::positive_integer`. -/
def positiveInteger : Reader Bytes := nonnegativeInteger 1

/-- `derp::Der::positive_integer`, for a number whose first byte is not zero. -/
def writePositive (n : Bytes) : Bytes :=
  element tagInteger (if 128 ≤ (n.headD 0).toNat then 0 :: n else n)

/-! ### RSA keys -/

/-- src/crypto.rs:945-957 `write_pkcs1`. -/
def writePkcs1 (n e : Bytes) : Bytes := element tagSequence (writePositive n ++ writePositive e)

/-- src/crypto.rs:920-927: the algorithm of the key. -/
def readRsaAlgorithm : Reader Unit := fun b =>
  match expectTag tagOid b with
  | none => none
  | some (oid, b) =>
    if oid ≠ rsaOid then none else
    match expectTag tagNull b with
    | none => none
    | some (_, b) => some ((), b)

/-- src/crypto.rs:930-939: version, modulus and exponent; the rest is skipped. -/
def readRsaKey : Reader Bytes := fun b =>
  match smallInteger b with
  | none => none
  | some (v, b) =>
    if v ≠ 0 then none else
    match positiveInteger b with
    | none => none
    | some (n, b) =>
      match positiveInteger b with
      | none => none
      | some (e, _) => some (writePkcs1 n e, [])

/-- src/crypto.rs:915-941: the fields of the outer sequence. -/
def readPkcs8 : Reader Bytes := fun b =>
  match smallInteger b with
  | none => none
  | some (v, b) =>
    if v ≠ 0 then none else
    match nested tagSequence readRsaAlgorithm b with
    | none => none
    | some (_, b) => nested tagOctetString (nested tagSequence readRsaKey) b

/-- src/crypto.rs:912-943 `extract_rsa_pub_from_pkcs8`. -/
def extractRsaPublic (b : Bytes) : Option Bytes := readAll (nested tagSequence readPkcs8) b

/-! ### Private keys -/

/-- `RSA_PSS_SHA256` and `RSA_PSS_SHA512`. -/
inductive RsaAlg where
  | sha256
  | sha512
deriving DecidableEq

/-- The key pairs of `ring`. -/
structure Ring where
  /-- `Ed25519KeyPair` -/
  Ed : Type
  edFromSeed : Bytes → Bytes → Option Ed
  edFromPkcs8 : Bytes → Option Ed
  edPublic : Ed → Bytes
  edSign : Ed → Bytes → Bytes
  /-- `RsaKeyPair` -/
  Rsa : Type
  rsaFromPkcs8 : Bytes → Option Rsa
  rsaModulusLen : Rsa → Nat
  /-- the third argument is what the random number generator yields -/
  rsaSign : Rsa → RsaAlg → Bytes → Bytes → Option Bytes

variable (X : ShimLib) (R : Ring)

/-- src/crypto.rs:45-47. -/
def pythonAlgs : Option (List Str) := some ["sha256".toList, "sha512".toList]

/-- src/crypto.rs:339-343 `Ed25519PrivateKey`. -/
structure Ed25519Key where
  pair : R.Ed
  pub : PublicKey

/-- src/crypto.rs:414-426 `from_keypair_with_keyid_hash_algorithms`. -/
def ed25519FromPair (pair : R.Ed) (algs : Option (List Str)) : Except Err (Ed25519Key R) :=
  match PublicKey.make X .ed25519 .ed25519 algs (R.edPublic pair) with
  | none => .error .encoding
  | some pub => .ok ⟨pair, pub⟩

/-- src/crypto.rs:355-376 `from_ed25519`. -/
def ed25519FromBytes (key : Bytes) : Except Err (Ed25519Key R) :=
  if key.length ≠ 64 then .error .encoding else
  match R.edFromSeed (key.take 32) (key.drop 32) with
  | none => .error .encoding
  | some pair => ed25519FromPair X R pair none

/-- src/crypto.rs:396-412 `from_pkcs8`. -/
def ed25519FromPkcs8 (der : Bytes) : Except Err (Ed25519Key R) :=
  match R.edFromPkcs8 der with
  | none => .error .encoding
  | some pair => ed25519FromPair X R pair pythonAlgs

/-- src/crypto.rs:429-444 `Ed25519PrivateKey` as `PrivateKey`; a failing `debug_assert` panics. -/
def Ed25519Key.private (k : Ed25519Key R) : PrivateKey where
  sign msg :=
    if k.pub.scheme ≠ .ed25519 then .error .panic else .ok ⟨k.pub.keyId, R.edSign k.pair msg⟩
  publicKeyId := k.pub.keyId

/-- src/crypto.rs:446-450 `RsaPrivateKey`. -/
structure RsaKey where
  pair : R.Rsa
  pub : PublicKey

/-- src/crypto.rs:497-527 `from_pkcs8`. -/
def rsaFromPkcs8 (der : Bytes) (scheme : Scheme) : Except Err (RsaKey R) :=
  if ¬ (scheme = .rsaSsaPssSha256 ∨ scheme = .rsaSsaPssSha512) then .error .illegalArgument else
  match R.rsaFromPkcs8 der with
  | none => .error .encoding
  | some pair =>
    if R.rsaModulusLen pair < 256 then .error .illegalArgument else
    match extractRsaPublic der with
    | none => .error .encoding
    | some value =>
      match PublicKey.make X .rsa scheme pythonAlgs value with
      | none => .error .encoding
      | some pub => .ok ⟨pair, pub⟩

/-- src/crypto.rs:530-555 `RsaPrivateKey` as `PrivateKey`. The random numbers used for a message are
an argument. -/
def RsaKey.private (k : RsaKey R) (random : Bytes → Bytes) : PrivateKey where
  sign msg :=
    let signed (a : RsaAlg) : Except Err Signature :=
      match R.rsaSign k.pair a (random msg) msg with
      | none => .error .opaqueErr
      | some s => .ok ⟨k.pub.keyId, s⟩
    match k.pub.scheme with
    | .rsaSsaPssSha256 => signed .sha256
    | .rsaSsaPssSha512 => signed .sha512
    | _ => .error .panic
  publicKeyId := k.pub.keyId

end RustTuf.Keys
