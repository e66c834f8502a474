import Verif.Model.Metadata
import Verif.Model.StrOrder

/-!
# Equality, order and hashing of public keys
-/

namespace RustTuf.PublicKey

/-- src/crypto.rs:697-705 `PartialEq for PublicKey`. -/
def eq (k other : PublicKey) : Bool :=
  decide (k.typ = other.typ) && decide (k.scheme = other.scheme) &&
    decide (k.keyidHashAlgorithms = other.keyidHashAlgorithms) && decide (k.value = other.value)

/-- src/crypto.rs:709-713 `Ord for PublicKey`, with the derived order of `KeyId` (176-177), which is that
of strings. -/
def cmp (k other : PublicKey) : Ordering :=
  if strLt k.keyId other.keyId then .lt
  else if k.keyId = other.keyId then .eq
  else .gt

/-- src/crypto.rs:715-719 `PartialOrd for PublicKey`. -/
def partialCmp (k other : PublicKey) : Option Ordering := some (k.cmp other)

/-- Fields, in the form in which they are given to a hasher. -/
inductive HashInput where
  | typ (t : KeyType)
  | scheme (s : Scheme)
  | algs (l : Option (List Str))
  | value (b : Bytes)

/-- src/crypto.rs:721-729 `Hash for PublicKey`: what is given to the hasher. The derived
implementations for the fields are assumed to be functions of the fields. -/
def hashInput (k : PublicKey) : List HashInput :=
  [.typ k.typ, .scheme k.scheme, .algs k.keyidHashAlgorithms, .value k.value]

end RustTuf.PublicKey
