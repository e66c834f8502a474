import Verif.Model.Metadata

/-!
# Hexadecimal text
-/

namespace RustTuf.Spec

/-- The digits. -/
def hexAlphabet : Str := "0123456789abcdef".toList

/-- A text spells bytes: two digits for every byte, the more significant one first. -/
inductive Spells : Str → Bytes → Prop
  | nil : Spells [] []
  | cons {hi lo : Nat} {c d : Char} {b : UInt8} {s : Str} {bs : Bytes} :
      hexAlphabet[hi]? = some c → hexAlphabet[lo]? = some d → b.toNat = hi * 16 + lo → Spells s bs →
      Spells (c :: d :: s) (b :: bs)

/-- The names of the hash algorithms in metadata. -/
inductive AlgName : Str → HashAlg → Prop
  | sha256 : AlgName "sha256".toList .sha256
  | sha512 : AlgName "sha512".toList .sha512

end RustTuf.Spec
