import Verif.Model.Metadata

/-!
# Keys that metadata cannot list
-/

namespace RustTuf.Spec

/-- An Ed25519 key with another scheme, or not of 32 bytes. -/
def OddKey (k : PublicKey) : Prop :=
  k.typ = .ed25519 ∧ ¬ (k.scheme = .ed25519 ∧ k.value.length = 32)

end RustTuf.Spec
