import Verif.Spec.Trust

/-!
# Roles that have their keys
-/

namespace RustTuf.Spec

/-- A threshold that can be met with these keys: it is at least one, and there are that many different
key IDs among the keys. -/
def CanBeMet (n : Nat) (keys : List PublicKey) : Prop :=
  1 ≤ n ∧ ∃ ids : List KeyId, ids.Nodup ∧ n ≤ ids.length ∧ ∀ id ∈ ids, ∃ k ∈ keys, k.keyId = id

end RustTuf.Spec
