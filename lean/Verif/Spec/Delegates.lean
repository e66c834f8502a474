import Verif.Spec.Adversary

/-!
# Specification of attacks with delegated keys
-/

namespace RustTuf.Spec

/-- The attacker has less than a threshold of the keys of each role that the metadata delegate to. -/
def DelegationsGuarded (honest : Scheme → Bytes → Prop) (m : TargetsMetadata) : Prop :=
  ∀ ds, m.delegations = some ds → ∀ d ∈ ds.roles, Guarded honest d.threshold (keysFor ds.keys d.keyIds)

end RustTuf.Spec
