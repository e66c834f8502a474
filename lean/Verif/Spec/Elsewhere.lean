import Verif.Spec.Covering

/-!
# Delegations for other paths (C104)
-/

namespace RustTuf.Spec
open RustTuf Client

/-- Two lists of delegations with the same delegations for `path`, in the same order. The others may
differ, but are not terminating. -/
inductive SameFor (path : VirtualTargetPath) : List Delegation → List Delegation → Prop
  | nil : SameFor path [] []
  | both (d : Delegation) {l l' : List Delegation} : SameFor path l l' → SameFor path (d :: l) (d :: l')
  | left (d : Delegation) {l l' : List Delegation} : ¬ Covers d path → d.terminating = false →
      SameFor path l l' → SameFor path (d :: l) l'
  | right (d : Delegation) {l l' : List Delegation} : ¬ Covers d path → d.terminating = false →
      SameFor path l l' → SameFor path l (d :: l')

/-- Two lists of delegations that give the same roles to the same keys. -/
def SameRoles (l l' : List Delegation) : Prop :=
  (l.map Delegation.role).Nodup ∧ (l'.map Delegation.role).Nodup ∧
  (∀ d ∈ l, ∃ d' ∈ l', d'.role = d.role ∧ d'.threshold = d.threshold ∧ d'.keyIds = d.keyIds) ∧
  (∀ d' ∈ l', ∃ d ∈ l, d.role = d'.role)

/-- The metadata do not delegate to a role called `targets`, like the top-level role. -/
def NoSecondTop (m : TargetsMetadata) : Prop :=
  ∀ ds, m.delegations = some ds → ∀ d ∈ ds.roles, d.role ≠ MetadataPath.fromRole .targets

/-- The client with other delegations in its trusted top-level targets. -/
def withDelegations {W : Type} (ta : TargetsMetadata) (ds : Delegations) (roles : List Delegation)
    (s : St W) : St W :=
  { s with tuf := { s.tuf with
      targets := some { ta with delegations := some { ds with roles := roles } } } }

end RustTuf.Spec
