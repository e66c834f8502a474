import Verif.Spec.ClientTargets

/-!
# Delegations that lead to a target (C98)
-/

namespace RustTuf.Spec
open RustTuf Client

/-- The path a call is about. -/
def calledPath : Call → Option TargetPath
  | .update => none
  | .fetchTarget p => some p
  | .fetchTargetToWriter p => some p
  | .fetchTargetDescription p => some p

/-- The delegation names a directory that contains the path. -/
def Covers (d : Delegation) (path : VirtualTargetPath) : Prop :=
  ∃ p ∈ d.paths, (∃ dir, p = dir ++ ['/']) ∧ ∃ rest, path = p ++ rest

/-- Delegations that all cover `path` lead from the top-level targets of `t` to `role`, as far as a
client with record `l` has seen. -/
inductive Leads (E : Env) (t : Tuf) (path : VirtualTargetPath) (l : List LogEntry) : MetadataPath → Prop
  | top (ta : TargetsMetadata) (ds : Delegations) (d : Delegation) :
      t.targets = some ta → ta.delegations = some ds → d ∈ ds.roles → Covers d path →
      Leads E t path l d.role
  | deeper (role : MetadataPath) (pre post : List LogEntry) (m : TargetsMetadata)
      (ds : Delegations) (d : Delegation) :
      Leads E t path l role → l = pre ++ post → (after E t pre).delegations.get? role = some m →
      m.delegations = some ds → d ∈ ds.roles → Covers d path → Leads E t path l d.role

end RustTuf.Spec
