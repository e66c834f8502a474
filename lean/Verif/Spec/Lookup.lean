import Verif.Spec.WF
import Mathlib.Data.List.Forall2

/-!
# Specification of path patterns and delegation chains
-/

namespace RustTuf.Spec

/-- `a` is the path `p`, or `p` is a directory pattern (ends with a slash) and `a` starts with it. -/
def Under (a p : VirtualTargetPath) : Prop :=
  a = p ∨ (∃ dir, p = dir ++ ['/']) ∧ ∃ rest, a = p ++ rest

/-- Every element lies under its predecessor. -/
def Nested : VirtualTargetPath → List VirtualTargetPath → Prop
  | _, [] => True
  | p, q :: qs => Under q p ∧ Nested q qs

/-- One pattern can be picked from each group, each under the one before, and `path` under the
last. -/
def Covered (path : VirtualTargetPath) (groups : List (List VirtualTargetPath)) : Prop :=
  ∃ p ps, List.Forall₂ (fun q g => q ∈ g) (p :: ps) groups ∧ Nested p ps ∧
    Under path ((p :: ps).getLast (by simp))

/-- A chain of delegations starting in `ds` whose last member has the trusted metadata `td`; every
member is trusted and unexpired. -/
inductive Chain (t : Tuf) (clk : Clock) : Delegations → List Delegation → TargetsMetadata → Prop
  | one (ds : Delegations) (d : Delegation) (td : TargetsMetadata) : d ∈ ds.roles →
      t.delegations.get? d.role = some td → clk (.deleg d.role) < td.expires → Chain t clk ds [d] td
  | cons (ds : Delegations) (d : Delegation) (mid : TargetsMetadata) (child : Delegations)
      (l : List Delegation) (td : TargetsMetadata) : d ∈ ds.roles →
      t.delegations.get? d.role = some mid → clk (.deleg d.role) < mid.expires →
      mid.delegations = some child → Chain t clk child l td → Chain t clk ds (d :: l) td

end RustTuf.Spec
