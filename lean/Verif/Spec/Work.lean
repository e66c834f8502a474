import Verif.Spec.Client

/-!
# Specification of the work of a search for a target
-/

namespace RustTuf.Spec

/-- Requests for metadata in a record. -/
def requestCount (l : List LogEntry) : Nat :=
  l.countP fun e => match e with | .fetch .. => true | _ => false

/-- The metadata delegate to at most `b` roles. -/
def DelegatesAtMost (b : Nat) (m : TargetsMetadata) : Prop :=
  ∀ ds, m.delegations = some ds → ds.roles.length ≤ b

/-- The number of chains of 1 to `n` steps if there are `b` choices for every step:
`b + b ^ 2 + … + b ^ n`. -/
def chains (b n : Nat) : Nat := ((List.range n).map fun i => b ^ (i + 1)).sum

end RustTuf.Spec
