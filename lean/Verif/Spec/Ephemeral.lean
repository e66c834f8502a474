import Verif.Model.Ephemeral
import Verif.Spec.Readers

/-!
# Specification of a concurrent map of files
-/

namespace RustTuf.Spec

/-- The content of the last store under the name `k` in a record, if any. -/
def latest (k : MemKey) : List MemEvent → Option Bytes
  | [] => none
  | .put _ k' bs :: l => (latest k l).or (if k' = k then some bs else none)
  | .get _ _ _ :: l => latest k l

/-- A history explains a map: every lookup sees what the last store before it under the same name
has left there, or what was there at the beginning. -/
def Explains (initial : MemKey → Option Bytes) (l : List MemEvent) : Prop :=
  ∀ pre post i k found, l = pre ++ .get i k found :: post →
    found = (latest k pre).or (initial k)

/-- The accesses of the map by call `i`. -/
def accesses (i : Nat) (l : List MemEvent) : List MemEvent :=
  l.filter fun
    | .put j _ _ => decide (j = i)
    | .get j _ _ => decide (j = i)

end RustTuf.Spec
