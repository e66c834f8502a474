import Verif.Model.Config
import Verif.Spec.Client

/-!
# Specification of configurations and of the limits that they set
-/

namespace RustTuf.Spec
open ConfigBuilder

/-- The value that was set last, or else the default. -/
def lastSet {α : Type} (pick : Setting → Option α) (dflt : α) (calls : List Setting) : α :=
  ((calls.filterMap pick).getLast?).getD dflt

/-- Calls that set the limit for root metadata. -/
def rootLimit : Setting → Option (Option Nat)
  | .maxRootLength m => some m
  | _ => none
/-- Calls that set the limit for timestamp metadata. -/
def timestampLimit : Setting → Option (Option Nat)
  | .maxTimestampLength m => some m
  | _ => none
/-- Calls that set the depth. -/
def depthLimit : Setting → Option Nat
  | .maxDelegationDepth n => some n
  | _ => none
/-- Calls that set the translator. -/
def translator : Setting → Option (TargetPath → Except Err VirtualTargetPath)
  | .pathTranslator f => some f
  | _ => none

/-- In this record, every request for metadata carries the limit `root`, the limit `timestamp` or some
other limit, and whatever is received respects the limit of its request. -/
structure Limited (root timestamp : Option Nat) (l : List LogEntry) : Prop where
  requests : ∀ src p v m h, .fetch src p v m h ∈ l →
    (p = "root".toList ∧ m = root) ∨ (p = "timestamp".toList ∧ m = timestamp) ∨ ∃ n, m = some n
  received : ∀ pre src p raw post, l = pre ++ .got src p raw :: post →
    ∃ pre' v m h, pre = pre' ++ [.fetch src p v m h] ∧ ∀ n, m = some n → raw.length ≤ n

end RustTuf.Spec
