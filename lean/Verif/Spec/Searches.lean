import Verif.Spec.Planted
import Verif.Spec.UpdateWork
import Verif.Spec.Work

/-!
# Specification of repositories that are cheap to search
-/

namespace RustTuf.Spec

/-- The author's metadata delegate to at most `b` roles each, and no length that the author states for
metadata exceeds `n`. -/
structure Moderate (E : Env) (author : Bytes → Prop) (b n : Nat) : Prop where
  targets : ∀ m, Approved author E.targetsFromSlice m → DelegatesAtMost b m
  timestamps : ∀ ts, Approved author E.timestampFromSlice ts → ts.snapshot.length ≤ n
  snapshots : ∀ sn role m, Approved author E.snapshotFromSlice sn → sn.metas.get? role = some m → m.length ≤ n

/-- The client is configured to take roots and timestamps of at most `n` bytes. -/
def TakesAtMost (cfg : Config) (n : Nat) : Prop :=
  (∃ a, cfg.maxRootLength = some a ∧ a ≤ n) ∧ ∃ a, cfg.maxTimestampLength = some a ∧ a ≤ n

end RustTuf.Spec
