import Verif.Spec.Authors
import Verif.Spec.Work
import Verif.Spec.TufRules

/-!
# Specification of authors whose work is cheap to follow
-/

namespace RustTuf.Spec

/-- Bounds on what the author has made: the last version of the root, the lengths that timestamps announce
for snapshots, the lengths that snapshots list for the top-level targets. -/
structure Works.Modest (w : Works) (lastRoot snapshotLength targetsLength : Nat) : Prop where
  roots : ∀ r, w.root r → r.version ≤ lastRoot
  timestamps : ∀ ts, w.timestamp ts → ts.snapshot.length ≤ snapshotLength
  snapshots : ∀ sn m, w.snapshot sn → sn.metas.get? targetsName = some m → m.length ≤ targetsLength

/-- The metadata that the author has made delegate to at most `b` roles each, and no length that the author
states for metadata exceeds `n`. -/
structure Works.Moderate (w : Works) (b n : Nat) : Prop where
  targets : ∀ m, w.targets m → DelegatesAtMost b m
  timestamps : ∀ ts, w.timestamp ts → ts.snapshot.length ≤ n
  snapshots : ∀ sn role m, w.snapshot sn → sn.metas.get? role = some m → m.length ≤ n

end RustTuf.Spec
