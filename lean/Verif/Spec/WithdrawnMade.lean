import Verif.Spec.Authors

/-!
# Specification of an author whose work does not go back
-/

namespace RustTuf.Spec

/-- Of the timestamps that the author has made the later announce no older snapshots, and of the snapshots
the later list no older metadata, for any role that both list. -/
structure Works.NeverBack (w : Works) : Prop where
  timestamps : ∀ a b, w.timestamp a → w.timestamp b → a.version < b.version →
    a.snapshot.version ≤ b.snapshot.version
  snapshots : ∀ a b, w.snapshot a → w.snapshot b → a.version ≤ b.version →
    ∀ role m n, a.metas.get? role = some m → b.metas.get? role = some n → m.version ≤ n.version

end RustTuf.Spec
