import Verif.Spec.Adversary

/-!
# Specification of an author who does not go back
-/

namespace RustTuf.Spec

/-- Of the author's timestamps the later announce no older snapshots, and of the author's snapshots the
later list no older metadata, for any role that both list. -/
structure NeverBack (E : Env) (author : Bytes → Prop) : Prop where
  timestamps : ∀ a b, Approved author E.timestampFromSlice a → Approved author E.timestampFromSlice b →
    a.version < b.version → a.snapshot.version ≤ b.snapshot.version
  snapshots : ∀ a b, Approved author E.snapshotFromSlice a → Approved author E.snapshotFromSlice b →
    a.version ≤ b.version → ∀ role m n, a.metas.get? role = some m → b.metas.get? role = some n →
      m.version ≤ n.version

/-- The attacker has less than a threshold of the timestamp keys and of the snapshot keys of a root. -/
def TimeGuarded (honest : Scheme → Bytes → Prop) (r : RootMetadata) : Prop :=
  Guarded honest r.timestamp.threshold (timestampSigners r) ∧
  Guarded honest r.snapshot.threshold (snapshotSigners r)

end RustTuf.Spec
