import Verif.Spec.Adversary

/-!
# Specification of recovery
-/

namespace RustTuf.Spec

/-- The author has approved of no newer timestamp than this one, and of one document per version. -/
structure Newest (E : Env) (author : Bytes → Prop) (ts : TimestampMetadata) (sn : SnapshotMetadata)
    (ta : TargetsMetadata) : Prop where
  timestamp : ∀ x, Approved author E.timestampFromSlice x → x = ts ∨ x.version < ts.version
  snapshot : ∀ x, Approved author E.snapshotFromSlice x → x.version = sn.version → x = sn
  targets : ∀ x, Approved author E.targetsFromSlice x → x.version = ta.version → x = ta

/-- The attacker has less than a threshold of the keys of each role below the root. -/
structure RolesGuarded (honest : Scheme → Bytes → Prop) (r : RootMetadata) : Prop where
  timestamp : Guarded honest r.timestamp.threshold (timestampSigners r)
  snapshot : Guarded honest r.snapshot.threshold (snapshotSigners r)
  targets : Guarded honest r.targets.threshold (targetsSigners r)

end RustTuf.Spec
