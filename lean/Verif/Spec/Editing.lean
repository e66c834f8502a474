import Verif.Spec.Builders

/-!
# What a chain of builder calls makes of existing metadata
-/

namespace RustTuf.Spec

/-- The edited root: what the calls set is set, everything else is as it was. Keys come in addition
to the old ones; of several keys with the same ID the last one is kept. -/
structure EditedRoot (r : RootMetadata) (cs : List RootCall) (r' : RootMetadata) : Prop where
  version : r'.version = lastArg RootCall.version? r.version cs
  expires : r'.expires = lastArg RootCall.expires? r.expires cs
  consistent : r'.consistentSnapshot = lastArg RootCall.consistent? r.consistentSnapshot cs
  thresholds : ∀ role, (roleOf r' role).threshold =
    lastArg (RootCall.threshold? role) (roleOf r role).threshold cs
  keyIds : ∀ role, (roleOf r' role).keyIds =
    (roleOf r role).keyIds ++ (askedKeys role cs).map PublicKey.keyId
  keys : ∀ id, r'.keys.get? id =
    (((cs.filterMap RootCall.key?).filter fun k => decide (k.keyId = id)).getLast?).or (r.keys.get? id)

/-- The edited snapshot: paths that no call is about are listed as before, and only those; the others
are described as the last call about them says. -/
structure EditedSnapshot (D : Digest) (m : SnapshotMetadata) (cs : List SnapshotCall)
    (m' : SnapshotMetadata) : Prop where
  version : m'.version = lastArg SnapshotCall.version? m.version cs
  expires : m'.expires = lastArg SnapshotCall.expires? m.expires cs
  kept : ∀ p, (¬ ∃ c, LastAbout SnapshotCall.path? cs p c) → m'.metas.get? p = m.metas.get? p
  described : ∀ p c, LastAbout SnapshotCall.path? cs p c →
    ∃ d, m'.metas.get? p = some d ∧ SnapshotCall.Gives D c d

end RustTuf.Spec
