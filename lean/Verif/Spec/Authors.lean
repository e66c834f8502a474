import Verif.Spec.Adversary
import Verif.Model.JsonEnv
import Verif.Model.Encode

/-!
# Specification of the author's work
The author of a repository makes metadata objects, and honest key holders sign these objects in the JSON
format and nothing else.
-/

namespace RustTuf.Spec

/-- The bytes that are signed for a metadata object: the canonical form of its JSON encoding. -/
def SignedBytes {M : Type} (encode : M → Option Json) (m : M) (msg : Bytes) : Prop :=
  ∃ j, encode m = some j ∧ Json.canonicalize j.normal = .ok msg

/-- The metadata objects that the author has made, for each role. Metadata of delegated roles counts as
targets metadata. -/
structure Works where
  root : RootMetadata → Prop
  timestamp : TimestampMetadata → Prop
  snapshot : SnapshotMetadata → Prop
  targets : TargetsMetadata → Prop

/-- The bytes belong to an object that the author has made. -/
inductive Works.Signs (X : ShimLib) (w : Works) (msg : Bytes) : Prop
  | root (m) : w.root m → SignedBytes (encodeRoot X) m msg → Works.Signs X w msg
  | timestamp (m) : w.timestamp m → SignedBytes (encodeTimestamp X) m msg → Works.Signs X w msg
  | snapshot (m) : w.snapshot m → SignedBytes (encodeSnapshot X) m msg → Works.Signs X w msg
  | targets (m) : w.targets m → SignedBytes (encodeTargets X) m msg → Works.Signs X w msg

end RustTuf.Spec
