import Verif.Spec.Client
import Verif.Spec.Adversary
import Verif.Spec.ClientTargets

/-!
# Specification of what timestamps guard
A timestamp lists the digest of a snapshot document, and a snapshot lists the digests of the documents
with targets metadata. So a timestamp determines all of them, up to collisions of the digests.
-/

namespace RustTuf.Spec
open RustTuf

/-- What a document says, whoever has signed it. -/
def Says (E : Env) {M : Type} (decode : Bytes → Except Err M) (raw : Bytes) (m : M) : Prop :=
  ∃ sigs signed msg, E.parseSigned raw = .ok (sigs, signed) ∧ E.canonicalize signed = .ok msg ∧
    decode msg = .ok m

/-- The description fits the document: not longer, and with the digest of the preferred algorithm. -/
def Announces (D : Digest) (d : MetadataDescription) (raw : Bytes) : Prop :=
  ∃ a v, Preferred d.hashes a v ∧ raw.length ≤ d.length ∧ D a raw = v

/-- A client with record `l` has received the document from one of its repositories. -/
def Received (l : List LogEntry) (raw : Bytes) : Prop := ∃ src p, LogEntry.got src p raw ∈ l

/-- A client with record `l` has received a document that says `sn`, and a timestamp with enough
signatures for the root `r` announces this document and the version. -/
def ByTimestamp (E : Env) (D : Digest) (l : List LogEntry) (r : RootMetadata) (raw : Bytes)
    (sn : SnapshotMetadata) : Prop :=
  Received l raw ∧ Says E E.snapshotFromSlice raw sn ∧ ∃ ts tsRaw,
    Authentic E E.timestampFromSlice tsRaw r.timestamp.threshold (timestampSigners r) ts ∧
    Announces D ts.snapshot raw ∧ sn.version = ts.snapshot.version

/-- A client with record `l` has received a document that says `ta`, and a snapshot that goes back to a
timestamp in this way lists this document and the version for `role`. -/
def BySnapshot (E : Env) (D : Digest) (l : List LogEntry) (r : RootMetadata) (role : MetadataPath)
    (raw : Bytes) (ta : TargetsMetadata) : Prop :=
  Received l raw ∧ Says E E.targetsFromSlice raw ta ∧ ∃ snRaw sn d, ByTimestamp E D l r snRaw sn ∧
    sn.metas.get? role = some d ∧ Announces D d raw ∧ ta.version = d.version

/-- The author's releases: the documents `published` belong to the timestamps that the author has
approved of. Such a timestamp announces a published document, and so do the snapshots among them. -/
structure Releases (E : Env) (D : Digest) (author published : Bytes → Prop) : Prop where
  timestamp : ∀ ts, Approved author E.timestampFromSlice ts →
    ∃ raw, published raw ∧ Announces D ts.snapshot raw
  snapshot : ∀ raw sn, published raw → Says E E.snapshotFromSlice raw sn →
    ∀ role d, sn.metas.get? role = some d → ∃ raw', published raw' ∧ Announces D d raw'

/-- Nothing that was received has the digest of a published document without being this document. -/
def NoSecondPreimage (D : Digest) (published : Bytes → Prop) (l : List LogEntry) : Prop :=
  ∀ a raw raw', published raw → Received l raw' → D a raw = D a raw' → raw = raw'

/-- The author gives a version number to one snapshot only, and a version number of a role to one
document only. -/
structure OneEach (E : Env) (author published : Bytes → Prop) : Prop where
  timestamp : ∀ ts ts', Approved author E.timestampFromSlice ts →
    Approved author E.timestampFromSlice ts' → ts.snapshot.version = ts'.snapshot.version →
    ts.snapshot = ts'.snapshot
  snapshot : ∀ raw raw' sn sn' role d d', published raw → published raw' →
    Says E E.snapshotFromSlice raw sn → Says E E.snapshotFromSlice raw' sn' →
    sn.metas.get? role = some d → sn'.metas.get? role = some d' → d.version = d'.version → d = d'

/-- The timestamp keys of a root are guarded. -/
def TimestampGuarded (honest : Scheme → Bytes → Prop) (r : RootMetadata) : Prop :=
  Guarded honest r.timestamp.threshold (timestampSigners r)

end RustTuf.Spec
