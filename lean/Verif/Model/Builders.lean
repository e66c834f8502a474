import Verif.Model.Encode
import Verif.Model.Readers
import Verif.Model.Paths

/-!
# Building metadata (src/metadata.rs)

Builders are consumed and returned by their methods; here every method is a function from builder to
builder. The default expiry, `Utc::now()` plus a number of days, is an argument of `new`.
-/

namespace RustTuf

/-- src/metadata.rs:819-840 `RoleDefinition::new`. -/
def RoleDefinition.new (threshold : Nat) (keyIds : List KeyId) : Except Err RoleDefinition :=
  if threshold < 1 then .error .illegalArgument
  else if keyIds.isEmpty then .error .illegalArgument
  else if keyIds.length < threshold then .error .illegalArgument
  else .ok ⟨threshold, keyIds⟩

/-! ### Root -/

/-- src/metadata.rs:497-510 `RootMetadataBuilder`. -/
structure RootBuilder where
  version : Nat
  expires : Time
  consistentSnapshot : Bool
  keys : Map KeyId PublicKey
  rootThreshold : Nat
  rootKeyIds : List KeyId
  snapshotThreshold : Nat
  snapshotKeyIds : List KeyId
  targetsThreshold : Nat
  targetsKeyIds : List KeyId
  timestampThreshold : Nat
  timestampKeyIds : List KeyId

namespace RootBuilder

/-- src/metadata.rs:519-534 `new`. -/
def new (expires : Time) : RootBuilder := ⟨1, expires, false, [], 1, [], 1, [], 1, [], 1, []⟩

/-- src/metadata.rs:537-540 `version`. -/
def setVersion (b : RootBuilder) (n : Nat) : RootBuilder := { b with version := n }

/-- src/metadata.rs:543-546 `expires`. -/
def setExpires (b : RootBuilder) (t : Time) : RootBuilder := { b with expires := t }

/-- src/metadata.rs:549-552 `consistent_snapshot`. -/
def setConsistentSnapshot (b : RootBuilder) (c : Bool) : RootBuilder :=
  { b with consistentSnapshot := c }

/-- src/metadata.rs:555-558, 569-572, 583-586, 597-600 `root_threshold`, `snapshot_threshold`,
`targets_threshold`, `timestamp_threshold`. -/
def setThreshold (b : RootBuilder) (role : Role) (n : Nat) : RootBuilder :=
  match role with
  | .root => { b with rootThreshold := n }
  | .snapshot => { b with snapshotThreshold := n }
  | .targets => { b with targetsThreshold := n }
  | .timestamp => { b with timestampThreshold := n }

/-- src/metadata.rs:561-566, 575-580, 589-594, 603-608 `root_key`, `snapshot_key`, `targets_key`,
`timestamp_key`. -/
def addKey (b : RootBuilder) (role : Role) (k : PublicKey) : RootBuilder :=
  let keys := b.keys.insert k.keyId k
  match role with
  | .root => { b with keys, rootKeyIds := b.rootKeyIds ++ [k.keyId] }
  | .snapshot => { b with keys, snapshotKeyIds := b.snapshotKeyIds ++ [k.keyId] }
  | .targets => { b with keys, targetsKeyIds := b.targetsKeyIds ++ [k.keyId] }
  | .timestamp => { b with keys, timestampKeyIds := b.timestampKeyIds ++ [k.keyId] }

/-- src/metadata.rs:611-622 `build` and 673-700 `RootMetadata::new`. -/
def build (b : RootBuilder) : Except Err RootMetadata := do
  let root ← RoleDefinition.new b.rootThreshold b.rootKeyIds
  let snapshot ← RoleDefinition.new b.snapshotThreshold b.snapshotKeyIds
  let targets ← RoleDefinition.new b.targetsThreshold b.targetsKeyIds
  let timestamp ← RoleDefinition.new b.timestampThreshold b.timestampKeyIds
  if b.version < 1 then .error .illegalArgument
  else .ok ⟨b.version, b.expires, b.consistentSnapshot, b.keys, root, snapshot, targets, timestamp⟩

/-- src/metadata.rs:639-656 `From<RootMetadata>`. -/
def ofRoot (r : RootMetadata) : RootBuilder :=
  ⟨r.version, r.expires, r.consistentSnapshot, r.keys, r.root.threshold, r.root.keyIds,
    r.snapshot.threshold, r.snapshot.keyIds, r.targets.threshold, r.targets.keyIds,
    r.timestamp.threshold, r.timestamp.keyIds⟩

end RootBuilder

/-- The methods of `RootMetadataBuilder` that return a builder. -/
inductive RootCall where
  | version (n : Nat)
  | expires (t : Time)
  | consistentSnapshot (c : Bool)
  | threshold (role : Role) (n : Nat)
  | key (role : Role) (k : PublicKey)

/-- One call. -/
def RootBuilder.call (b : RootBuilder) : RootCall → RootBuilder
  | .version n => b.setVersion n
  | .expires t => b.setExpires t
  | .consistentSnapshot c => b.setConsistentSnapshot c
  | .threshold role n => b.setThreshold role n
  | .key role k => b.addKey role k

/-- A chain of calls. -/
def RootBuilder.calls (b : RootBuilder) (cs : List RootCall) : RootBuilder := cs.foldl RootBuilder.call b

/-! ### Descriptions -/

/-- src/metadata.rs:1114-1139 `MetadataDescription::from_reader`, on a 64-bit machine. -/
def MetadataDescription.fromReader (D : Digest) (src : List Ev) (version : Nat) (algs : List HashAlg) :
    Except Err MetadataDescription :=
  if version < 1 then .error .illegalArgument else
  match calculateHashes D src algs with
  | .error e => .error e
  | .ok (length, hashes) =>
    if length > u64Max then .error .illegalArgument else .ok ⟨version, length, hashes⟩

/-- src/metadata.rs:1582-1592 `TargetDescription::from_reader`. -/
def TargetDescription.fromReader (D : Digest) (src : List Ev) (algs : List HashAlg) :
    Except Err TargetDescription :=
  match calculateHashes D src algs with
  | .error e => .error e
  | .ok (length, hashes) => .ok ⟨length, hashes, none⟩

/-- src/metadata.rs:1627-1642 `TargetDescription::from_reader_with_custom`. -/
def TargetDescription.fromReaderWithCustom (D : Digest) (src : List Ev) (algs : List HashAlg)
    (custom : Map Str Json) : Except Err TargetDescription :=
  match calculateHashes D src algs with
  | .error e => .error e
  | .ok (length, hashes) => .ok ⟨length, hashes, some custom⟩

/-- `&[u8]` as a reader: all bytes, then the end. `calculate_hashes` reads 1024 bytes at a time; by
`C63_digests_of_everything` the chunks do not matter. -/
def sliceReader (b : Bytes) : List Ev := [.data b]

/-- `Json::to_writer` into a vector, src/interchange/cjson/mod.rs:280-288. -/
def SignedMetadata.toWriter (m : SignedMetadata JsonValue) : Except Err Bytes :=
  match serialize (some (encodeSigned m)) with
  | .error e => .error e
  | .ok v => Json.canonicalize v.1

/-- src/metadata.rs:478-486 `parse_version_untrusted`. -/
def SignedMetadata.parseVersion (m : SignedMetadata JsonValue) : Except Err Nat :=
  fromValue (fun j => do
    let m ← asStruct ["version".toList] j
    field m "version".toList asU32) m.metadata.1

/-- The common part of src/metadata.rs:984-990 and 1248-1254: the description of signed metadata. -/
def describe (D : Digest) (m : SignedMetadata JsonValue) (algs : List HashAlg) :
    Except Err MetadataDescription := do
  let bytes ← m.toWriter
  let version ← m.parseVersion
  MetadataDescription.fromReader D (sliceReader bytes) version algs

/-! ### Timestamp -/

/-- src/metadata.rs:965-969 `TimestampMetadataBuilder`. -/
structure TimestampBuilder where
  version : Nat
  expires : Time
  snapshot : MetadataDescription

namespace TimestampBuilder

/-- src/metadata.rs:1000-1006 `from_metadata_description`. -/
def fromDescription (expires : Time) (d : MetadataDescription) : TimestampBuilder := ⟨1, expires, d⟩

/-- src/metadata.rs:976-992 `from_snapshot`. -/
def fromSnapshot (D : Digest) (expires : Time) (m : SignedMetadata JsonValue) (algs : List HashAlg) :
    Except Err TimestampBuilder := do
  let d ← describe D m algs
  .ok (fromDescription expires d)

/-- src/metadata.rs:1009-1012 `version`. -/
def setVersion (b : TimestampBuilder) (n : Nat) : TimestampBuilder := { b with version := n }

/-- src/metadata.rs:1015-1018 `expires`. -/
def setExpires (b : TimestampBuilder) (t : Time) : TimestampBuilder := { b with expires := t }

/-- src/metadata.rs:1021-1023 `build` and 1047-1064 `TimestampMetadata::new`. -/
def build (b : TimestampBuilder) : Except Err TimestampMetadata :=
  if b.version < 1 then .error .illegalArgument else .ok ⟨b.version, b.expires, b.snapshot⟩

end TimestampBuilder

/-- The methods of `TimestampMetadataBuilder` that return a builder. -/
inductive TimestampCall where
  | version (n : Nat)
  | expires (t : Time)

/-- One call. -/
def TimestampBuilder.call (b : TimestampBuilder) : TimestampCall → TimestampBuilder
  | .version n => b.setVersion n
  | .expires t => b.setExpires t

/-- A chain of calls. -/
def TimestampBuilder.calls (b : TimestampBuilder) (cs : List TimestampCall) : TimestampBuilder :=
  cs.foldl TimestampBuilder.call b

/-! ### Snapshot -/

/-- src/metadata.rs:1192-1196 `SnapshotMetadataBuilder`. -/
structure SnapshotBuilder where
  version : Nat
  expires : Time
  metas : Map MetadataPath MetadataDescription

namespace SnapshotBuilder

/-- src/metadata.rs:1203-1209 `new`. -/
def new (expires : Time) : SnapshotBuilder := ⟨1, expires, []⟩

/-- src/metadata.rs:1212-1215 `version`. -/
def setVersion (b : SnapshotBuilder) (n : Nat) : SnapshotBuilder := { b with version := n }

/-- src/metadata.rs:1218-1221 `expires`. -/
def setExpires (b : SnapshotBuilder) (t : Time) : SnapshotBuilder := { b with expires := t }

/-- src/metadata.rs:1260-1267 `insert_metadata_description`. -/
def insertDescription (b : SnapshotBuilder) (p : MetadataPath) (d : MetadataDescription) :
    SnapshotBuilder := { b with metas := b.metas.insert p d }

/-- src/metadata.rs:1237-1257 `insert_metadata_with_path`. -/
def insertWithPath (D : Digest) (b : SnapshotBuilder) (path : Str) (m : SignedMetadata JsonValue)
    (algs : List HashAlg) : Except Err SnapshotBuilder := do
  let d ← describe D m algs
  let path ← MetadataPath.new path
  .ok (b.insertDescription path d)

/-- src/metadata.rs:1224-1233 `insert_metadata`, for metadata of the given role. -/
def insert (D : Digest) (b : SnapshotBuilder) (role : Role) (m : SignedMetadata JsonValue)
    (algs : List HashAlg) : Except Err SnapshotBuilder := b.insertWithPath D role.name m algs

/-- src/metadata.rs:1270-1272 `build` and 1312-1329 `SnapshotMetadata::new`. -/
def build (b : SnapshotBuilder) : Except Err SnapshotMetadata :=
  if b.version < 1 then .error .illegalArgument else .ok ⟨b.version, b.expires, b.metas⟩

/-- src/metadata.rs:1292-1300 `From<SnapshotMetadata>`. -/
def ofSnapshot (m : SnapshotMetadata) : SnapshotBuilder := ⟨m.version, m.expires, m.metas⟩

end SnapshotBuilder

/-- The methods of `SnapshotMetadataBuilder` that return a builder. -/
inductive SnapshotCall where
  | version (n : Nat)
  | expires (t : Time)
  | metadata (path : Str) (m : SignedMetadata JsonValue) (algs : List HashAlg)
  | description (path : MetadataPath) (d : MetadataDescription)

/-- One call. -/
def SnapshotBuilder.call (D : Digest) (b : SnapshotBuilder) : SnapshotCall → Except Err SnapshotBuilder
  | .version n => .ok (b.setVersion n)
  | .expires t => .ok (b.setExpires t)
  | .metadata path m algs => b.insertWithPath D path m algs
  | .description path d => .ok (b.insertDescription path d)

/-- A chain of calls, given up at the first error. -/
def SnapshotBuilder.calls (D : Digest) (b : SnapshotBuilder) :
    List SnapshotCall → Except Err SnapshotBuilder
  | [] => .ok b
  | c :: cs =>
    match b.call D c with
    | .error e => .error e
    | .ok b => SnapshotBuilder.calls D b cs

/-! ### Targets -/

/-- src/metadata.rs:1915-1949 `Delegation::new`; the two sets are lists without repetition. -/
def Delegation.new (role : MetadataPath) (terminating : Bool) (threshold : Nat) (keyIds : List KeyId)
    (paths : List VirtualTargetPath) : Except Err Delegation :=
  if keyIds.isEmpty then .error .illegalArgument
  else if paths.isEmpty then .error .illegalArgument
  else if threshold < 1 then .error .illegalArgument
  else if keyIds.length < threshold then .error .illegalArgument
  else .ok ⟨role, terminating, threshold, keyIds, paths⟩

/-- src/metadata.rs:1850-1873 `Delegations::new`. -/
def Delegations.new (keys : Map KeyId PublicKey) (roles : List Delegation) : Except Err Delegations :=
  if keys.isEmpty then .error .illegalArgument
  else if roles.isEmpty then .error .illegalArgument
  else if roles.length ≠ ((roles.map Delegation.role).eraseDups).length then .error .illegalArgument
  else .ok ⟨keys, roles⟩

/-- src/metadata.rs:1753-1758 `TargetsMetadataBuilder`. -/
structure TargetsBuilder where
  version : Nat
  expires : Time
  targets : Map VirtualTargetPath TargetDescription
  delegations : Option Delegations

namespace TargetsBuilder

/-- src/metadata.rs:1765-1772 `new`. -/
def new (expires : Time) : TargetsBuilder := ⟨1, expires, [], none⟩

/-- src/metadata.rs:1775-1778 `version`. -/
def setVersion (b : TargetsBuilder) (n : Nat) : TargetsBuilder := { b with version := n }

/-- src/metadata.rs:1781-1784 `expires`. -/
def setExpires (b : TargetsBuilder) (t : Time) : TargetsBuilder := { b with expires := t }

/-- src/metadata.rs:1801-1808 `insert_target_description`. -/
def insertDescription (b : TargetsBuilder) (p : VirtualTargetPath) (d : TargetDescription) :
    TargetsBuilder := { b with targets := b.targets.insert p d }

/-- src/metadata.rs:1787-1798 `insert_target_from_reader`. -/
def insertFromReader (D : Digest) (b : TargetsBuilder) (p : VirtualTargetPath) (src : List Ev)
    (algs : List HashAlg) : Except Err TargetsBuilder := do
  let d ← TargetDescription.fromReader D src algs
  .ok (b.insertDescription p d)

/-- src/metadata.rs:1811-1814 `delegations`. -/
def setDelegations (b : TargetsBuilder) (d : Delegations) : TargetsBuilder :=
  { b with delegations := some d }

/-- src/metadata.rs:1817-1819 `build` and 1688-1707 `TargetsMetadata::new`. -/
def build (b : TargetsBuilder) : Except Err TargetsMetadata :=
  if b.version < 1 then .error .illegalArgument
  else .ok ⟨b.version, b.expires, b.targets, b.delegations⟩

end TargetsBuilder

/-- The methods of `TargetsMetadataBuilder` that return a builder. -/
inductive TargetsCall where
  | version (n : Nat)
  | expires (t : Time)
  | target (path : VirtualTargetPath) (src : List Ev) (algs : List HashAlg)
  | description (path : VirtualTargetPath) (d : TargetDescription)
  | delegations (d : Delegations)

/-- One call. -/
def TargetsBuilder.call (D : Digest) (b : TargetsBuilder) : TargetsCall → Except Err TargetsBuilder
  | .version n => .ok (b.setVersion n)
  | .expires t => .ok (b.setExpires t)
  | .target path src algs => b.insertFromReader D path src algs
  | .description path d => .ok (b.insertDescription path d)
  | .delegations d => .ok (b.setDelegations d)

/-- A chain of calls, given up at the first error. -/
def TargetsBuilder.calls (D : Digest) (b : TargetsBuilder) : List TargetsCall → Except Err TargetsBuilder
  | [] => .ok b
  | c :: cs =>
    match b.call D c with
    | .error e => .error e
    | .ok b => TargetsBuilder.calls D b cs

/-- `SignedMetadata::new` (src/metadata.rs:373-382) and the methods `signed` of the builders
(625-630, 1026-1034, 1275-1283, 1822-1830), for a metadata type with this encoder. -/
def SignedMetadata.ofMetadata {M : Type} (encode : M → Option Json) (m : M) (key : PrivateKey) :
    Except Err (SignedMetadata JsonValue) :=
  match serialize (encode m) with
  | .error e => .error e
  | .ok v => SignedMetadata.new ⟨fun v => Json.canonicalize v.1, fun _ => .ok ()⟩ v key

end RustTuf
