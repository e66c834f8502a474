import Verif.Model.Basic
import Verif.Model.Json

/-!
# Metadata records
Fields of the metadata types as far as verification and the client use them. The decoding of these
records from JSON values is modelled in `Model/Shims.lean`.
-/

namespace RustTuf

/-- src/crypto.rs:172-176 `KeyId`. -/
abbrev KeyId := Str

/-- src/metadata.rs:887 `MetadataPath` (the string only; validity is `Model/Paths.lean`). -/
abbrev MetadataPath := Str

/-- src/metadata.rs:1371 `VirtualTargetPath` (the string only). -/
abbrev VirtualTargetPath := Str

/-- src/metadata.rs:1487 `TargetPath` (the string only). -/
abbrev TargetPath := Str

/-- src/crypto.rs:837-847 `HashAlgorithm`. -/
inductive HashAlg where
  | sha256 | sha512 | unknown (s : Str)
deriving DecidableEq, Repr

/-- src/crypto.rs `HashValue`. -/
abbrev HashValue := Bytes

/-- src/crypto.rs:211-223 `SignatureScheme`. -/
inductive Scheme where
  | ed25519 | rsaSsaPssSha256 | rsaSsaPssSha512 | unknown (s : Str)
deriving DecidableEq, Repr

/-- src/crypto.rs:260-267 `KeyType`. -/
inductive KeyType where
  | ed25519 | rsa | unknown (s : Str)
deriving DecidableEq, Repr

/-- src/crypto.rs:556-564 `PublicKey`. -/
structure PublicKey where
  typ : KeyType
  keyId : KeyId
  scheme : Scheme
  keyidHashAlgorithms : Option (List Str)
  value : Bytes
deriving DecidableEq, Repr

/-- src/crypto.rs:816-821 `Signature`. -/
structure Signature where
  keyId : KeyId
  value : Bytes
deriving DecidableEq, Repr

/-- src/metadata.rs:812-815 `RoleDefinition`. -/
structure RoleDefinition where
  threshold : Nat
  keyIds : List KeyId
deriving DecidableEq, Repr

/-- src/metadata.rs:660-669 `RootMetadata`. -/
structure RootMetadata where
  version : Nat
  expires : Time
  consistentSnapshot : Bool
  keys : Map KeyId PublicKey
  root : RoleDefinition
  snapshot : RoleDefinition
  targets : RoleDefinition
  timestamp : RoleDefinition
deriving DecidableEq, Repr

/-- src/metadata.rs:1105-1111 `MetadataDescription`. -/
structure MetadataDescription where
  version : Nat
  length : Nat
  hashes : Map HashAlg HashValue
deriving DecidableEq, Repr

/-- src/metadata.rs:1038-1044 `TimestampMetadata`. -/
structure TimestampMetadata where
  version : Nat
  expires : Time
  snapshot : MetadataDescription
deriving DecidableEq, Repr

/-- src/metadata.rs:1303-1309 `SnapshotMetadata`. (`meta` is a Lean keyword, hence `metas`.) -/
structure SnapshotMetadata where
  version : Nat
  expires : Time
  metas : Map MetadataPath MetadataDescription
deriving DecidableEq, Repr

/-- src/metadata.rs:1528-1532 `TargetDescription`. -/
structure TargetDescription where
  length : Nat
  hashes : Map HashAlg HashValue
  custom : Option (Map Str Json)
deriving DecidableEq

/-- src/metadata.rs:1905-1912 `Delegation`. `paths` and `key_ids` are hash sets: lists in arbitrary
order. -/
structure Delegation where
  role : MetadataPath
  terminating : Bool
  threshold : Nat
  keyIds : List KeyId
  paths : List VirtualTargetPath
deriving DecidableEq, Repr

/-- src/metadata.rs:1842-1846 `Delegations`. -/
structure Delegations where
  keys : Map KeyId PublicKey
  roles : List Delegation
deriving DecidableEq, Repr

/-- src/metadata.rs:1679-1684 `TargetsMetadata`. -/
structure TargetsMetadata where
  version : Nat
  expires : Time
  targets : Map VirtualTargetPath TargetDescription
  delegations : Option Delegations
deriving DecidableEq

/-- The common body of src/metadata.rs:714-755 `root_keys`, `snapshot_keys`, `targets_keys`,
`timestamp_keys` and src/tuf.rs:45-51, 648-658: the keys whose map key is listed in `ids`. -/
def filterKeys (keys : Map KeyId PublicKey) (ids : List KeyId) : List PublicKey :=
  keys.filterMap (fun p => if ids.contains p.1 then some p.2 else none)

namespace RootMetadata
/-- src/metadata.rs:714-722. -/
def rootKeys (r : RootMetadata) : List PublicKey := filterKeys r.keys r.root.keyIds
/-- src/metadata.rs:725-733. -/
def snapshotKeys (r : RootMetadata) : List PublicKey := filterKeys r.keys r.snapshot.keyIds
/-- src/metadata.rs:736-744. -/
def targetsKeys (r : RootMetadata) : List PublicKey := filterKeys r.keys r.targets.keyIds
/-- src/metadata.rs:747-755. -/
def timestampKeys (r : RootMetadata) : List PublicKey := filterKeys r.keys r.timestamp.keyIds
end RootMetadata

/-- src/metadata.rs:191-198 `Role::name`. -/
def Role.name : Role → Str
  | .root => "root".toList
  | .snapshot => "snapshot".toList
  | .targets => "targets".toList
  | .timestamp => "timestamp".toList

/-- src/metadata.rs:922-924 `MetadataPath::from_role`. Its `unwrap` is shown not to panic in
`Props/Paths.lean`. -/
def MetadataPath.fromRole (r : Role) : MetadataPath := r.name

end RustTuf
