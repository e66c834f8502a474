import Verif.Model.JsonEnv
import Verif.Model.Signed

/-!
# Encoding metadata as JSON (src/interchange/cjson/shims.rs, src/metadata.rs)

Members are listed in the order in which `#[derive(Serialize)]` writes them; `serialize` then makes a
`serde_json::Value` of them. `none` stands for a serialization error, which becomes
`Error::Encoding` (src/error.rs:83-87).
-/

namespace RustTuf

/-- `Serialize for u32`, `u64` and `usize`. -/
def natJson (n : Nat) : Json := .int n

/-- src/interchange/cjson/shims.rs:118-125 `RoleDefinition::from`. -/
def encodeRoleDefinition (r : RoleDefinition) : Json :=
  .obj [("threshold".toList, natJson r.threshold), ("keyids".toList, .arr (r.keyIds.map Json.str))]

/-- src/crypto.rs:731-745 `Serialize for PublicKey`. -/
def encodePublicKey (X : ShimLib) (k : PublicKey) : Option Json :=
  encodeKey X k.typ k.scheme k.keyidHashAlgorithms k.value

/-- A map: every value must be encodable. -/
def encodeEntries {K V : Type} (key : K → Option Str) (value : V → Option Json) (m : Map K V) :
    Option Json :=
  (mapAll (fun p =>
    match key p.1 with
    | none => none
    | some s =>
      match value p.2 with
      | none => none
      | some j => some (s, j)) m).map Json.obj

/-- `_type`, `spec_version`, `version` in shims.rs. -/
def encodeHead (role : Role) (version : Nat) : List (Str × Json) :=
  [("_type".toList, .str role.name), ("spec_version".toList, .str specVersion),
    ("version".toList, natJson version)]

/-- src/interchange/cjson/shims.rs:44-63 `RootMetadata::from`. -/
def encodeRoot (X : ShimLib) (r : RootMetadata) : Option Json :=
  match encodeEntries some (encodePublicKey X) r.keys with
  | none => none
  | some keys =>
    some (.obj (encodeHead .root r.version ++
      [("consistent_snapshot".toList, .bool r.consistentSnapshot),
       ("expires".toList, .str (X.formatDate r.expires)),
       ("keys".toList, keys),
       ("roles".toList, .obj [(Role.root.name, encodeRoleDefinition r.root),
         (Role.snapshot.name, encodeRoleDefinition r.snapshot),
         (Role.targets.name, encodeRoleDefinition r.targets),
         (Role.timestamp.name, encodeRoleDefinition r.timestamp)])]))

/-- `HashAlgorithm` as the key of a map: serde_json refuses the variant with content. -/
def hashAlgKey : HashAlg → Option Str
  | .sha256 => some "sha256".toList
  | .sha512 => some "sha512".toList
  | .unknown _ => none

/-- src/format_hex.rs:5-10 `serialize`. -/
def encodeHex (b : Bytes) : Json := .str (hexLower b)

/-- The hashes of a description. -/
def encodeHashes (h : Map HashAlg HashValue) : Option Json :=
  encodeEntries hashAlgKey (fun v => some (encodeHex v)) h

/-- src/metadata.rs:1105-1111 `MetadataDescription`, derived. -/
def encodeMetadataDescription (d : MetadataDescription) : Option Json :=
  (encodeHashes d.hashes).map fun h =>
    .obj [("version".toList, natJson d.version), ("length".toList, natJson d.length),
      ("hashes".toList, h)]

/-- src/interchange/cjson/shims.rs:172-182 `TimestampMetadata::from`. -/
def encodeTimestamp (X : ShimLib) (m : TimestampMetadata) : Option Json :=
  (encodeMetadataDescription m.snapshot).map fun d =>
    .obj (encodeHead .timestamp m.version ++
      [("expires".toList, .str (X.formatDate m.expires)),
       ("meta".toList, .obj [("snapshot.json".toList, d)])])

/-- src/interchange/cjson/shims.rs:219-231 `SnapshotMetadata::from`. -/
def encodeSnapshot (X : ShimLib) (m : SnapshotMetadata) : Option Json :=
  (encodeEntries (fun p => some (p ++ jsonExt)) encodeMetadataDescription m.metas).map fun metas =>
    .obj (encodeHead .snapshot m.version ++
      [("expires".toList, .str (X.formatDate m.expires)), ("meta".toList, metas)])

/-- src/interchange/cjson/shims.rs:459-471 `TargetDescription::from`. -/
def encodeTargetDescription (d : TargetDescription) : Option Json :=
  (encodeHashes d.hashes).map fun h =>
    .obj ([("length".toList, natJson d.length), ("hashes".toList, h)] ++
      (match d.custom with
        | none => []
        | some c => [("custom".toList, .obj c)]))

/-- One step of `slice::sort` on strings. -/
def strInsert (s : Str) : List Str → List Str
  | [] => [s]
  | t :: l => if strLt t s then t :: strInsert s l else s :: t :: l

/-- `slice::sort` on strings; equal strings are the same string. -/
def strSort : List Str → List Str
  | [] => []
  | s :: l => strInsert s (strSort l)

/-- src/interchange/cjson/shims.rs:380-401 `Delegation::from`. -/
def encodeDelegation (d : Delegation) : Json :=
  .obj [("role".toList, .str d.role), ("terminating".toList, .bool d.terminating),
    ("threshold".toList, natJson d.threshold),
    ("keyids".toList, .arr ((strSort d.keyIds).map Json.str)),
    ("paths".toList, .arr ((strSort d.paths).map Json.str))]

/-- src/interchange/cjson/shims.rs:434-443 `Delegations::from`. -/
def encodeDelegations (X : ShimLib) (d : Delegations) : Option Json :=
  (encodeEntries some (encodePublicKey X) d.keys).map fun keys =>
    .obj [("keys".toList, keys), ("roles".toList, .arr (d.roles.map encodeDelegation))]

/-- src/interchange/cjson/shims.rs:284-297 `TargetsMetadata::from`. -/
def encodeTargets (X : ShimLib) (m : TargetsMetadata) : Option Json :=
  match encodeEntries some encodeTargetDescription m.targets with
  | none => none
  | some targets =>
    match m.delegations with
    | none => some (.obj (encodeHead .targets m.version ++
        [("expires".toList, .str (X.formatDate m.expires)), ("targets".toList, targets)]))
    | some d =>
      (encodeDelegations X d).map fun d => .obj (encodeHead .targets m.version ++
        [("expires".toList, .str (X.formatDate m.expires)), ("targets".toList, targets),
          ("delegations".toList, d)])

/-- src/crypto.rs:815-821 `Signature`, derived. -/
def encodeSignature (s : Signature) : Json :=
  .obj [("keyid".toList, .str s.keyId), ("sig".toList, encodeHex s.value)]

/-- `Json::serialize`, src/interchange/cjson/mod.rs:252-257: `serde_json::to_value`. -/
def serialize : Option Json → Except Err JsonValue
  | none => .error .encoding
  | some j => .ok j.toValue

/-- src/metadata.rs:341-353 `SignedMetadata`, derived. -/
def encodeSigned (m : SignedMetadata JsonValue) : Json :=
  .obj [("signatures".toList, .arr (m.signatures.map encodeSignature)), ("signed".toList, m.metadata.1)]

/-- src/metadata.rs:396-399 `SignedMetadata::to_raw`. -/
def SignedMetadata.toRaw (m : SignedMetadata JsonValue) : Except Err Bytes :=
  match serialize (some (encodeSigned m)) with
  | .error e => .error e
  | .ok v => Json.canonicalize v.1

/-- src/metadata.rs:291-294 `SignedMetadataBuilder::from_metadata`, for a metadata type with this
encoder and decoder. -/
def SignedBuilder.fromMetadata {M : Type} (encode : M → Option Json) (decode : Json → Option M)
    (m : M) : Except Err (SignedBuilder JsonValue) :=
  match serialize (encode m) with
  | .error e => .error e
  | .ok v => SignedBuilder.fromRawMetadata
      ⟨fun v => Json.canonicalize v.1, fun v => (fromValue decode v.1).map fun _ => ()⟩ v

end RustTuf
