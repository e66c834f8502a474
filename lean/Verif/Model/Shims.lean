import Verif.Model.Cjson
import Verif.Model.Metadata

/-!
# Decoding metadata from JSON (src/interchange/cjson/shims.rs, src/crypto.rs, src/metadata.rs)

All errors of these decoders end up as `Error::Encoding` (src/error.rs:83-87), so the decoders return
`Option`. `#[derive(Deserialize)]` is modelled as serde 1.0 generates it: structs are read from
objects (unknown members are ignored, repeated known members refused) or from arrays by position.
-/

namespace RustTuf

/-- What the decoders use and the model does not define. -/
structure ShimLib where
  float : FloatLib
  /-- `ring::digest` SHA-256 -/
  sha256 : Bytes → Bytes
  /-- chrono: src/interchange/cjson/shims.rs:13-16 `parse_datetime` -/
  parseDate : Str → Option Time
  /-- src/interchange/cjson/shims.rs:18-28 `format_datetime` -/
  formatDate : Time → Str
  /-- `data_encoding::BASE64URL` -/
  base64Decode : Str → Option Bytes
  base64Encode : Bytes → Str
  /-- derp: src/crypto.rs:603-620, the key type and the bit string -/
  readSpki : Bytes → Option (KeyType × Bytes)
  /-- src/crypto.rs:893-910 `write_spki` -/
  writeSpki : KeyType → Bytes → Option Bytes

/-! ### serde primitives -/

/-- `String::deserialize`. -/
def asStr : Json → Option Str
  | .str s => some s
  | _ => none

/-- `bool::deserialize`. -/
def asBool : Json → Option Bool
  | .bool b => some b
  | _ => none

/-- `u32::deserialize`. -/
def asU32 : Json → Option Nat
  | .int i => if 0 ≤ i ∧ i ≤ 4294967295 then some i.toNat else none
  | _ => none

/-- `u64::deserialize`; also `usize` on 64-bit machines. -/
def asU64 : Json → Option Nat
  | .int i => if 0 ≤ i ∧ i ≤ 18446744073709551615 then some i.toNat else none
  | _ => none

/-- `f` on every element, failing if it fails on one. -/
def mapAll {α β : Type} (f : α → Option β) : List α → Option (List β)
  | [] => some []
  | a :: l =>
    match f a with
    | none => none
    | some b =>
      match mapAll f l with
      | none => none
      | some l' => some (b :: l')

/-- `Vec::deserialize`. -/
def asVec {α : Type} (f : Json → Option α) : Json → Option (List α)
  | .arr l => mapAll f l
  | _ => none

/-- `Option::deserialize`. -/
def asOption {α : Type} (f : Json → Option α) : Json → Option (Option α)
  | .null => some none
  | j => (f j).map some

/-- The entries of a map: `MapAccess::next_entry`. -/
def asEntries {K V : Type} (key : Str → Option K) (value : Json → Option V) :
    Json → Option (List (K × V))
  | .obj m => mapAll (fun p =>
      match key p.1 with
      | none => none
      | some k =>
        match value p.2 with
        | none => none
        | some v => some (k, v)) m
  | _ => none

/-- `BTreeMap::deserialize` (and `HashMap`): the last entry of a key wins. -/
def asMap {K V : Type} [DecidableEq K] (key : Str → Option K) (value : Json → Option V) (j : Json) :
    Option (Map K V) :=
  (asEntries key value j).map Map.collect

/-- src/interchange/cjson/shims.rs:500-546 `deserialize_reject_duplicates`. -/
def asMapNoDup {K V : Type} [DecidableEq K] (key : Str → Option K) (value : Json → Option V)
    (j : Json) : Option (Map K V) :=
  match asEntries key value j with
  | none => none
  | some m => if (Map.keys m).Nodup then some m else none

/-- A struct with these fields: its members, or its fields by position. -/
def asStruct (names : List Str) : Json → Option (Map Str Json)
  | .obj m => if ((Map.keys m).filter fun k => names.contains k).Nodup then some m else none
  | .arr l => if l.length = names.length then some (names.zip l) else none
  | _ => none

/-- A struct with `#[serde(deny_unknown_fields)]`. -/
def asStructStrict (names : List Str) (j : Json) : Option (Map Str Json) :=
  match asStruct names j with
  | none => none
  | some m => if (Map.keys m).all (fun k => names.contains k) then some m else none

/-- A field that must be there. -/
def field {α : Type} (m : Map Str Json) (name : Str) (f : Json → Option α) : Option α :=
  match m.get? name with
  | none => none
  | some j => f j

/-- A field of type `Option`: absent means `None`. -/
def fieldOpt {α : Type} (m : Map Str Json) (name : Str) (f : Json → Option α) :
    Option (Option α) :=
  match m.get? name with
  | none => some none
  | some j => asOption f j

/-- `EnumAccess`: a variant without content is a string or an object with the one member
`name: null`; a variant with content is an object with one member. -/
def asVariant : Json → Option (Str × Option Json)
  | .str s => some (s, none)
  | .obj [(s, j)] => some (s, some j)
  | _ => none

/-- A variant without content. -/
def unitVariant (names : List (Str × α)) : Str × Option Json → Option α
  | (s, none) => Map.get? names s
  | (s, some .null) => Map.get? names s
  | _ => none

/-! ### crypto.rs -/

/-- A lower-case hexadecimal digit. -/
def hexLowerVal (c : Char) : Option Nat :=
  if 48 ≤ c.toNat ∧ c.toNat ≤ 57 then some (c.toNat - 48)
  else if 97 ≤ c.toNat ∧ c.toNat ≤ 102 then some (c.toNat - 87)
  else none

/-- `data_encoding::HEXLOWER.decode`. -/
def hexLowerDecode : Str → Option Bytes
  | [] => some []
  | [_] => none
  | a :: b :: s =>
    match hexLowerVal a, hexLowerVal b, hexLowerDecode s with
    | some a, some b, some r => some (UInt8.ofNat (a * 16 + b) :: r)
    | _, _, _ => none

/-- src/crypto.rs:240-242 `SignatureValue::from_hex`. -/
def SignatureValue.fromHex (s : Str) : Option Bytes := hexLowerDecode s

/-- src/crypto.rs:887-891 `HashValue::fmt` (`Display`). -/
def HashValue.display (h : HashValue) : Str := hexLower h

/-- src/crypto.rs:179-191 `KeyId::from_str`: `len` counts bytes. -/
def keyIdOfStr (s : Str) : Option KeyId := if (utf8 s).length = 64 then some s else none

/-- src/crypto.rs:202-207 `KeyId::deserialize`. -/
def decodeKeyId (j : Json) : Option KeyId := (asStr j).bind keyIdOfStr

/-- src/format_hex.rs:12-20 `deserialize`. -/
def decodeHex (j : Json) : Option Bytes := (asStr j).bind hexLowerDecode

/-- src/crypto.rs:210-223 `SignatureScheme`, derived. -/
def decodeScheme (j : Json) : Option Scheme :=
  match asVariant j with
  | none => none
  | some v =>
    if v.1 = "Unknown".toList then
      match v.2 with
      | some j => (asStr j).map Scheme.unknown
      | none => none
    else
      unitVariant [("ed25519".toList, Scheme.ed25519),
        ("rsassa-pss-sha256".toList, Scheme.rsaSsaPssSha256),
        ("rsassa-pss-sha512".toList, Scheme.rsaSsaPssSha512)] v

/-- src/crypto.rs:290-300, 321-328 `KeyType::deserialize`. -/
def decodeKeyType (j : Json) : Option KeyType :=
  match asStr j with
  | none => none
  | some s =>
    if s = "ed25519".toList then some .ed25519
    else if s = "rsa".toList then some .rsa
    else none

/-- `KeyType::to_string`, src/crypto.rs:302-310. -/
def KeyType.text : KeyType → Str
  | .ed25519 => "ed25519".toList
  | .rsa => "rsa".toList
  | .unknown s => s

/-- `SignatureScheme::serialize`, derived. -/
def encodeScheme : Scheme → Json
  | .ed25519 => .str "ed25519".toList
  | .rsaSsaPssSha256 => .str "rsassa-pss-sha256".toList
  | .rsaSsaPssSha512 => .str "rsassa-pss-sha512".toList
  | .unknown s => .obj [("Unknown".toList, .str s)]

/-- The member `keyid_hash_algorithms` of src/interchange/cjson/shims.rs:327-328. -/
def algsMember : Option (List Str) → List (Str × Json)
  | none => []
  | some l => [("keyid_hash_algorithms".toList, .arr (l.map Json.str))]

/-- src/crypto.rs:126-146 `shim_public_key` and the derived serialization of shims.rs:323-330,
364-367. -/
def encodeKey (X : ShimLib) (typ : KeyType) (scheme : Scheme) (algs : Option (List Str))
    (value : Bytes) : Option Json :=
  let text : Option Str :=
    match typ with
    | .ed25519 => some (hexLower value)
    | t => (X.writeSpki t value).map X.base64Encode
  match text with
  | none => none
  | some t =>
    some (.obj ([("keytype".toList, .str typ.text), ("scheme".toList, encodeScheme scheme)] ++
      algsMember algs ++
      [("keyval".toList, .obj [("public".toList, .str t)])]))

/-- src/crypto.rs:148-170 `calculate_key_id`. -/
def calculateKeyId (X : ShimLib) (typ : KeyType) (scheme : Scheme) (algs : Option (List Str))
    (value : Bytes) : Option KeyId :=
  match encodeKey X typ scheme algs value with
  | none => none
  | some j =>
    match Json.canonicalize j with
    | .error _ => none
    | .ok b => some (hexLower (X.sha256 b))

/-- src/crypto.rs:567-582 `PublicKey::new`. -/
def PublicKey.make (X : ShimLib) (typ : KeyType) (scheme : Scheme) (algs : Option (List Str))
    (value : Bytes) : Option PublicKey :=
  match calculateKeyId X typ scheme algs value with
  | none => none
  | some id => some ⟨typ, id, scheme, algs, value⟩

/-- src/crypto.rs:598-623 `from_spki_with_keyid_hash_algorithms`. -/
def PublicKey.fromSpki (X : ShimLib) (der : Bytes) (scheme : Scheme) (algs : Option (List Str)) :
    Option PublicKey :=
  match X.readSpki der with
  | none => none
  | some (typ, value) => PublicKey.make X typ scheme algs value

/-- src/crypto.rs:631-648 `from_ed25519_with_keyid_hash_algorithms`. -/
def PublicKey.fromEd25519 (X : ShimLib) (bytes : Bytes) (algs : Option (List Str)) :
    Option PublicKey :=
  if bytes.length = 32 then PublicKey.make X .ed25519 .ed25519 algs bytes else none

/-- src/interchange/cjson/shims.rs:323-330 `PublicKey` and 364-367 `PublicKeyValue`, derived. -/
def decodeKeyShim (j : Json) : Option (KeyType × Scheme × Option (List Str) × Str) := do
  let m ← asStruct ["keytype".toList, "scheme".toList, "keyid_hash_algorithms".toList,
    "keyval".toList] j
  let typ ← field m "keytype".toList decodeKeyType
  let scheme ← field m "scheme".toList decodeScheme
  let algs ← fieldOpt m "keyid_hash_algorithms".toList (asVec asStr)
  let pub ← field m "keyval".toList fun j => do
    let m ← asStruct ["public".toList] j
    field m "public".toList asStr
  some (typ, scheme, algs, pub)

/-- src/crypto.rs:747-801 `PublicKey::deserialize`. -/
def decodePublicKey (X : ShimLib) (j : Json) : Option PublicKey := do
  let (typ, scheme, algs, pub) ← decodeKeyShim j
  match typ with
  | .ed25519 =>
    if scheme = .ed25519 then
      let bytes ← hexLowerDecode pub
      let key ← PublicKey.fromEd25519 X bytes algs
      if key.typ = typ then some key else none
    else none
  | _ =>
    let der ← X.base64Decode pub
    let key ← PublicKey.fromSpki X der scheme algs
    if key.typ = typ then some key else none

/-- src/crypto.rs:816-821 `Signature`, derived. -/
def decodeSignature (j : Json) : Option Signature := do
  let m ← asStruct ["keyid".toList, "sig".toList] j
  let id ← field m "keyid".toList decodeKeyId
  let v ← field m "sig".toList decodeHex
  some ⟨id, v⟩

/-- src/crypto.rs:837-847 `HashAlgorithm` as the key of a map: only variants without content. -/
def hashAlgOfKey (s : Str) : Option HashAlg :=
  if s = "sha256".toList then some .sha256
  else if s = "sha512".toList then some .sha512
  else none

/-! ### metadata.rs and shims.rs -/

/-- src/metadata.rs:149-163 `Role`, derived. -/
def decodeRole (j : Json) : Option Role :=
  match asVariant j with
  | none => none
  | some v => unitVariant [(Role.root.name, Role.root), (Role.snapshot.name, Role.snapshot),
      (Role.targets.name, Role.targets), (Role.timestamp.name, Role.timestamp)] v

/-- `SPEC_VERSION`, src/interchange/cjson/shims.rs:11. -/
def specVersion : Str := "1.0".toList

/-- The members `_type`, `spec_version`, `version` and `expires` with their checks, which all four
`try_into` functions of shims.rs make, and the check of the version in the `new` functions
(src/metadata.rs:683-688, 1052-1057, 1317-1322, 1694-1699). -/
def decodeHead (X : ShimLib) (role : Role) (m : Map Str Json) : Option (Nat × Time) := do
  let typ ← field m "_type".toList decodeRole
  let spec ← field m "spec_version".toList asStr
  let version ← field m "version".toList asU32
  let expires ← field m "expires".toList asStr
  let t ← X.parseDate expires
  if typ = role ∧ spec = specVersion ∧ 1 ≤ version then some (version, t) else none

/-- src/interchange/cjson/shims.rs:110-152 `RoleDefinition` and src/metadata.rs:819-840
`RoleDefinition::new`. -/
def decodeRoleDefinition (j : Json) : Option RoleDefinition := do
  let m ← asStruct ["threshold".toList, "keyids".toList] j
  let threshold ← field m "threshold".toList asU32
  let keyIds ← field m "keyids".toList (asVec decodeKeyId)
  if keyIds ≠ [] ∧ keyIds.Nodup ∧ 1 ≤ threshold ∧ threshold ≤ keyIds.length then
    some ⟨threshold, keyIds⟩ else none

/-- src/interchange/cjson/shims.rs:102-108 `RoleDefinitions`, derived. -/
def decodeRoles (j : Json) :
    Option (RoleDefinition × RoleDefinition × RoleDefinition × RoleDefinition) := do
  let m ← asStruct [Role.root.name, Role.snapshot.name, Role.targets.name, Role.timestamp.name] j
  let root ← field m Role.root.name decodeRoleDefinition
  let snapshot ← field m Role.snapshot.name decodeRoleDefinition
  let targets ← field m Role.targets.name decodeRoleDefinition
  let timestamp ← field m Role.timestamp.name decodeRoleDefinition
  some (root, snapshot, targets, timestamp)

/-- src/interchange/cjson/shims.rs:30-100 `RootMetadata` and src/metadata.rs:673-700. -/
def decodeRoot (X : ShimLib) (j : Json) : Option RootMetadata := do
  let m ← asStruct ["_type".toList, "spec_version".toList, "version".toList,
    "consistent_snapshot".toList, "expires".toList, "keys".toList, "roles".toList] j
  let consistent ← field m "consistent_snapshot".toList asBool
  let keys ← field m "keys".toList (asMapNoDup keyIdOfStr (decodePublicKey X))
  let (root, snapshot, targets, timestamp) ← field m "roles".toList decodeRoles
  let (version, expires) ← decodeHead X .root m
  some ⟨version, expires, consistent, keys.filter (fun p => decide (p.1 = p.2.keyId)), root,
    snapshot, targets, timestamp⟩

/-- `hashes` of src/interchange/cjson/shims.rs:453, 486. -/
def decodeHashes (j : Json) : Option (Map HashAlg HashValue) := asMap hashAlgOfKey decodeHex j

/-- src/interchange/cjson/shims.rs:482-497 `MetadataDescription` and src/metadata.rs:1141-1165. -/
def decodeMetadataDescription (j : Json) : Option MetadataDescription := do
  let m ← asStruct ["version".toList, "length".toList, "hashes".toList] j
  let version ← field m "version".toList asU32
  let length ← field m "length".toList asU64
  let hashes ← field m "hashes".toList decodeHashes
  if 1 ≤ version ∧ hashes ≠ [] then some ⟨version, length, hashes⟩ else none

/-- src/interchange/cjson/shims.rs:154-205 `TimestampMetadata` and src/metadata.rs:1047-1064. -/
def decodeTimestamp (X : ShimLib) (j : Json) : Option TimestampMetadata := do
  let m ← asStruct ["_type".toList, "spec_version".toList, "version".toList, "expires".toList,
    "meta".toList] j
  let snapshot ← field m "meta".toList fun j => do
    let m ← asStructStrict ["snapshot.json".toList] j
    field m "snapshot.json".toList decodeMetadataDescription
  let (version, expires) ← decodeHead X .timestamp m
  some ⟨version, expires, snapshot⟩

/-- `.json`. -/
def jsonExt : Str := ".json".toList

/-- src/interchange/cjson/shims.rs:253-265: the path before `.json`. -/
def stripJson (p : Str) : Option MetadataPath :=
  if jsonExt.length ≤ p.length ∧ p.drop (p.length - jsonExt.length) = jsonExt then
    match MetadataPath.new (p.take (p.length - jsonExt.length)) with
    | .error _ => none
    | .ok q => some q
  else none

/-- src/interchange/cjson/shims.rs:207-269 `SnapshotMetadata` and src/metadata.rs:1312-1329. The
names are stripped while the map is collected into a `HashMap`; different names give different
paths. -/
def decodeSnapshot (X : ShimLib) (j : Json) : Option SnapshotMetadata := do
  let m ← asStruct ["_type".toList, "spec_version".toList, "version".toList, "expires".toList,
    "meta".toList] j
  let metas ← field m "meta".toList (asMapNoDup some decodeMetadataDescription)
  let (version, expires) ← decodeHead X .snapshot m
  let metas ← mapAll (fun p => (stripJson p.1).map fun q => (q, p.2)) metas
  some ⟨version, expires, Map.collect metas⟩

/-- src/metadata.rs:1472-1477 `VirtualTargetPath::deserialize`. -/
def virtualPathOfStr (s : Str) : Option VirtualTargetPath :=
  match VirtualTargetPath.new s with
  | .error _ => none
  | .ok p => some p

/-- src/metadata.rs:957-962 `MetadataPath::deserialize`. -/
def metadataPathOfStr (s : Str) : Option MetadataPath :=
  match MetadataPath.new s with
  | .error _ => none
  | .ok p => some p

/-- The fields of src/interchange/cjson/shims.rs:450-456 `TargetDescription`. Because of
`#[serde(default)]` the last field may be missing from an array, too. -/
def targetFields : Json → Option (Map Str Json)
  | .arr [a, b] => some [("length".toList, a), ("hashes".toList, b)]
  | j => asStruct ["length".toList, "hashes".toList, "custom".toList] j

/-- src/interchange/cjson/shims.rs:450-480 `TargetDescription` and src/metadata.rs:1539-1555. -/
def decodeTargetDescription (j : Json) : Option TargetDescription := do
  let m ← targetFields j
  let length ← field m "length".toList asU64
  let hashes ← field m "hashes".toList decodeHashes
  let custom ← fieldOpt m "custom".toList (asMap some fun j => some j.normal)
  if hashes ≠ [] then some ⟨length, hashes, custom⟩ else none

/-- src/interchange/cjson/shims.rs:369-424 `Delegation` and src/metadata.rs:1915-1949. -/
def decodeDelegation (j : Json) : Option Delegation := do
  let m ← asStruct ["role".toList, "terminating".toList, "threshold".toList, "keyids".toList,
    "paths".toList] j
  let role ← field m "role".toList fun j => (asStr j).bind metadataPathOfStr
  let terminating ← field m "terminating".toList asBool
  let threshold ← field m "threshold".toList asU32
  let keyIds ← field m "keyids".toList (asVec decodeKeyId)
  let paths ← field m "paths".toList (asVec fun j => (asStr j).bind virtualPathOfStr)
  if paths.Nodup ∧ keyIds.Nodup ∧ keyIds ≠ [] ∧ paths ≠ [] ∧ 1 ≤ threshold ∧
      threshold ≤ keyIds.length then
    some ⟨role, terminating, threshold, keyIds, paths⟩ else none

/-- src/interchange/cjson/shims.rs:426-448 `Delegations` and src/metadata.rs:1850-1873. -/
def decodeDelegations (X : ShimLib) (j : Json) : Option Delegations := do
  let m ← asStruct ["keys".toList, "roles".toList] j
  let keys ← field m "keys".toList (asMapNoDup keyIdOfStr (decodePublicKey X))
  let roles ← field m "roles".toList (asVec decodeDelegation)
  if keys ≠ [] ∧ roles ≠ [] ∧ (roles.map Delegation.role).Nodup then some ⟨keys, roles⟩ else none

/-- src/interchange/cjson/shims.rs:271-321 `TargetsMetadata` and src/metadata.rs:1688-1707. -/
def decodeTargets (X : ShimLib) (j : Json) : Option TargetsMetadata := do
  let m ← asStruct ["_type".toList, "spec_version".toList, "version".toList, "expires".toList,
    "targets".toList, "delegations".toList] j
  let targets ← field m "targets".toList (asMap virtualPathOfStr decodeTargetDescription)
  let delegations ← fieldOpt m "delegations".toList (decodeDelegations X)
  let (version, expires) ← decodeHead X .targets m
  some ⟨version, expires, targets, delegations⟩

/-- src/verify.rs:89-93 and src/metadata.rs:341-353 `SignedMetadata`, derived. The field `signed` is
a `serde_json::Value`. -/
def decodeSigned (j : Json) : Option (List Signature × Json) := do
  let m ← asStruct ["signatures".toList, "signed".toList] j
  let sigs ← field m "signatures".toList (asVec decodeSignature)
  let signed ← field m "signed".toList some
  some (sigs, signed.normal)

/-- A decoder after reading the bytes: `Json::from_slice`, src/interchange/cjson/mod.rs:310-315. -/
def fromSlice {α : Type} (L : FloatLib) (f : Json → Option α) (b : Bytes) : Except Err α :=
  match parseJson L b with
  | .error e => .error e
  | .ok j =>
    match f j with
    | none => .error .encoding
    | some a => .ok a

/-- `Json::deserialize`, src/interchange/cjson/mod.rs:228-233. -/
def fromValue {α : Type} (f : Json → Option α) (j : Json) : Except Err α :=
  match f j with
  | none => .error .encoding
  | some a => .ok a

end RustTuf
