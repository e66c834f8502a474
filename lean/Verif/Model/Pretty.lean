import Verif.Model.Builders

/-!
# The `JsonPretty` interchange (src/interchange/cjson/pretty.rs)
`extension`, `canonicalize`, `deserialize`, `serialize`, `from_reader` and `from_slice` call the functions of
`Json` (lines 29-62, 80-85, 135-151). Only `to_writer` differs.
-/

namespace RustTuf

/-- serde_json `PrettyFormatter`, `indent`: a line break and two spaces per level. -/
def newline (level : Nat) : Str := '\n' :: List.replicate (2 * level) ' '

namespace Json

mutual
/-- serde_json 1.0 `to_writer_pretty` of a `Value`, inside `level` arrays and objects. How floating-point
numbers are written is the parameter `fl`. -/
def pretty (fl : Nat → Str) (level : Nat) : Json → Str
  | .null => "null".toList
  | .bool true => "true".toList
  | .bool false => "false".toList
  | .int i => writeInt i
  | .float b => fl b
  | .str s => writeStr s
  | .arr l => '[' :: (prettyL fl (level + 1) true l ++ (if l.isEmpty then [] else newline level) ++ [']'])
  | .obj m => '{' :: (prettyM fl (level + 1) true m ++ (if m.isEmpty then [] else newline level) ++ ['}'])
/-- `PrettyFormatter::begin_array_value`: the flag is `first`. -/
def prettyL (fl : Nat → Str) (level : Nat) : Bool → List Json → Str
  | _, [] => []
  | first, v :: l =>
    (if first then [] else [',']) ++ newline level ++ pretty fl level v ++ prettyL fl level false l
/-- `PrettyFormatter::begin_object_key`, `begin_object_value`: the flag is `first`. -/
def prettyM (fl : Nat → Str) (level : Nat) : Bool → List (Str × Json) → Str
  | _, [] => []
  | first, (k, v) :: m =>
    (if first then [] else [',']) ++ newline level ++ writeStr k ++ [':', ' '] ++ pretty fl level v ++
      prettyM fl level false m
end

end Json

/-- `JsonPretty::to_writer` into a vector, src/interchange/cjson/pretty.rs:120-129. -/
def SignedMetadata.toWriterPretty (fl : Nat → Str) (m : SignedMetadata JsonValue) : Except Err Bytes :=
  match serialize (some (encodeSigned m)) with
  | .error e => .error e
  | .ok v => .ok (utf8 (v.1.pretty fl 0))

/-- The common part of src/metadata.rs:984-990 and 1248-1254 for `D = JsonPretty`. -/
def describePretty (fl : Nat → Str) (D : Digest) (m : SignedMetadata JsonValue) (algs : List HashAlg) :
    Except Err MetadataDescription := do
  let bytes ← m.toWriterPretty fl
  let version ← m.parseVersion
  MetadataDescription.fromReader D (sliceReader bytes) version algs

/-- src/metadata.rs:976-992 `TimestampMetadataBuilder::from_snapshot` for `D = JsonPretty`. -/
def TimestampBuilder.fromSnapshotPretty (fl : Nat → Str) (D : Digest) (expires : Time)
    (m : SignedMetadata JsonValue) (algs : List HashAlg) : Except Err TimestampBuilder := do
  let d ← describePretty fl D m algs
  .ok (fromDescription expires d)

/-- src/metadata.rs:1236-1256 `SnapshotMetadataBuilder::insert_metadata_with_path` for
`D = JsonPretty`. -/
def SnapshotBuilder.insertWithPathPretty (fl : Nat → Str) (D : Digest) (b : SnapshotBuilder) (path : Str)
    (m : SignedMetadata JsonValue) (algs : List HashAlg) : Except Err SnapshotBuilder := do
  let d ← describePretty fl D m algs
  let p ← MetadataPath.new path
  .ok (b.insertDescription p d)

end RustTuf
