import Verif.Model.Metadata
import Verif.Model.StrOrder

/-!
# Making and merging signed metadata (src/metadata.rs:238-466)
-/

namespace RustTuf

/-- The parts of `DataInterchange` used here; `Raw` is `D::RawData`. -/
structure Interchange (Raw : Type) where
  canonicalize : Raw → Except Err Bytes
  /-- whether `D::deserialize::<M>` succeeds (its error otherwise) -/
  parses : Raw → Except Err Unit

/-- src/crypto.rs:331-337 `PrivateKey`: a trait, so arbitrary code. -/
structure PrivateKey where
  sign : Bytes → Except Err Signature
  publicKeyId : KeyId

/-- src/metadata.rs:275-283 `SignedMetadataBuilder`. -/
structure SignedBuilder (Raw : Type) where
  signatures : Map KeyId Signature
  metadata : Raw
  metadataBytes : Bytes

/-- src/metadata.rs:343-353 `SignedMetadata`. -/
structure SignedMetadata (Raw : Type) where
  signatures : List Signature
  metadata : Raw
deriving DecidableEq

namespace SignedBuilder
variable {Raw : Type}

/-- src/metadata.rs:298-307 `from_raw_metadata`. -/
def fromRawMetadata (X : Interchange Raw) (metadata : Raw) : Except Err (SignedBuilder Raw) :=
  match X.parses metadata with
  | .error e => .error e
  | .ok () =>
    match X.canonicalize metadata with
    | .error e => .error e
    | .ok bytes => .ok ⟨[], metadata, bytes⟩

/-- src/metadata.rs:316-320 `sign`. -/
def sign (b : SignedBuilder Raw) (key : PrivateKey) : Except Err (SignedBuilder Raw) :=
  match key.sign b.metadataBytes with
  | .error e => .error e
  | .ok sig => .ok { b with signatures := b.signatures.insert sig.keyId sig }

/-- One step of a stable sort by key ID. `sort_unstable_by` may order equal elements differently;
the theorems show that there are none. -/
def sortInsert (s : Signature) : List Signature → List Signature
  | [] => [s]
  | t :: l => if strLt t.keyId s.keyId then t :: sortInsert s l else s :: t :: l

/-- Sorting by key ID. -/
def sortByKeyId : List Signature → List Signature
  | [] => []
  | s :: l => sortInsert s (sortByKeyId l)

/-- src/metadata.rs:324-338 `build`. The `HashMap` is a list in its order of iteration. -/
def build (b : SignedBuilder Raw) : SignedMetadata Raw :=
  ⟨sortByKeyId (b.signatures.map Prod.snd), b.metadata⟩

end SignedBuilder

namespace SignedMetadata
variable {Raw : Type}

/-- src/metadata.rs:373-382 `new`, for metadata serialized as `raw`. -/
def new (X : Interchange Raw) (raw : Raw) (key : PrivateKey) : Except Err (SignedMetadata Raw) :=
  match X.canonicalize raw with
  | .error e => .error e
  | .ok bytes =>
    match key.sign bytes with
    | .error e => .error e
    | .ok sig => .ok ⟨[sig], raw⟩

/-- src/metadata.rs:431-439 `add_signature`: result and the object afterwards. -/
def addSignature (X : Interchange Raw) (m : SignedMetadata Raw) (key : PrivateKey) :
    Except Err Unit × SignedMetadata Raw :=
  match X.canonicalize m.metadata with
  | .error e => (.error e, m)
  | .ok bytes =>
    match key.sign bytes with
    | .error e => (.error e, m)
    | .ok sig =>
      (.ok (), { m with
        signatures := m.signatures.filter (fun s => decide (s.keyId ≠ key.publicKeyId)) ++ [sig] })

/-- src/metadata.rs:444-466 `merge_signatures`: result and the object afterwards. -/
def mergeSignatures [DecidableEq Raw] (m other : SignedMetadata Raw) :
    Except Err Unit × SignedMetadata Raw :=
  if m.metadata ≠ other.metadata then (.error .illegalArgument, m) else
  let keyIds := m.signatures.map Signature.keyId
  (.ok (), { m with
    signatures := m.signatures ++ other.signatures.filter (fun s => !keyIds.contains s.keyId) })

end SignedMetadata
end RustTuf
