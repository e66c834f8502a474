import Verif.Model.Builders
import Verif.Spec.RoundTrip
import Verif.Spec.Readers

/-!
# What a chain of builder calls asks for
-/

namespace RustTuf.Spec

/-- The argument of the last call of some kind, or the default. -/
def lastArg {C α : Type} (pick : C → Option α) (default : α) (cs : List C) : α :=
  ((cs.filterMap pick).getLast?).getD default

def RootCall.version? : RootCall → Option Nat
  | .version n => some n
  | _ => none

def RootCall.expires? : RootCall → Option Time
  | .expires t => some t
  | _ => none

def RootCall.consistent? : RootCall → Option Bool
  | .consistentSnapshot c => some c
  | _ => none

def RootCall.threshold? (role : Role) : RootCall → Option Nat
  | .threshold r n => if r = role then some n else none
  | _ => none

def RootCall.key? : RootCall → Option PublicKey
  | .key _ k => some k
  | _ => none

def RootCall.keyOf? (role : Role) : RootCall → Option PublicKey
  | .key r k => if r = role then some k else none
  | _ => none

/-- The threshold asked for. -/
def askedThreshold (role : Role) (cs : List RootCall) : Nat := lastArg (RootCall.threshold? role) 1 cs

/-- The keys added for a role, in this order. -/
def askedKeys (role : Role) (cs : List RootCall) : List PublicKey :=
  cs.filterMap (RootCall.keyOf? role)

/-- A role of a root. -/
def roleOf (r : RootMetadata) : Role → RoleDefinition
  | .root => r.root
  | .snapshot => r.snapshot
  | .targets => r.targets
  | .timestamp => r.timestamp

/-- The root is what the calls ask for, with these defaults: version 1, thresholds 1, no consistent
snapshots. Of several keys with the same ID the last one is kept. -/
structure AskedRoot (expires : Time) (cs : List RootCall) (r : RootMetadata) : Prop where
  version : r.version = lastArg RootCall.version? 1 cs
  expires : r.expires = lastArg RootCall.expires? expires cs
  consistent : r.consistentSnapshot = lastArg RootCall.consistent? false cs
  roles : ∀ role, roleOf r role =
    ⟨askedThreshold role cs, (askedKeys role cs).map PublicKey.keyId⟩
  keys : ∀ id, r.keys.get? id =
    ((cs.filterMap RootCall.key?).filter fun k => decide (k.keyId = id)).getLast?

/-- No role of the root lists a key ID twice. -/
def DistinctIds (r : RootMetadata) : Prop := ∀ role, (roleOf r role).keyIds.Nodup

/-- The version and thresholds fit `u32`, as they do in Rust. -/
def RootCall.Fits : RootCall → Prop
  | .version n => n < 2 ^ 32
  | .threshold _ n => n < 2 ^ 32
  | _ => True

/-! ### Descriptions -/

/-- Every algorithm asked for has the digest of the bytes, and no other is listed. -/
def DigestsOf (D : Digest) (algs : List HashAlg) (hashes : Map HashAlg HashValue) (bytes : Bytes) : Prop :=
  ∀ a, hashes.get? a = if a ∈ algs then some (D a bytes) else none

/-- The JSON value has this version: as the member of an object, or (serde reads structs from arrays,
too) as the only element of an array. -/
def HasVersion (j : Json) (n : Nat) : Prop :=
  (∃ ms, j = .obj ms ∧ Map.get? ms "version".toList = some (.int n)) ∨ j = .arr [.int n]

/-- The description belongs to the published bytes of signed metadata. -/
structure DescribesMetadata (D : Digest) (m : SignedMetadata JsonValue) (algs : List HashAlg)
    (d : MetadataDescription) : Prop where
  version : HasVersion m.metadata.1 d.version
  raw : ∃ raw, m.toRaw = .ok raw ∧ d.length = raw.length ∧ DigestsOf D algs d.hashes raw

/-- The description belongs to what a reader delivers. -/
structure DescribesTarget (D : Digest) (src : List Ev) (algs : List HashAlg) (d : TargetDescription) :
    Prop where
  content : ∃ bytes, delivered src = (bytes, .eof) ∧ d.length = bytes.length ∧
    DigestsOf D algs d.hashes bytes
  custom : d.custom = none

/-! ### Timestamp, snapshot and targets -/

def TimestampCall.version? : TimestampCall → Option Nat
  | .version n => some n
  | _ => none

def TimestampCall.expires? : TimestampCall → Option Time
  | .expires t => some t
  | _ => none

/-- The version fits `u32`. -/
def TimestampCall.Fits : TimestampCall → Prop
  | .version n => n < 2 ^ 32
  | _ => True

/-- The timestamp for this snapshot is what the calls ask for. -/
structure AskedTimestamp (D : Digest) (expires : Time) (sn : SignedMetadata JsonValue)
    (algs : List HashAlg) (cs : List TimestampCall) (m : TimestampMetadata) : Prop where
  version : m.version = lastArg TimestampCall.version? 1 cs
  expires : m.expires = lastArg TimestampCall.expires? expires cs
  snapshot : DescribesMetadata D sn algs m.snapshot

def SnapshotCall.version? : SnapshotCall → Option Nat
  | .version n => some n
  | _ => none

def SnapshotCall.expires? : SnapshotCall → Option Time
  | .expires t => some t
  | _ => none

/-- The path that a call inserts a description for. -/
def SnapshotCall.path? : SnapshotCall → Option Str
  | .metadata p _ _ => some p
  | .description p _ => some p
  | _ => none

/-- The call inserts this description. -/
def SnapshotCall.Gives (D : Digest) : SnapshotCall → MetadataDescription → Prop
  | .metadata _ m algs, d => DescribesMetadata D m algs d
  | .description _ d', d => d = d'
  | _, _ => False

/-- What the type system guarantees about the arguments of a call. -/
def SnapshotCall.Fits : SnapshotCall → Prop
  | .version n => n < 2 ^ 32
  | .description p d => MetadataPath.new p = .ok p ∧ GoodDescription d
  | _ => True

/-- The last call about the path `p` is `c`. -/
def LastAbout {C P : Type} (path? : C → Option P) (cs : List C) (p : P) (c : C) : Prop :=
  ∃ cs1 cs2, cs = cs1 ++ c :: cs2 ∧ path? c = some p ∧ ∀ c' ∈ cs2, path? c' ≠ some p

/-- The snapshot is what the calls ask for. -/
structure AskedSnapshot (D : Digest) (expires : Time) (cs : List SnapshotCall) (m : SnapshotMetadata) :
    Prop where
  version : m.version = lastArg SnapshotCall.version? 1 cs
  expires : m.expires = lastArg SnapshotCall.expires? expires cs
  listed : ∀ p d, m.metas.get? p = some d → ∃ c, LastAbout SnapshotCall.path? cs p c
  described : ∀ p c, LastAbout SnapshotCall.path? cs p c →
    ∃ d, m.metas.get? p = some d ∧ SnapshotCall.Gives D c d

def TargetsCall.version? : TargetsCall → Option Nat
  | .version n => some n
  | _ => none

def TargetsCall.expires? : TargetsCall → Option Time
  | .expires t => some t
  | _ => none

def TargetsCall.delegations? : TargetsCall → Option Delegations
  | .delegations d => some d
  | _ => none

def TargetsCall.path? : TargetsCall → Option VirtualTargetPath
  | .target p _ _ => some p
  | .description p _ => some p
  | _ => none

/-- The call inserts this description. -/
def TargetsCall.Gives (D : Digest) : TargetsCall → TargetDescription → Prop
  | .target _ src algs, d => DescribesTarget D src algs d
  | .description _ d', d => d = d'
  | _, _ => False

/-- What the type system guarantees about the arguments of a call, and that no reader delivers more
than any file can hold. -/
def TargetsCall.Fits : TargetsCall → Prop
  | .version n => n < 2 ^ 32
  | .target p src _ => VirtualTargetPath.new p = .ok p ∧ (delivered src).1.length < 2 ^ 64
  | .description p d => VirtualTargetPath.new p = .ok p ∧ GoodTarget d ∧
      ∀ c, d.custom = some c → (c.map Prod.fst).Nodup ∧ ∀ q ∈ c, q.2.normal = q.2
  | _ => True

/-- The targets metadata is what the calls ask for. -/
structure AskedTargets (D : Digest) (expires : Time) (cs : List TargetsCall) (m : TargetsMetadata) :
    Prop where
  version : m.version = lastArg TargetsCall.version? 1 cs
  expires : m.expires = lastArg TargetsCall.expires? expires cs
  delegations : m.delegations = (cs.filterMap TargetsCall.delegations?).getLast?
  listed : ∀ p d, m.targets.get? p = some d → ∃ c, LastAbout TargetsCall.path? cs p c
  described : ∀ p c, LastAbout TargetsCall.path? cs p c →
    ∃ d, m.targets.get? p = some d ∧ TargetsCall.Gives D c d

end RustTuf.Spec
