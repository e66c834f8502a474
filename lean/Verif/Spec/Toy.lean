import Verif.Model.Tuf

/-!
# A toy environment for concrete examples
Documents, decoders and signatures are given by finite tables. Used only in `example`s and in
counterexample theorems.
-/

namespace RustTuf.Toy

/-- Table lookup as a decoder. -/
def tab {V : Type} (m : Map Bytes V) (b : Bytes) : Except Err V :=
  match m.get? b with
  | some v => .ok v
  | none => .error .encoding

/-- The tables. `docs` maps raw documents to signature list and signed part; the other tables map
canonical bytes to metadata. -/
structure Table where
  docs : Map Bytes (List Signature × Bytes) := []
  roots : Map Bytes RootMetadata := []
  timestamps : Map Bytes TimestampMetadata := []
  snapshots : Map Bytes SnapshotMetadata := []
  targets : Map Bytes TargetsMetadata := []

/-- The signed part is its own canonical form. A signature is valid if it is the key value followed
by the message. -/
@[reducible] def Table.env (T : Table) : Env where
  Raw := Bytes
  parseSigned := tab T.docs
  canonicalize := fun b => .ok b
  rootFromSlice := tab T.roots
  timestampFromSlice := tab T.timestamps
  snapshotFromSlice := tab T.snapshots
  targetsFromSlice := tab T.targets
  rootOfRaw := tab T.roots
  ringVerify := fun _ key msg sig => decide (sig = key ++ msg)
  sigOrder := fun m => m
  sigOrder_perm := fun m => List.Perm.refl m

/-- A key with the given ID and value. -/
def key (id : Str) (v : UInt8) : PublicKey :=
  { typ := .ed25519, keyId := id, scheme := .ed25519, keyidHashAlgorithms := none, value := [v] }

/-- A signature by that key. -/
def sign (id : Str) (v : UInt8) (msg : Bytes) : Signature := { keyId := id, value := v :: msg }

/-- Constant clock. -/
def clk (now : Time) : Clock := fun _ => now

end RustTuf.Toy

namespace RustTuf.Toy

/-- A small world: document `i` is the byte `i`, its signed part is `[i]`, and it is signed by the
keys `k` and `d`. -/
structure World where
  roots : List (UInt8 × RootMetadata) := []
  timestamps : List (UInt8 × TimestampMetadata) := []
  snapshots : List (UInt8 × SnapshotMetadata) := []
  targets : List (UInt8 × TargetsMetadata) := []

/-- A document signed by both keys. -/
def doc (i : UInt8) : Bytes × (List Signature × Bytes) :=
  ([i], ([sign "k".toList 7 [i], sign "d".toList 8 [i]], [i]))

/-- The tables of a world. -/
@[reducible] def World.table (w : World) : Table :=
  { docs := (w.roots.map fun p => doc p.1) ++ (w.timestamps.map fun p => doc p.1) ++
      (w.snapshots.map fun p => doc p.1) ++ (w.targets.map fun p => doc p.1)
    roots := w.roots.map fun p => ([p.1], p.2)
    timestamps := w.timestamps.map fun p => ([p.1], p.2)
    snapshots := w.snapshots.map fun p => ([p.1], p.2)
    targets := w.targets.map fun p => ([p.1], p.2) }

/-- The environment of a world. -/
@[reducible] def World.env (w : World) : Env := w.table.env

/-- A role held by key `k`. -/
def byK : RoleDefinition := { threshold := 1, keyIds := ["k".toList] }
/-- A role held by both keys. -/
def byKD : RoleDefinition := { threshold := 2, keyIds := ["k".toList, "d".toList] }
/-- The keys. -/
def keys : Map KeyId PublicKey := [("k".toList, key "k".toList 7), ("d".toList, key "d".toList 8)]

/-- A root. -/
def root (version : Nat) (expires : Time) : RootMetadata :=
  { version, expires, consistentSnapshot := false, keys, root := byKD, snapshot := byK,
    targets := byK, timestamp := byK }
/-- A description with some length and a hash. -/
def descr (version : Nat) : MetadataDescription :=
  { version, length := 10, hashes := [(.sha256, [1, 2, 3])] }
/-- A timestamp announcing snapshot `snap`. -/
def timestamp (version : Nat) (expires : Time) (snap : Nat) : TimestampMetadata :=
  { version, expires, snapshot := descr snap }
/-- A snapshot with a list of role versions. -/
def snapshot (version : Nat) (expires : Time) (l : List (String × Nat)) : SnapshotMetadata :=
  { version, expires, metas := l.map fun p => (p.1.toList, descr p.2) }
/-- A target description. -/
def target (len : Nat) : TargetDescription :=
  { length := len, hashes := [(.sha256, [4, 5])], custom := none }
/-- Targets metadata. -/
def targets (version : Nat) (expires : Time) (l : List (String × Nat))
    (ds : Option Delegations) : TargetsMetadata :=
  { version, expires, targets := l.map fun p => (p.1.toList, target p.2), delegations := ds }
/-- A delegation to key `d`. -/
def delegation (role : String) (terminating : Bool) (paths : List String) : Delegation :=
  { role := role.toList, terminating, threshold := 1, keyIds := ["d".toList],
    paths := paths.map (·.toList) }
/-- A set of delegations. -/
def delegations (roles : List Delegation) : Delegations :=
  { keys := [("d".toList, key "d".toList 8)], roles }

end RustTuf.Toy
