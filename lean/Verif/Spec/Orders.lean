import Verif.Spec.Reproducible
import Verif.Spec.Storage

/-!
# Hash maps without an order
Rust visits the entries of a `HashMap` or `HashSet` in an order that changes from run to run. The
model keeps lists; these are the lists that stand for the same hash maps.
-/

namespace RustTuf.Spec
open Client

/-- The same error, or related values. -/
inductive SameResult {α β : Type} (R : α → β → Prop) : Except Err α → Except Err β → Prop
  | error (e : Err) : SameResult R (.error e) (.error e)
  | ok {a : α} {b : β} : R a b → SameResult R (.ok a) (.ok b)

/-- A hash map of keys, in which no key ID stands for two keys. -/
structure KeyMap (m : Map KeyId PublicKey) : Prop where
  maplike : MapLike m
  one : ∀ p ∈ m, ∀ q ∈ m, p.2.keyId = q.2.keyId → p.2 = q.2

/-- The same keys under the same IDs, in any order. (Maps in which one key ID stands for two keys are
left alone. In a decoded root document there is no such map, in a decoded targets document only if two
keys in it are a SHA-256 collision, see C116_json.) -/
def KeysAlike (a b : Map KeyId PublicKey) : Prop := a = b ∨ SameMap Eq a b ∧ KeyMap a ∧ KeyMap b

/-- The same root metadata, but the key map may be laid out differently. -/
structure RootAlike (a b : RootMetadata) : Prop where
  same : SameRoot a b
  keys : KeysAlike a.keys b.keys

structure SnapshotAlike (a b : SnapshotMetadata) : Prop where
  same : SameSnapshot a b
  left : MapLike a.metas
  right : MapLike b.metas

structure TargetsAlike (a b : TargetsMetadata) : Prop where
  same : SameTargets a b
  keys : ∀ d d', a.delegations = some d → b.delegations = some d' → KeysAlike d.keys d'.keys

/-- Two clients that trust the same, but whose hash maps may be laid out differently. -/
structure TufAlike (t t' : Tuf) : Prop where
  root : RootAlike t.root t'.root
  timestamp : Option.Rel SameTimestamp t.timestamp t'.timestamp
  snapshot : Option.Rel SnapshotAlike t.snapshot t'.snapshot
  targets : Option.Rel TargetsAlike t.targets t'.targets
  delegations : SameMap TargetsAlike t.delegations t'.delegations
  left : MapLike t.delegations
  right : MapLike t'.delegations

/-- How the hash maps happen to be laid out: what every document is read as, and the order in which
signatures are visited. -/
structure Orders (E : Env) where
  root : Bytes → Except Err RootMetadata
  timestamp : Bytes → Except Err TimestampMetadata
  snapshot : Bytes → Except Err SnapshotMetadata
  targets : Bytes → Except Err TargetsMetadata
  rootOfRaw : E.Raw → Except Err RootMetadata
  sigOrder : Map KeyId Signature → List (KeyId × Signature)
  sigOrder_perm : ∀ m, (sigOrder m).Perm m
  root_alike : ∀ b, SameResult RootAlike (E.rootFromSlice b) (root b)
  timestamp_alike : ∀ b, SameResult SameTimestamp (E.timestampFromSlice b) (timestamp b)
  snapshot_alike : ∀ b, SameResult SnapshotAlike (E.snapshotFromSlice b) (snapshot b)
  targets_alike : ∀ b, SameResult TargetsAlike (E.targetsFromSlice b) (targets b)
  raw_alike : ∀ v, SameResult RootAlike (E.rootOfRaw v) (rootOfRaw v)

/-- The library with its hash maps laid out like this. -/
def Orders.env {E : Env} (o : Orders E) : Env :=
  { E with
    rootFromSlice := o.root
    timestampFromSlice := o.timestamp
    snapshotFromSlice := o.snapshot
    targetsFromSlice := o.targets
    rootOfRaw := o.rootOfRaw
    sigOrder := o.sigOrder
    sigOrder_perm := o.sigOrder_perm }

/-- Another layout of what is read. -/
def Relaid {α β : Type} (Same : α → α → Prop) (Maps : α → Prop) (f f' : β → Except Err α) : Prop :=
  ∀ b, SameResult (fun a a' => Same a a' ∧ Maps a') (f b) (f' b)

/-- Two different keys with the same ID are listed in the delegations. -/
def Clash (m : TargetsMetadata) : Prop :=
  ∃ d, m.delegations = some d ∧ ∃ p ∈ d.keys, ∃ q ∈ d.keys, p.2.keyId = q.2.keyId ∧ p.2 ≠ q.2

/-- The repository does not look at the order of the hash maps in the description it is given. -/
def OrderBlind {W : Type} (P : Provider W) : Prop :=
  ∀ p d d' w, SameTarget d d' → P.fetchTarget p d w = P.fetchTarget p d' w

/-- The same reply, up to the order of the hash maps in a description. -/
def SameReply : Reply → Reply → Prop
  | .description d, .description d' => SameTarget d d'
  | r, r' => r = r'

/-- Calls of a client, where the hash maps are laid out anew in each call. -/
def repliesIn {W : Type} {E : Env} (D : Digest) (R : World W) (cfg : Config) :
    St W → List (Orders E × Call) → List (Except Err Reply) × St W
  | s, [] => ([], s)
  | s, (o, c) :: cs =>
    match exec o.env D R cfg c s with
    | (r, s') => match repliesIn D R cfg s' cs with | (rs, s'') => (r :: rs, s'')

end RustTuf.Spec
