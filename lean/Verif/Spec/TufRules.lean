import Verif.Spec.Trust

/-!
# Specification of the update rules
Each rule states, in terms of the old and the new trusted state, when a document is installed. None
of the model's update functions or version helpers is used.
-/

namespace RustTuf.Spec

/-- Version of an optional piece of metadata; zero if there is none. -/
def verOf {α : Type} (version : α → Nat) : Option α → Nat
  | none => 0
  | some a => version a

/-- The name of the top-level targets role. -/
def targetsName : MetadataPath := "targets".toList

/-- Version the snapshot lists for a role; zero if it is not listed. -/
def listed (s : SnapshotMetadata) (role : MetadataPath) : Nat :=
  verOf MetadataDescription.version (s.metas.get? role)

/-- Rule for installing a root `new` contained in `raw`. -/
structure RootRule (E : Env) (t : Tuf) (raw : Bytes) (new : RootMetadata) : Prop where
  signedByOld : Authentic E E.rootFromSlice raw t.root.root.threshold (rootSigners t.root) new
  signedBySelf : Authentic E E.rootFromSlice raw new.root.threshold (rootSigners new) new
  nextVersion : new.version = t.root.version + 1
  noOverflow : t.root.version + 1 ≤ 4294967295

/-- Rule for installing a timestamp. -/
structure TimestampRule (E : Env) (clk : Clock) (t : Tuf) (raw : Bytes)
    (new : TimestampMetadata) : Prop where
  signed : Authentic E E.timestampFromSlice raw t.root.timestamp.threshold (timestampSigners t.root) new
  newer : verOf (·.version) t.timestamp < new.version
  unexpired : clk .new < new.expires

/-- Rule for installing a snapshot. -/
structure SnapshotRule (E : Env) (clk : Clock) (t : Tuf) (raw : Bytes)
    (new : SnapshotMetadata) : Prop where
  rootUnexpired : clk .root < t.root.expires
  announced : ∃ ts, t.timestamp = some ts ∧ clk .timestamp < ts.expires ∧
    verOf (·.version) t.snapshot < ts.snapshot.version ∧ new.version = ts.snapshot.version
  signed : Authentic E E.snapshotFromSlice raw t.root.snapshot.threshold (snapshotSigners t.root) new

/-- State after installing a snapshot: targets metadata stays only if its version is the listed one;
delegated metadata stays unless the snapshot lists a lower version for it. -/
structure SnapshotPost (t t' : Tuf) (new : SnapshotMetadata) : Prop where
  root : t'.root = t.root
  timestamp : t'.timestamp = t.timestamp
  snapshot : t'.snapshot = some new
  targetsKept : verOf (·.version) t.targets = listed new targetsName → t'.targets = t.targets
  targetsDropped : verOf (·.version) t.targets ≠ listed new targetsName → t'.targets = none
  delegations : ∀ role d, t'.delegations.get? role = some d ↔
    t.delegations.get? role = some d ∧ ¬ ∃ m, (role, m) ∈ new.metas ∧ m.version < d.version

/-- Rule for installing top-level targets metadata. -/
structure TargetsRule (E : Env) (clk : Clock) (t : Tuf) (raw : Bytes)
    (new : TargetsMetadata) : Prop where
  rootUnexpired : clk .root < t.root.expires
  announced : ∃ sn m, t.snapshot = some sn ∧ clk .snapshot < sn.expires ∧
    sn.metas.get? targetsName = some m ∧
    verOf (·.version) t.targets < m.version ∧ new.version = m.version
  signed : Authentic E E.targetsFromSlice raw t.root.targets.threshold (targetsSigners t.root) new
  unexpired : clk .new < new.expires

/-- Metadata of the parent of a delegation. -/
def ParentMeta (t : Tuf) (parent : MetadataPath) (p : TargetsMetadata) : Prop :=
  (parent = targetsName ∧ t.targets = some p) ∨
  (parent ≠ targetsName ∧ t.delegations.get? parent = some p)

/-- `parent` delegates `role` by the entry `d` of `ds`; if a role is delegated twice, the first
entry counts. -/
def Delegates (t : Tuf) (parent role : MetadataPath) (ds : Delegations) (d : Delegation) : Prop :=
  ∃ p, ParentMeta t parent p ∧ p.delegations = some ds ∧
    ∃ pre post, ds.roles = pre ++ d :: post ∧ d.role = role ∧ ∀ x ∈ pre, x.role ≠ role

/-- Conditions under which delegated metadata is looked at; `m` is its description. -/
structure DelegationContext (clk : Clock) (t : Tuf) (role : MetadataPath)
    (m : MetadataDescription) : Prop where
  rootUnexpired : clk .root < t.root.expires
  listedInSnapshot : ∃ sn, t.snapshot = some sn ∧ clk .snapshot < sn.expires ∧
    sn.metas.get? role = some m
  targetsDelegate : ∃ ta, t.targets = some ta ∧ clk .targets < ta.expires ∧ ta.delegations ≠ none

/-- `new` carries the signatures its delegation by `parent` asks for. -/
def DelegationSigned (E : Env) (t : Tuf) (parent role : MetadataPath) (raw : Bytes)
    (new : TargetsMetadata) : Prop :=
  ∃ ds d, Delegates t parent role ds d ∧
    Authentic E E.targetsFromSlice raw d.threshold (keysFor ds.keys d.keyIds) new

/-- Rule for installing delegated metadata. -/
structure DelegationRule (E : Env) (clk : Clock) (t : Tuf) (parent role : MetadataPath)
    (raw : Bytes) (new : TargetsMetadata) : Prop where
  context : ∃ m, DelegationContext clk t role m ∧
    verOf (·.version) (t.delegations.get? role) < m.version ∧ new.version = m.version
  signed : DelegationSigned E t parent role raw new
  unexpired : clk .new < new.expires

end RustTuf.Spec
