import Verif.Spec.Published

/-!
# Specification of a repository that changes while it is used
What an author publishes, in which order the files are uploaded, and a remote repository whose files
change at any time between, and during, the requests of a client.
-/

namespace RustTuf.Spec

/-- What is published together, and the documents. -/
structure Release where
  timestamp : TimestampMetadata
  snapshot : SnapshotMetadata
  targets : TargetsMetadata
  rawTimestamp : Bytes
  rawSnapshot : Bytes
  rawTargets : Bytes

/-- The documents are properly signed under root `r` and describe each other. -/
structure Release.Correct (E : Env) (D : Digest) (cfg : Config) (r : RootMetadata) (x : Release) :
    Prop where
  timestamp : NotLonger cfg.maxTimestampLength x.rawTimestamp ∧
    Authentic E E.timestampFromSlice x.rawTimestamp r.timestamp.threshold (timestampSigners r) x.timestamp
  snapshot : x.timestamp.snapshot.version = x.snapshot.version ∧
    Described D x.timestamp.snapshot.length x.timestamp.snapshot.hashes x.rawSnapshot ∧
    Authentic E E.snapshotFromSlice x.rawSnapshot r.snapshot.threshold (snapshotSigners r) x.snapshot
  targets : ∃ m, x.snapshot.metas.get? "targets".toList = some m ∧ m.version = x.targets.version ∧
    Described D m.length m.hashes x.rawTargets ∧
    Authentic E E.targetsFromSlice x.rawTargets r.targets.threshold (targetsSigners r) x.targets

/-- No part of the release has expired, ever. -/
def Release.Lasting {W : Type} (R : World W) (x : Release) : Prop :=
  Before R x.timestamp.expires ∧ Before R x.snapshot.expires ∧ Before R x.targets.expires

/-- The second release comes after the first: it has a higher timestamp version, and whatever has the
same version is the same. -/
structure Later (x y : Release) : Prop where
  timestamp : x.timestamp.version < y.timestamp.version
  snapshot : x.snapshot.version = y.snapshot.version →
    x.snapshot = y.snapshot ∧ x.rawSnapshot = y.rawSnapshot
  targets : x.targets.version = y.targets.version →
    x.targets = y.targets ∧ x.rawTargets = y.rawTargets

/-- The files of the repository at moments 0, 1, 2, … are such that clients can use the repository at
any time: the timestamp is that of the current release, and the snapshot and targets of the current
and of earlier releases are there under their versions. -/
structure Orderly (files : Nat → Files) (current : Nat → Release) : Prop where
  timestamp : ∀ k, files k "timestamp".toList .none = some (current k).rawTimestamp
  snapshot : ∀ j k, j ≤ k →
    files k "snapshot".toList (.number (current j).snapshot.version) = some (current j).rawSnapshot
  targets : ∀ j k, j ≤ k →
    files k "targets".toList (.number (current j).targets.version) = some (current j).rawTargets
  order : ∀ j k, j ≤ k → current j = current k ∨ Later (current j) (current k)

/-- The remote repository answers each request from the files at the moment of the answer. Moments
never go back, but any number of them may pass before each answer and during each other operation of
the client. `moment` tells it. -/
structure Hosts {W : Type} (R : World W) (files : Nat → Files) (moment : W → Nat) : Prop where
  present : ∀ p v m h w b, TopName p →
    files (moment (R.remote.fetchMetadata p v m h w).2) p v = some b →
    ∃ evs, (R.remote.fetchMetadata p v m h w).1 = .ok evs ∧ delivered evs = (b, .eof)
  absent : ∀ p v m h w, TopName p →
    files (moment (R.remote.fetchMetadata p v m h w).2) p v = none →
    (R.remote.fetchMetadata p v m h w).1 = .error .notFound
  fetch : ∀ p v m h w, moment w ≤ moment (R.remote.fetchMetadata p v m h w).2
  store : ∀ p v raw w, moment w ≤ moment (R.storeMetadata p v raw w).2
  clock : ∀ w, moment w ≤ moment (R.clock w).2

/-- The author replaces roots while clients use the repository. `root v` is the root of version `v` and
`raw v` its document; at moment `k` the versions up to `last k` are there, and never more than `top`.
Roots are only added, and each is signed with enough keys of its predecessor and of its own. -/
structure Rotating (E : Env) (cfg : Config) (files : Nat → Files) (root : Nat → RootMetadata)
    (raw : Nat → Bytes) (last : Nat → Nat) (first top : Nat) : Prop where
  order : ∀ j k, j ≤ k → last j ≤ last k
  bound : ∀ k, last k ≤ top
  small : top < 4294967295
  present : ∀ k v, first < v → v ≤ last k → files k "root".toList (.number v) = some (raw v)
  absent : ∀ k, files k "root".toList (.number (last k + 1)) = none
  signed : ∀ v, first ≤ v → v < top → NotLonger cfg.maxRootLength (raw (v + 1)) ∧
    Authentic E E.rootFromSlice (raw (v + 1)) (root v).root.threshold (rootSigners (root v)) (root (v + 1)) ∧
    Authentic E E.rootFromSlice (raw (v + 1)) (root (v + 1)).root.threshold (rootSigners (root (v + 1)))
      (root (v + 1)) ∧
    (root (v + 1)).version = v + 1

/-- One upload. -/
structure Upload where
  path : MetadataPath
  version : MetadataVersion
  raw : Bytes

/-- The files after an upload. -/
def Upload.apply (f : Files) (u : Upload) : Files := f.put u.path u.version u.raw

/-- The uploads of one release, in the order of src/repo_builder.rs:162-202. -/
def uploads (x : Release) : List Upload :=
  [⟨"targets".toList, .number x.targets.version, x.rawTargets⟩,
   ⟨"snapshot".toList, .number x.snapshot.version, x.rawSnapshot⟩,
   ⟨"targets".toList, .none, x.rawTargets⟩,
   ⟨"snapshot".toList, .none, x.rawSnapshot⟩,
   ⟨"timestamp".toList, .none, x.rawTimestamp⟩]

/-- The files after the first `k` uploads of the given releases. -/
def filesAfter (base : Files) (xs : List Release) (k : Nat) : Files :=
  ((xs.flatMap uploads).take k).foldl Upload.apply base

/-- The last release whose uploads are complete after `k` uploads; `x` is the one that was there before. -/
def lastRelease (x : Release) : List Release → Nat → Release
  | [], _ => x
  | y :: ys, k => if k < 5 then x else lastRelease y ys (k - 5)

/-- The files offer this release. -/
structure Offers (f : Files) (x : Release) : Prop where
  timestamp : f "timestamp".toList .none = some x.rawTimestamp
  snapshot : f "snapshot".toList (.number x.snapshot.version) = some x.rawSnapshot
  targets : f "targets".toList (.number x.targets.version) = some x.rawTargets

/-- What the client trusts is this release. -/
structure Holding (t : Tuf) (r : RootMetadata) (x : Release) : Prop where
  root : t.root = r
  timestamp : t.timestamp = some x.timestamp
  snapshot : t.snapshot = some x.snapshot
  targets : t.targets = some x.targets

/-- The release lists this content for the caller's path, to be downloaded under `name`. -/
def Release.Lists (D : Digest) (cfg : Config) (r : RootMetadata) (x : Release) (path name : TargetPath)
    (content : Bytes) : Prop :=
  ∃ virt d a, cfg.realToVirtual path = .ok virt ∧ x.targets.targets.get? virt = some d ∧
    Preferred d.hashes a (D a content) ∧ content.length ≤ d.length ∧
    content.length ≤ 18446744073709551615 ∧ TargetFile r (D a content) path name

/-- The target files of the repository at moments 0, 1, 2, … Each release lists the content that is
meant for a path, and from the moment the release is current that content stays where clients look for
it. -/
def Stocked (D : Digest) (cfg : Config) (r : RootMetadata) (current : Nat → Release)
    (stock meant : Nat → TargetPath → Option Bytes) : Prop :=
  ∀ j path content, meant j path = some content →
    ∃ name, (current j).Lists D cfg r path name content ∧ ∀ k, j ≤ k → stock k name = some content

/-- The remote repository answers requests for targets from the files at the moment of the answer, and
no operation of the client sends the moment back. -/
structure HostsTargets {W : Type} (R : World W) (stock : Nat → TargetPath → Option Bytes)
    (moment : W → Nat) : Prop where
  present : ∀ name d w b, stock (moment (R.remote.fetchTarget name d w).2) name = some b →
    ∃ evs, (R.remote.fetchTarget name d w).1 = .ok evs ∧ delivered evs = (b, .eof)
  target : ∀ name d w, moment w ≤ moment (R.remote.fetchTarget name d w).2
  cache : ∀ p v m h w, moment w ≤ moment (R.cache.fetchMetadata p v m h w).2
  save : ∀ evs p w, moment w ≤ moment (R.storeTarget evs p w).2
  write : ∀ b w, moment w ≤ moment (R.write b w).2
  flush : ∀ w, moment w ≤ moment (R.flush w).2

end RustTuf.Spec
