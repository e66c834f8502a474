import Verif.Spec.Restart
import Verif.Spec.ClientTargets
import Verif.Spec.FilePath

/-!
# Specification of an honestly published repository
When a set of files is a repository that a client with a given trusted root ought to accept. Written
in terms of files, signatures and descriptions only.
-/

namespace RustTuf.Spec

/-- The names of the top-level metadata. -/
def TopName (p : MetadataPath) : Prop :=
  p = "root".toList ∨ p = "timestamp".toList ∨ p = "snapshot".toList ∨ p = "targets".toList

/-- The remote repository serves the top-level metadata among the files `file`, in whatever chunks. -/
structure Serves {W : Type} (R : World W) (file : Files) : Prop where
  present : ∀ p v m h w b, TopName p → file p v = some b →
    ∃ evs, (R.remote.fetchMetadata p v m h w).1 = .ok evs ∧ delivered evs = (b, .eof)
  absent : ∀ p v m h w, TopName p → file p v = none →
    (R.remote.fetchMetadata p v m h w).1 = .error .notFound

/-- As long as `I` holds of the state of the outside world, the remote repository answers this request
with these bytes, in whatever chunks. -/
def Delivers {W : Type} (R : World W) (I : W → Prop) (p : MetadataPath) (v : MetadataVersion)
    (m : Option Nat) (h : HashData) (raw : Bytes) : Prop :=
  ∀ w, I w → ∃ evs, (R.remote.fetchMetadata p v m h w).1 = .ok evs ∧ delivered evs = (raw, .eof)

/-- The local repository accepts every write. -/
def Writable {W : Type} (R : World W) : Prop := ∀ p v raw w, (R.storeMetadata p v raw w).1 = .ok ()

/-- The clock never reaches `expires`. -/
def Before {W : Type} (R : World W) (expires : Time) : Prop :=
  ∀ w site, (R.clock w).1 site < expires

/-- Not longer than the limit, if there is one, nor than anything can be. -/
def NotLonger (limit : Option Nat) (raw : Bytes) : Prop :=
  raw.length ≤ 18446744073709551615 ∧ ∀ n, limit = some n → raw.length ≤ n

/-- The bytes are what a description announces. -/
def Described (D : Digest) (length : Nat) (hashes : Map HashAlg HashValue) (raw : Bytes) : Prop :=
  NotLonger (some length) raw ∧ ∃ a, Preferred hashes a (D a raw)

/-- Under which version a file is published. -/
def publishedAs (r : RootMetadata) (version : Nat) : MetadataVersion :=
  if r.consistentSnapshot then .number version else .none

/-- The published root files lead from root `r` to `r'`, which is the last one. -/
inductive Roots (E : Env) (cfg : Config) (file : Files) : RootMetadata → RootMetadata → Prop
  | last (r : RootMetadata) : r.version < 4294967295 →
      file "root".toList (.number (r.version + 1)) = none → Roots E cfg file r r
  | next (r r1 r' : RootMetadata) (raw : Bytes) :
      file "root".toList (.number (r.version + 1)) = some raw → NotLonger cfg.maxRootLength raw →
      Authentic E E.rootFromSlice raw r.root.threshold (rootSigners r) r1 →
      Authentic E E.rootFromSlice raw r1.root.threshold (rootSigners r1) r1 →
      r1.version = r.version + 1 → Roots E cfg file r1 r' → Roots E cfg file r r'

/-- The files are a complete repository under root `r`. -/
structure Published (E : Env) (D : Digest) (cfg : Config) (file : Files) (r : RootMetadata)
    (ts : TimestampMetadata) (sn : SnapshotMetadata) (ta : TargetsMetadata) : Prop where
  timestamp : ∃ raw, file "timestamp".toList .none = some raw ∧ NotLonger cfg.maxTimestampLength raw ∧
    Authentic E E.timestampFromSlice raw r.timestamp.threshold (timestampSigners r) ts
  snapshot : ∃ raw, file "snapshot".toList (publishedAs r sn.version) = some raw ∧
    Described D ts.snapshot.length ts.snapshot.hashes raw ∧
    Authentic E E.snapshotFromSlice raw r.snapshot.threshold (snapshotSigners r) sn
  snapshotVersion : ts.snapshot.version = sn.version
  targets : ∃ raw m, sn.metas.get? "targets".toList = some m ∧ m.version = ta.version ∧
    file "targets".toList (publishedAs r ta.version) = some raw ∧
    Described D m.length m.hashes raw ∧
    Authentic E E.targetsFromSlice raw r.targets.threshold (targetsSigners r) ta

/-- What a client trusts is not ahead of the published repository, and the same where the version is
the same. -/
structure Behind (t : Tuf) (r : RootMetadata) (ts : TimestampMetadata) (sn : SnapshotMetadata)
    (ta : TargetsMetadata) : Prop where
  timestamp : ∀ x, t.root.version = r.version → t.timestamp = some x → x = ts ∨ x.version < ts.version
  snapshot : ∀ x, t.snapshot = some x → x.version = sn.version → x = sn
  targets : ∀ x, t.targets = some x → x.version = ta.version → x = ta

/-- Under which name a target with the given digest is published: with consistent snapshots, its
file name is preceded by the digest and a dot. -/
def TargetFile (r : RootMetadata) (digest : HashValue) (path name : TargetPath) : Prop :=
  if r.consistentSnapshot then
    digest ≠ [] ∧ ∃ dirs file, pieces path = dirs ++ [file] ∧
      pieces name = dirs ++ [hexText digest ++ '.' :: file]
  else name = path

/-- The trusted metadata lists this content for the caller's path, to be downloaded under `name`. -/
def Available (D : Digest) (cfg : Config) (t : Tuf) (path name : TargetPath) (content : Bytes) : Prop :=
  t.snapshot ≠ none ∧ ∃ d a, TopEntry cfg t path d ∧ Preferred d.hashes a (D a content) ∧
    content.length ≤ d.length ∧ content.length ≤ 18446744073709551615 ∧
    TargetFile t.root (D a content) path name

/-- The remote repository serves a target under this name. -/
def ServesTarget {W : Type} (R : World W) (name : TargetPath) (content : Bytes) : Prop :=
  ∀ d w, ∃ evs, (R.remote.fetchTarget name d w).1 = .ok evs ∧ delivered evs = (content, .eof)

/-- The caller's writer accepts everything. -/
def Accepts {W : Type} (R : World W) : Prop :=
  (∀ b w, (R.write b w).1 = .ok ()) ∧ ∀ w, (R.flush w).1 = .ok ()

/-- The local repository accepts every target that is delivered completely. -/
def AcceptsTargets {W : Type} (R : World W) : Prop :=
  ∀ evs bs p w, delivered evs = (bs, .eof) → (R.storeTarget evs p w).1 = .ok ()

end RustTuf.Spec
