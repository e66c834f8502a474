import Verif.Model.Client
import Verif.Spec.History

/-!
# Specification of what a client does
Rules about the ghost record of a client run: what may be requested, what may be submitted to
verification, and what may be written to the local repository. They refer to trusted metadata and
records only, not to the client's functions.
-/

namespace RustTuf.Spec

/-- What a metadata document is meant to be. -/
inductive Kind where
  | top (r : Role)
  | delegated (role : MetadataPath)
deriving DecidableEq

/-- The path under which it is found. -/
def Kind.path : Kind → MetadataPath
  | .top .root => "root".toList
  | .top .timestamp => "timestamp".toList
  | .top .snapshot => "snapshot".toList
  | .top .targets => "targets".toList
  | .delegated role => role

/-- The update call that submits a document of a kind to verification. -/
inductive Submits : Tuf.Op → Kind → Bytes → Prop
  | root (raw : Bytes) : Submits (.root raw) (.top .root) raw
  | timestamp (clk : Clock) (raw : Bytes) : Submits (.timestamp clk raw) (.top .timestamp) raw
  | snapshot (clk : Clock) (raw : Bytes) : Submits (.snapshot clk raw) (.top .snapshot) raw
  | targets (clk : Clock) (raw : Bytes) : Submits (.targets clk raw) (.top .targets) raw
  | delegation (clk : Clock) (parent role : MetadataPath) (raw : Bytes) :
      Submits (.delegation clk parent role raw) (.delegated role) raw

/-- The digest a download is compared with: SHA-512 if listed, otherwise SHA-256. -/
def Preferred (hashes : Map HashAlg HashValue) (a : HashAlg) (v : HashValue) : Prop :=
  hashes.get? a = some v ∧ (a = .sha512 ∨ a = .sha256 ∧ hashes.get? .sha512 = none)

/-- The document is as announced: not longer than `max`, with the expected digest. -/
structure Fits (D : Digest) (raw : Bytes) (max : Option Nat) (hash : HashData) : Prop where
  length : ∀ n, max = some n → raw.length ≤ n
  digest : ∀ a v, hash = some (a, v) → D a raw = v

/-- File version to ask for: the local repository keeps unversioned files, a remote repository with
consistent snapshots keeps versioned ones. -/
def fileVersion (t : Tuf) (v : Nat) : Source → MetadataVersion
  | .cache => .none
  | .remote => if t.root.consistentSnapshot then .number v else .none

/-- The requests a client with trusted metadata `t` may make, each with file version, length limit
and digest. -/
inductive Request (cfg : Config) (t : Tuf) :
    Kind → Source → MetadataVersion → Option Nat → HashData → Prop
  | root (src : Source) : t.root.version < 4294967295 →
      Request cfg t (.top .root) src (.number (t.root.version + 1)) cfg.maxRootLength none
  | rootWrapped (src : Source) : 4294967295 ≤ t.root.version → cfg.overflowChecks = false →
      Request cfg t (.top .root) src (.number 0) cfg.maxRootLength none
  | timestamp (src : Source) :
      Request cfg t (.top .timestamp) src .none cfg.maxTimestampLength none
  | snapshot (src : Source) (ts : TimestampMetadata) (a : HashAlg) (v : HashValue) :
      t.timestamp = some ts → verOf (·.version) t.snapshot < ts.snapshot.version →
      Preferred ts.snapshot.hashes a v →
      Request cfg t (.top .snapshot) src (fileVersion t ts.snapshot.version src)
        (some ts.snapshot.length) (some (a, v))
  | targets (src : Source) (sn : SnapshotMetadata) (m : MetadataDescription) (a : HashAlg)
      (v : HashValue) :
      t.snapshot = some sn → sn.metas.get? targetsName = some m →
      verOf (·.version) t.targets < m.version → Preferred m.hashes a v →
      Request cfg t (.top .targets) src (fileVersion t m.version src) (some m.length) (some (a, v))
  | delegated (src : Source) (role : MetadataPath) (sn : SnapshotMetadata)
      (m : MetadataDescription) (a : HashAlg) (v : HashValue) :
      t.snapshot = some sn → sn.metas.get? role = some m → Preferred m.hashes a v →
      Request cfg t (.delegated role) src (fileVersion t m.version src) (some m.length)
        (some (a, v))

/-- The update calls in a record. -/
def opsOf : List LogEntry → List Tuf.Op
  | [] => []
  | .op o _ :: l => o :: opsOf l
  | _ :: l => opsOf l

/-- Trusted metadata after the update calls in a record. -/
def after (E : Env) (t : Tuf) (l : List LogEntry) : Tuf := Tuf.run E t (opsOf l)

/-- The update call `o` with outcome `out` verified its document. For top-level roles this means that
the document became the trusted one. A delegated document counts also if the trusted version was
kept because it has the announced version already. -/
def Accepted (o : Tuf.Op) (out : Tuf.Outcome) : Prop :=
  out = .changed ∨ (out = .unchanged ∧ ∃ clk parent role raw, o = .delegation clk parent role raw)

/-- Under which versions an accepted document may be stored: unversioned, and a root also under its
own version. -/
def StoredAs (t : Tuf) (k : Kind) (v : MetadataVersion) : Prop :=
  v = .none ∨ (k = .top .root ∧ v = .number t.root.version)

/-- Is `e` allowed as the next entry after the record `pre` of a client that started with `t`? -/
def Next (E : Env) (D : Digest) (cfg : Config) (t : Tuf) (pre : List LogEntry) : LogEntry → Prop
  | .fetch src p v m h => ∃ k : Kind, k.path = p ∧ Request cfg (after E t pre) k src v m h
  | .got src p raw => ∃ pre' v m h, pre = pre' ++ [.fetch src p v m h] ∧ Fits D raw m h
  | .op o out =>
    (Tuf.step E (after E t pre) o).1 = out ∧
    ∃ (k : Kind) (raw : Bytes) (pre' : List LogEntry) (src : Source) (v : MetadataVersion)
      (m : Option Nat) (h : HashData), Submits o k raw ∧
      pre = pre' ++ [.fetch src k.path v m h, .got src k.path raw] ∧
      Request cfg (after E t pre) k src v m h
  | .store p v raw =>
    ∃ (k : Kind) (o : Tuf.Op) (out : Tuf.Outcome) (pre' mid : List LogEntry),
      pre = pre' ++ .op o out :: mid ∧ (∀ e ∈ mid, ∃ v', e = .store p v' raw) ∧
      Submits o k raw ∧ k.path = p ∧ Accepted o out ∧ StoredAs (after E t pre) k v
  | .fetchTarget _ => True
  | .storeTarget _ => True
  | .wrote _ => True

/-- Every entry of the record is allowed. -/
def Good (E : Env) (D : Digest) (cfg : Config) (t : Tuf) (l : List LogEntry) : Prop :=
  ∀ pre e post, l = pre ++ e :: post → Next E D cfg t pre e

/-- The initial trusted store for each way to construct a client. -/
def StartsWith (E : Env) : Client.Start → Tuf → Prop
  | .trustedRoot raw, t => Tuf.fromTrustedRoot E raw = .ok t
  | .trustedLocal, t => ∃ raw, Tuf.fromTrustedRoot E raw = .ok t
  | .trustedRootKeys _ n keys, t => ∃ raw, Tuf.fromRootWithTrustedKeys E raw n keys = .ok t

end RustTuf.Spec
