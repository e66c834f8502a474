import Verif.Spec.Client
import Verif.Spec.TufWorld

/-!
# Concrete repositories for examples
Used only in `example`s and in counterexample theorems.
-/

namespace RustTuf.Toy

/-- State of the outside world: the local repository and what the caller's writer got. -/
structure Disk where
  metas : Map (MetadataPath × MetadataVersion) Bytes
  targets : Map TargetPath Bytes
  written : Bytes
deriving DecidableEq

/-- Nothing stored yet. -/
def Disk.empty : Disk := ⟨[], [], []⟩

/-- One chunk, or nothing for an empty file. -/
def stream (b : Bytes) : List Ev := if b = [] then [] else [.data b]

/-- Content of a stream that ends without an error. -/
def content : List Ev → Except IoKind Bytes
  | [] => .ok []
  | .pending :: evs => content evs
  | .err k :: _ => .error k
  | .data b :: evs =>
    if b = [] then .ok [] else
    match content evs with
    | .ok bs => .ok (b ++ bs)
    | .error k => .error k

/-- A remote repository with fixed files, a map as local repository, and a constant clock. -/
def repos (files : Map (MetadataPath × MetadataVersion) Bytes) (targets : Map TargetPath Bytes)
    (now : Time) : RustTuf.World Disk where
  remote :=
    { fetchMetadata := fun p v _ _ w =>
        (match files.get? (p, v) with | some b => .ok (stream b) | none => .error .notFound, w)
      fetchTarget := fun p _ w =>
        (match targets.get? p with | some b => .ok (stream b) | none => .error .notFound, w) }
  cache :=
    { fetchMetadata := fun p v _ _ w =>
        (match w.metas.get? (p, v) with | some b => .ok (stream b) | none => .error .notFound, w)
      fetchTarget := fun p _ w =>
        (match w.targets.get? p with | some b => .ok (stream b) | none => .error .notFound, w) }
  storeMetadata := fun p v b w => (.ok (), { w with metas := w.metas.insert (p, v) b })
  storeTarget := fun evs p w =>
    match content evs with
    | .ok b => (.ok (), { w with targets := w.targets.insert p b })
    | .error k => (.error k.toErr, w)
  write := fun b w => (.ok (), { w with written := w.written ++ b })
  flush := fun w => (.ok (), w)
  clock := fun w => (clk now, w)

/-- Digests: of the target used in examples, and of everything else. -/
def digest : Digest := fun _ b => if b = [9] then [4, 5] else [1, 2, 3]

/-- Files of a remote repository, by name. -/
def files (l : List (String × Option Nat × UInt8)) : Map (MetadataPath × MetadataVersion) Bytes :=
  l.map fun p => ((p.1.toList, match p.2.1 with | none => .none | some n => .number n), [p.2.2])

/-- The repository with root 2, everything at version 1, and two delegated roles. -/
def remoteFiles : Map (MetadataPath × MetadataVersion) Bytes :=
  files [("root", some 2, 2), ("timestamp", none, 10), ("snapshot", none, 20), ("targets", none, 30),
    ("a", none, 40), ("b", none, 42)]

/-- The world of this repository at time 100. -/
def remoteRepo : RustTuf.World Disk := repos remoteFiles [("x".toList, [9])] 100

/-- A client that knows root 1 only. -/
def client0 : St Disk := ⟨boot, ⟨Disk.empty, []⟩⟩

/-- The client's configuration. -/
def config : Config := Config.default true

end RustTuf.Toy
