import Verif.Spec.Publishing
import Verif.Spec.ClientWorld

/-!
# A concrete repository that changes while it is used
Used only in `example`s and in counterexample theorems.
-/

namespace RustTuf.Toy
open Spec

/-- The local repository, the moment, and how many moments pass before each of the next answers. -/
structure Busy where
  disk : Disk
  now : Nat
  pauses : List Nat
deriving DecidableEq

/-- Time passes. -/
def Busy.pass (w : Busy) : Busy := { w with now := w.now + w.pauses.headD 0, pauses := w.pauses.tail }

/-- A remote repository with changing files, a map as local repository, and a constant clock. -/
def busy (files : Nat → Files) (time : Time) : RustTuf.World Busy where
  remote :=
    { fetchMetadata := fun p v _ _ w =>
        (match files w.pass.now p v with | some b => .ok (stream b) | none => .error .notFound, w.pass)
      fetchTarget := fun _ _ w => (.error .notFound, w) }
  cache :=
    { fetchMetadata := fun p v _ _ w =>
        (match w.disk.metas.get? (p, v) with | some b => .ok (stream b) | none => .error .notFound, w)
      fetchTarget := fun _ _ w => (.error .notFound, w) }
  storeMetadata := fun p v b w =>
    (.ok (), { w with disk := { w.disk with metas := w.disk.metas.insert (p, v) b } })
  storeTarget := fun _ _ w => (.ok (), w)
  write := fun _ w => (.ok (), w)
  flush := fun w => (.ok (), w)
  clock := fun w => (clk time, w)

/-- A key that only the second root knows. -/
def byE : RoleDefinition := { threshold := 1, keyIds := ["e".toList] }

/-- A root, with or without consistent snapshots. -/
def rootC (consistent : Bool) : RootMetadata := { root 1 1000 with consistentSnapshot := consistent }
/-- The next root, with a new timestamp key. -/
def rootE : RootMetadata :=
  { root 2 1000 with
    consistentSnapshot := true, keys := ("e".toList, key "e".toList 9) :: keys, timestamp := byE }

/-- Another content for a target. -/
def newTarget : TargetDescription := { target 1 with hashes := [(.sha256, [1, 2, 3])] }

/-- Two releases, and the second one again under the new root. -/
def release1 : Release :=
  ⟨timestamp 1 500 1, snapshot 1 500 [("targets", 1)], targets 1 500 [("x", 1)] none, [10], [20], [30]⟩
def release2 : Release :=
  ⟨timestamp 2 500 2, snapshot 2 500 [("targets", 2)],
    { targets 2 500 [] none with targets := [("x".toList, newTarget)] }, [11], [21], [31]⟩

@[reducible] def busyWorld : World where
  roots := [(1, rootC true), (2, rootE), (3, rootC false)]
  timestamps := [(10, release1.timestamp), (11, release2.timestamp), (12, release2.timestamp),
    (13, release1.timestamp)]
  snapshots := [(20, release1.snapshot), (21, release2.snapshot)]
  targets := [(30, release1.targets), (31, release2.targets)]

/-- Document 12 is signed by the new key only, and document 13 by the old and the new one. -/
def busyEnv : Env :=
  { busyWorld.env with
    parseSigned := fun b =>
      if b = [12] then .ok ([sign "e".toList 9 [12]], [12])
      else if b = [13] then .ok ([sign "k".toList 7 [13], sign "e".toList 9 [13]], [13])
      else busyWorld.env.parseSigned b }

/-- The files at the beginning. -/
def busyBase : Files := fun p v =>
  (files [("targets", some 1, 30), ("snapshot", some 1, 20), ("targets", none, 30), ("snapshot", none, 20),
    ("timestamp", none, 10)]).get? (p, v)

/-- The uploads of the second release under the new root. -/
def rootUploads : List Upload :=
  [⟨"root".toList, .number 2, [2]⟩, ⟨"targets".toList, .number 2, [31]⟩,
   ⟨"snapshot".toList, .number 2, [21]⟩, ⟨"timestamp".toList, .none, [12]⟩]

/-- The first release with a timestamp for both roots, and the second one for the new root only. -/
def releaseBoth : Release := { release1 with rawTimestamp := [13] }
def releaseNew : Release := { release2 with rawTimestamp := [12] }

/-- The new root appears at moment 1, and a release for that root only at moment 10. -/
def rotatingFiles (k : Nat) : Files :=
  ((if 1 ≤ k then [(⟨"root".toList, .number 2, [2]⟩ : Upload)] else []) ++
    (if 10 ≤ k then uploads releaseNew else [])).foldl Upload.apply
      (Upload.apply busyBase ⟨"timestamp".toList, .none, [13]⟩)
def rotatingCurrent (k : Nat) : Release := if 10 ≤ k then releaseNew else releaseBoth
def rotatingLast (k : Nat) : Nat := if 1 ≤ k then 2 else 1
def rotatingRoot (v : Nat) : RootMetadata := if v = 1 then rootC true else rootE

/-- The same repository with target files. -/
def busyStock (files : Nat → Files) (stock : Nat → TargetPath → Option Bytes) (time : Time) :
    RustTuf.World Busy :=
  { busy files time with
    remote :=
      { fetchMetadata := (busy files time).remote.fetchMetadata
        fetchTarget := fun p _ w =>
          (match stock w.pass.now p with | some b => .ok (stream b) | none => .error .notFound, w.pass) }
    storeTarget := fun evs p w =>
      match content evs with
      | .ok b => (.ok (), { w with disk := { w.disk with targets := w.disk.targets.insert p b } })
      | .error k => (.error k.toErr, w) }

/-- The target of the second release appears at moment 1, next to that of the first. -/
def busyTargets (k : Nat) : TargetPath → Option Bytes := fun p =>
  if p = "0405.x".toList then some [9]
  else if p = "010203.x".toList ∧ 1 ≤ k then some [8] else none

/-- What the two releases mean by `x`. -/
def busyMeant (k : Nat) : TargetPath → Option Bytes := fun p =>
  if p = "x".toList then some (if k < 5 then [9] else [8]) else none

/-- Under which name clients look for `x`. -/
def busyName (c : Bool) (k : Nat) : TargetPath :=
  if c then if k < 5 then "0405.x".toList else "010203.x".toList else "x".toList

/-- Only the target of the current release is there. -/
def passingTargets (k : Nat) : TargetPath → Option Bytes := fun p =>
  if p = busyName true k then some (if k < 5 then [9] else [8]) else none

/-- A client that knows a root only. -/
def busyClient (r : RootMetadata) (pauses : List Nat) : St Busy :=
  ⟨⟨r, none, none, none, []⟩, ⟨⟨Disk.empty, 0, pauses⟩, []⟩⟩

end RustTuf.Toy
