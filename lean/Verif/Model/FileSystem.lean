import Verif.Model.FilePath
import Verif.Model.FileStore
import Verif.Model.Ephemeral

/-!
# The file system repository (src/repository/file_system.rs) with files and directories
One call after the other; concurrent calls are in Model/FileStore. Paths are resolved without symbolic
links; that a trailing slash demands a directory is not modelled. Temporary files are not part of the
tree: Model/FileStore shows what happens to them.
-/

namespace RustTuf

/-- What a path names. -/
inductive Node where
  | dir
  | file (content : Bytes)
deriving DecidableEq, Repr

/-- A file system: `none` for paths that do not exist. -/
abbrev Tree := FileName → Option Node

namespace Tree

/-- A file stands where a directory is needed (`ENOTDIR`). -/
def Blocked (t : Tree) (n : FileName) : Prop := ∃ k, k < n.length ∧ ∃ b, t (n.take k) = some (.file b)

instance (t : Tree) (n : FileName) : Decidable (Blocked t n) :=
  decidable_of_iff (∃ k ∈ List.range n.length, (match t (n.take k) with | some (.file _) => true | _ => false) = true) (by
    unfold Blocked
    simp only [List.mem_range]
    refine exists_congr fun k => and_congr_right fun _ => ?_
    cases t (n.take k) with
    | none => simp
    | some x => cases x <;> simp)

/-- `std::fs::File::open` and the stream that `AllowStdIo` makes of the file. Opening a directory works
on Unix, reading it does not (`EISDIR`). -/
def openFile (t : Tree) (n : FileName) : Except Err (List Ev) :=
  if Blocked t n then .error .opaqueErr
  else
    match t n with
    | none => .error .notFound
    | some .dir => .ok [.err .other]
    | some (.file bs) => .ok (cursorEvents bs)

/-- `Path::exists`: `false` after any error. -/
def pathExists (t : Tree) (n : FileName) : Bool := if Blocked t n then false else (t n).isSome

/-- `DirBuilder::new().recursive(true).create(dir)` as far as directories of at most `depth` names are
concerned. -/
def createDirs (t : Tree) (dir : FileName) (depth : Nat) : Tree := fun n =>
  if n <+: dir ∧ n.length ≤ depth ∧ t n = none then some .dir else t n

/-- src/repository/file_system.rs:161-174, 184-197 (`store_metadata`, `store_target`) and 201-213
(`create_temp_file`) for the file name `n`. If the operating system lets the call fail for reasons of
its own (no space, no permission), `fault` says how many levels of directories it has created
before. -/
def storeFile (t : Tree) (fault : Option Nat) (n : FileName) (src : List Ev) : Except Err Unit × Tree :=
  -- 207, 208: the directories, the temporary file
  if Blocked t n then (.error .opaqueErr, t)
  else
    match fault with
    | some depth => (.error .opaqueErr, t.createDirs n.dropLast depth)
    | none =>
      let t' := t.createDirs n.dropLast n.length
      -- 170, 193: the copy
      match readToEnd src [] with
      | .error k => (.error k.toErr, t')
      | .ok bs =>
        -- 171, 194: the renaming, which does not replace directories
        match t' n with
        | some .dir => (.error .opaqueErr, t')
        | _ => (.ok (), fun m => if m = n then some (.file bs) else t' m)

end Tree

/-- src/repository/file_system.rs:85-92 `FileSystemRepository`, and the current directory of the
process. Path strings are resolved to lists of names by `resolve`, a parameter. -/
structure FileSystem where
  metadataPath : Str
  targetsPath : Str
  resolve : Str → FileName

namespace FileSystem
variable (f : FileSystem)

/-- 120-121, 136-137, 161-162, 184-185: the path of a file. -/
def name : MemKey → FileName
  | .metadata p v => f.resolve (metadataFile f.metadataPath p v)
  | .target p => f.resolve (targetFile f.targetsPath p)

/-- src/repository/file_system.rs:112-128 `fetch_metadata`. -/
def fetchMetadata (t : Tree) (p : MetadataPath) (v : MetadataVersion) : Except Err (List Ev) :=
  t.openFile (f.name (.metadata p v))

/-- src/repository/file_system.rs:130-147 `fetch_target`. -/
def fetchTarget (t : Tree) (p : TargetPath) : Except Err (List Ev) :=
  if !t.pathExists (f.name (.target p)) then .error .notFound
  else t.openFile (f.name (.target p))

/-- src/repository/file_system.rs:154-176 `store_metadata`. -/
def storeMetadata (t : Tree) (fault : Option Nat) (p : MetadataPath) (v : MetadataVersion)
    (src : List Ev) : Except Err Unit × Tree :=
  t.storeFile fault (f.name (.metadata p v)) src

/-- src/repository/file_system.rs:178-199 `store_target`. -/
def storeTarget (t : Tree) (fault : Option Nat) (src : List Ev) (p : TargetPath) :
    Except Err Unit × Tree :=
  t.storeFile fault (f.name (.target p)) src

end FileSystem

/-- `recursive(true).create(dir)`: fails if a file is in the way or is what the path names. -/
def Tree.createAll (t : Tree) (dir : FileName) : Except Err Tree :=
  if Blocked t dir then .error .opaqueErr
  else
    match t dir with
    | some (.file _) => .error .opaqueErr
    | _ => .ok (t.createDirs dir dir.length)

/-- src/repository/file_system.rs:61-83 `build`. -/
def FileSystem.build (resolve : Str → FileName) (localPath : Str)
    (metadataPrefix targetsPrefix : Option Str) (t : Tree) : Except Err (FileSystem × Tree) := do
  let (m, d) := buildDirs localPath metadataPrefix targetsPrefix
  let t ← t.createAll (resolve m)
  let t ← t.createAll (resolve d)
  return (⟨m, d, resolve⟩, t)

/-- src/repository/file_system.rs:100-105 `new`. -/
def FileSystem.new (resolve : Str → FileName) (localPath : Str) (t : Tree) :
    Except Err (FileSystem × Tree) :=
  build resolve localPath (some "metadata".toList) (some "targets".toList) t

end RustTuf
