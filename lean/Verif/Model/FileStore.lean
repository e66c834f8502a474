import Verif.Model.Readers

/-!
# Small-step model of concurrent stores in the file system repository
Any number of `store_metadata` / `store_target` calls run concurrently, in one or several processes.
A schedule is a list of actions; a crash is the end of a schedule. A file name is the resolved path.
Directories are not modelled (they only get created). The content of a file is what a reader that
opens it at that moment sees; durability after a power failure is not modelled (the code never calls
`fsync`).
-/

namespace RustTuf

/-- A resolved path. -/
abbrev FileName := List Str

/-- Progress of one store. -/
inductive StoreState where
  /-- before `create_temp_file` -/
  | start
  /-- copying; `buf` has been read from the source but not written yet -/
  | copying (tmp : FileName) (buf : Bytes)
  /-- the source has ended and everything is written; before `persist` -/
  | copied (tmp : FileName)
  /-- returned; `true` for `Ok` -/
  | finished (ok : Bool)
deriving DecidableEq, Repr

/-- One store call: destination, source, what is left of the source, progress. -/
structure StoreCall where
  dest : FileName
  src : List Ev
  rest : List Ev
  st : StoreState
deriving DecidableEq, Repr

/-- File contents and all store calls. -/
structure FsState where
  files : FileName → Option Bytes
  calls : Nat → StoreCall

/-- Atomic actions. The scheduler, i.e. the environment, decides which operation fails. -/
inductive FsAct where
  /-- `create_temp_file` succeeds with this name -/
  | create (i : Nat) (tmp : FileName)
  /-- `create_temp_file` fails (directory or file cannot be created) -/
  | createFail (i : Nat)
  /-- `copy` polls the source once -/
  | read (i : Nat)
  /-- `copy` writes the first `n` bytes of its buffer -/
  | write (i : Nat) (n : Nat)
  /-- a write fails -/
  | writeFail (i : Nat)
  /-- `persist` succeeds: the temporary file is renamed to the destination -/
  | persist (i : Nat)
  /-- `persist` fails -/
  | persistFail (i : Nat)
deriving DecidableEq, Repr

/-- Pointwise update. -/
def upd {A B : Type} [DecidableEq A] (f : A → B) (a : A) (b : B) : A → B :=
  fun x => if x = a then b else f x

namespace FsState

/-- Set the progress of call `i`. -/
def setSt (s : FsState) (i : Nat) (st : StoreState) : FsState :=
  { s with calls := upd s.calls i { s.calls i with st := st } }

/-- Call `i` returns an error while holding a temporary file: dropping `NamedTempFile` removes it. -/
def abort (s : FsState) (i : Nat) (tmp : FileName) : FsState :=
  { setSt s i (.finished false) with files := upd s.files tmp none }

/-- src/repository/file_system.rs:161-174, 184-197 (`store_metadata`, `store_target`) and 201-213
(`create_temp_file`), one action at a time. Actions that are not possible are ignored. Temporary
files are opened with `O_EXCL`, so the name must be unused (207-212). `rename` is atomic. -/
def step (s : FsState) : FsAct → FsState
  | .create i tmp =>
    match (s.calls i).st with
    | .start =>
      if s.files tmp = none then
        { setSt s i (.copying tmp []) with files := upd s.files tmp (some []) }
      else s
    | _ => s
  | .createFail i =>
    match (s.calls i).st with
    | .start => setSt s i (.finished false)
    | _ => s
  | .read i =>
    match (s.calls i).st with
    | .copying tmp buf =>
      if buf ≠ [] then s
      else match (s.calls i).rest with
        | [] => setSt s i (.copied tmp)
        | .pending :: evs => { s with calls := upd s.calls i { s.calls i with rest := evs } }
        | .err _ :: _ => abort s i tmp
        | .data bs :: evs =>
          if bs = [] then setSt s i (.copied tmp)
          else { s with calls := upd s.calls i { s.calls i with rest := evs, st := .copying tmp bs } }
    | _ => s
  | .write i n =>
    match (s.calls i).st with
    | .copying tmp buf =>
      { setSt s i (.copying tmp (buf.drop n)) with
        files := upd s.files tmp ((s.files tmp).map (· ++ buf.take n)) }
    | _ => s
  | .writeFail i =>
    match (s.calls i).st with
    | .copying tmp _ => abort s i tmp
    | _ => s
  | .persist i =>
    match (s.calls i).st with
    | .copied tmp =>
      { setSt s i (.finished true) with
        files := upd (upd s.files (s.calls i).dest (s.files tmp)) tmp none }
    | _ => s
  | .persistFail i =>
    match (s.calls i).st with
    | .copied tmp => abort s i tmp
    | _ => s

/-- A schedule. -/
def run (s : FsState) (acts : List FsAct) : FsState := acts.foldl step s

end FsState

end RustTuf
