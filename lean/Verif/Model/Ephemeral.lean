import Verif.Model.Repository

/-!
# The in-memory repository (src/repository/ephemeral.rs)
First as sequential functions, then as a small-step model in which any number of calls run
concurrently. The map is behind a lock and no call awaits anything while holding it, so each access
of the map is one atomic step.
-/

namespace RustTuf

/-- src/repository/ephemeral.rs:21-26 `EphemeralRepository`. -/
structure Ephemeral where
  metadata : Map (MetadataPath × MetadataVersion) Bytes
  targets : Map TargetPath Bytes
deriving DecidableEq

/-- `AsyncReadExt::read_to_end` on an arbitrary source; `acc` is the buffer filled so far. -/
def readToEnd : List Ev → Bytes → Except IoKind Bytes
  | [], acc => .ok acc
  | .pending :: evs, acc => readToEnd evs acc
  | .err k :: _, _ => .error k
  | .data bs :: evs, acc => if bs = [] then .ok acc else readToEnd evs (acc ++ bs)

/-- What `Cursor` over the stored bytes delivers to a reader with a large buffer. -/
def cursorEvents (bs : Bytes) : List Ev := if bs = [] then [] else [.data bs]

namespace Ephemeral

/-- src/repository/ephemeral.rs:33-39 `new`. -/
def new : Ephemeral := ⟨[], []⟩

/-- src/repository/ephemeral.rs:55-78 `fetch_metadata`. -/
def fetchMetadata (r : Ephemeral) (p : MetadataPath) (v : MetadataVersion) : Except Err (List Ev) :=
  match r.metadata.get? (p, v) with
  | some bs => .ok (cursorEvents bs)
  | none => .error .notFound

/-- src/repository/ephemeral.rs:80-97 `fetch_target`. -/
def fetchTarget (r : Ephemeral) (p : TargetPath) : Except Err (List Ev) :=
  match r.targets.get? p with
  | some bs => .ok (cursorEvents bs)
  | none => .error .notFound

/-- src/repository/ephemeral.rs:104-119 `store_metadata`. -/
def storeMetadata (r : Ephemeral) (p : MetadataPath) (v : MetadataVersion) (src : List Ev) :
    Except Err Unit × Ephemeral :=
  match readToEnd src [] with
  | .error k => (.error k.toErr, r)
  | .ok bs => (.ok (), { r with metadata := r.metadata.insert (p, v) bs })

/-- src/repository/ephemeral.rs:121-135 `store_target`. -/
def storeTarget (r : Ephemeral) (src : List Ev) (p : TargetPath) : Except Err Unit × Ephemeral :=
  match readToEnd src [] with
  | .error k => (.error k.toErr, r)
  | .ok bs => (.ok (), { r with targets := r.targets.insert p bs })

end Ephemeral

/-- The name of a stored file: metadata and targets live in different maps. -/
inductive MemKey where
  | metadata (p : MetadataPath) (v : MetadataVersion)
  | target (p : TargetPath)
deriving DecidableEq

/-- Progress of a call. -/
inductive MemCall where
  /-- `store_*`: reading the source into a buffer (111-112, 127-128) -/
  | storing (k : MemKey) (src : List Ev) (buf : Bytes)
  /-- `store_*`: the source has ended, the map is not changed yet (113-115, 129-131) -/
  | inserting (k : MemKey) (buf : Bytes)
  /-- `store_*` has returned -/
  | stored (r : Except IoKind Unit)
  /-- `fetch_*` before the access of the map (63-66, 86) -/
  | fetching (k : MemKey)
  /-- `fetch_*` has returned a reader; `content` is shared and immutable (`Arc<[u8]>`), `pos` is the
  position of the `Cursor`, `got` what the caller has read -/
  | reading (content : Bytes) (pos : Nat) (got : Bytes) (eof : Bool)
  /-- `fetch_*` has returned `NotFound` -/
  | missing
deriving DecidableEq

/-- Ghost record of the accesses of the map. -/
inductive MemEvent where
  /-- call `i` has stored `bs` -/
  | put (i : Nat) (k : MemKey) (bs : Bytes)
  /-- call `i` has looked up `k` -/
  | get (i : Nat) (k : MemKey) (found : Option Bytes)
deriving DecidableEq

/-- The repository and all calls. -/
structure MemState where
  repo : Ephemeral
  calls : Nat → MemCall
  log : List MemEvent

namespace MemState

/-- Access of the right map. -/
def lookup (r : Ephemeral) : MemKey → Option Bytes
  | .metadata p v => r.metadata.get? (p, v)
  | .target p => r.targets.get? p

/-- Insertion into the right map. -/
def insert (r : Ephemeral) (bs : Bytes) : MemKey → Ephemeral
  | .metadata p v => { r with metadata := r.metadata.insert (p, v) bs }
  | .target p => { r with targets := r.targets.insert p bs }

/-- Pointwise update of the calls. -/
def set (s : MemState) (i : Nat) (c : MemCall) : MemState :=
  { s with calls := fun j => if j = i then c else s.calls j }

/-- One atomic step of call `i`; `n` is the size of the buffer if the step is a read by the caller.
The code is that cited at the constructors of `MemCall`. -/
def step (s : MemState) (i n : Nat) : MemState :=
  match s.calls i with
  | .storing k [] buf => s.set i (.inserting k buf)
  | .storing k (.pending :: evs) buf => s.set i (.storing k evs buf)
  | .storing _ (.err e :: _) _ => s.set i (.stored (.error e))
  | .storing k (.data bs :: evs) buf =>
    if bs = [] then s.set i (.inserting k buf) else s.set i (.storing k evs (buf ++ bs))
  | .inserting k buf =>
    { s.set i (.stored (.ok ())) with
      repo := insert s.repo buf k
      log := s.log ++ [.put i k buf] }
  | .stored _ => s
  | .fetching k =>
    match lookup s.repo k with
    | some bs =>
      { s.set i (.reading bs 0 [] false) with log := s.log ++ [.get i k (some bs)] }
    | none => { s.set i .missing with log := s.log ++ [.get i k none] }
  | .reading content pos got eof =>
    let chunk := (content.drop pos).take n
    s.set i (.reading content (pos + chunk.length) (got ++ chunk) (eof || (n ≠ 0 && chunk.isEmpty)))
  | .missing => s

/-- Any schedule of steps. -/
def run (s : MemState) (sched : List (Nat × Nat)) : MemState :=
  sched.foldl (fun s p => s.step p.1 p.2) s

/-- Calls that have been issued but not started; any call may be any of these. -/
def Fresh : MemCall → Prop
  | .storing _ _ buf => buf = []
  | .fetching _ => True
  | _ => False

end MemState
end RustTuf
