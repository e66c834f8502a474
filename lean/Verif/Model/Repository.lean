import Verif.Model.Readers
import Verif.Model.Tuf

/-!
# The `Repository` wrapper (src/repository.rs) over arbitrary repository implementations
-/

namespace RustTuf

/-- Code that may fail and that changes a state. The state survives an error. -/
def M (σ α : Type) := σ → Except Err α × σ

namespace M
variable {σ α β : Type}

/-- `Ok(a)`. -/
def pure (a : α) : M σ α := fun s => (.ok a, s)

/-- The `?` operator. -/
def bind (m : M σ α) (f : α → M σ β) : M σ β := fun s =>
  match m s with
  | (.ok a, s') => f a s'
  | (.error e, s') => (.error e, s')

instance : Monad (M σ) where
  pure := M.pure
  bind := M.bind

/-- `return Err(e)`. -/
def fail (e : Err) : M σ α := fun s => (.error e, s)

/-- Keep the result as a value instead of propagating the error. A panic is not an error: it
propagates. -/
def attempt (m : M σ α) : M σ (Except Err α) := fun s =>
  match m s with
  | (.error .panic, s') => (.error .panic, s')
  | (r, s') => (.ok r, s')

theorem attempt_ok {m : M σ α} {s s' : σ} {a : α} (h : m s = (.ok a, s')) :
    attempt m s = (.ok (.ok a), s') := by simp only [attempt, h]

theorem attempt_error {m : M σ α} {s s' : σ} {e : Err} (h : m s = (.error e, s')) (he : e ≠ .panic) :
    attempt m s = (.ok (.error e), s') := by
  cases e <;> first | exact absurd rfl he | simp only [attempt, h]

theorem attempt_panic {m : M σ α} {s s' : σ} (h : m s = (.error .panic, s')) :
    attempt m s = (.error .panic, s') := by simp only [attempt, h]

theorem attempt_inv {m : M σ α} {s s' : σ} {r : Except Err α} (h : attempt m s = (.ok r, s')) :
    m s = (r, s') ∧ r ≠ .error .panic := by
  unfold attempt at h
  split at h
  · cases h
  · rename_i r1 s1 hne hm
    cases h
    exact ⟨hm, hne⟩

/-- A `Result` that depends on no state. -/
def ofExcept (r : Except Err α) : M σ α := fun s => (r, s)

/-- `if b { m?; }`. -/
def when (b : Bool) (m : M σ Unit) : M σ Unit := if b then m else pure ()

end M

/-- Which repository a client talks to: `cache` is the local one (`local` is a Lean keyword). -/
inductive Source where
  | remote | cache
deriving DecidableEq, Repr

/-- What a length and digest check compares with. -/
abbrev HashData := Option (HashAlg × HashValue)

/-- src/repository.rs:35-71 `RepositoryProvider`: arbitrary, stateful code. The stream it returns is
given by its events. -/
structure Provider (W : Type) where
  fetchMetadata : MetadataPath → MetadataVersion → Option Nat → HashData → W →
    Except Err (List Ev) × W
  fetchTarget : TargetPath → TargetDescription → W → Except Err (List Ev) × W

/-- Everything around a client: the two repositories (src/repository.rs:35-97), the caller's writer,
the clock. All of it may share the state `W` and behave arbitrarily. -/
structure World (W : Type) where
  remote : Provider W
  cache : Provider W
  /-- `RepositoryStorage::store_metadata` of the local repository. -/
  storeMetadata : MetadataPath → MetadataVersion → Bytes → W → Except Err Unit × W
  /-- `RepositoryStorage::store_target`; the source is given by what its polls return. -/
  storeTarget : List Ev → TargetPath → W → Except Err Unit × W
  /-- The `AsyncWrite` given to `fetch_target_to_writer`: accepts a chunk or fails. -/
  write : Bytes → W → Except IoKind Unit × W
  /-- Its `poll_flush`. -/
  flush : W → Except IoKind Unit × W
  /-- `Utc::now()`, for all the places one call may read it. -/
  clock : W → Clock × W

/-- The provider a client means. -/
def World.provider {W : Type} (R : World W) : Source → Provider W
  | .remote => R.remote
  | .cache => R.cache

/-- Ghost record of what the client does, in order. It influences nothing. -/
inductive LogEntry where
  /-- a call of `RepositoryProvider::fetch_metadata` -/
  | fetch (src : Source) (path : MetadataPath) (ver : MetadataVersion) (max : Option Nat)
      (hash : HashData)
  /-- the document that came out of the checked read -/
  | got (src : Source) (path : MetadataPath) (raw : Bytes)
  /-- a call of `RepositoryStorage::store_metadata` -/
  | store (path : MetadataPath) (ver : MetadataVersion) (raw : Bytes)
  /-- a call of one of the update functions of `Tuf` -/
  | op (op : Tuf.Op) (outcome : Tuf.Outcome)
  /-- a call of `RepositoryProvider::fetch_target` -/
  | fetchTarget (path : TargetPath)
  /-- a call of `RepositoryStorage::store_target` -/
  | storeTarget (path : TargetPath)
  /-- bytes accepted by the caller's writer -/
  | wrote (bs : Bytes)

/-- State of the outside world plus the ghost record. -/
structure Io (W : Type) where
  w : W
  log : List LogEntry

namespace Io
variable {W : Type}

/-- Append to the record. -/
def note (e : LogEntry) : M (Io W) Unit := fun s => (.ok (), { s with log := s.log ++ [e] })

/-- Run code of the outside world. -/
def call {α : Type} (f : W → Except Err α × W) : M (Io W) α := fun s =>
  match f s.w with
  | (r, w') => (r, { s with w := w' })

end Io

/-- src/repository.rs:227-240 `Repository::check`. -/
def checkRole (role : Role) (path : MetadataPath) : Except Err Unit :=
  if !role.fuzzyMatchesPath path then .error .illegalArgument else .ok ()

/-- `usize::MAX` on 64-bit platforms. -/
def usizeMax : Nat := 18446744073709551615

/-- src/repository.rs:275-280: wrap the stream (`SafeReadExt::check_length_and_hash`,
src/util.rs:40-46), read it to the end and convert an I/O error. -/
def readChecked (D : Digest) (max : Nat) (hash : HashData) (evs : List Ev) : Except Err Bytes :=
  match SafeReader.new max hash with
  | .error e => .error e
  | .ok s =>
    match s.readToEnd D evs [] with
    | .error k => .error k.toErr
    | .ok bs => .ok bs

variable {W : Type}

/-- src/repository.rs:255-281 `Repository::fetch_metadata` for metadata of the given role. -/
def fetchMetadata (D : Digest) (R : World W) (src : Source) (role : Role) (path : MetadataPath)
    (ver : MetadataVersion) (max : Option Nat) (hash : HashData) : M (Io W) Bytes := do
  -- 266
  M.ofExcept (checkRole role path)
  -- 270-274
  Io.note (.fetch src path ver max hash)
  let evs ← Io.call ((R.provider src).fetchMetadata path ver max hash)
  -- 275-280
  let raw ← M.ofExcept (readChecked D (max.getD usizeMax) hash evs)
  Io.note (.got src path raw)
  return raw

/-- src/repository.rs:313-327 `Repository::store_metadata`. -/
def storeMetadata (R : World W) (role : Role) (path : MetadataPath) (ver : MetadataVersion)
    (raw : Bytes) : M (Io W) Unit := do
  M.ofExcept (checkRole role path)
  Io.note (.store path ver raw)
  Io.call (R.storeMetadata path ver raw)

/-- src/repository.rs:290-301 `Repository::fetch_target` of the remote repository. The result is
what polls of the returned reader give, one for each event of the source and one at its end. -/
def fetchTargetStream (D : Digest) (R : World W) (path : TargetPath) (descr : TargetDescription) :
    M (Io W) (List Ev) := do
  let (alg, value) ← M.ofExcept (hashPreference descr.hashes)
  Io.note (.fetchTarget path)
  let evs ← Io.call (R.remote.fetchTarget path descr)
  let s ← M.ofExcept (SafeReader.new descr.length (some (alg, value)))
  return s.polls D (evs ++ [.data []])

/-- src/repository.rs:330-336 `Repository::store_target`. -/
def storeTarget (R : World W) (stream : List Ev) (path : TargetPath) : M (Io W) Unit := do
  Io.note (.storeTarget path)
  Io.call (R.storeTarget stream path)

/-- `futures_util::io::copy` from a stream to the caller's writer, with the conversion of I/O errors
by `?` (src/client.rs:816). A chunk that is only partly written before an error counts as not
written in the record. -/
def copyToWriter (R : World W) : List Ev → M (Io W) Unit
  | [] => fun s =>
    match R.flush s.w with
    | (.ok (), w') => (.ok (), { s with w := w' })
    | (.error k, w') => (.error k.toErr, { s with w := w' })
  | .pending :: evs => copyToWriter R evs
  | .err k :: _ => M.fail k.toErr
  | .data bs :: evs => fun s =>
    if bs = [] then
      match R.flush s.w with
      | (.ok (), w') => (.ok (), { s with w := w' })
      | (.error k, w') => (.error k.toErr, { s with w := w' })
    else
      match R.write bs s.w with
      | (.ok (), w') => copyToWriter R evs { w := w', log := s.log ++ [.wrote bs] }
      | (.error k, w') => (.error k.toErr, { s with w := w' })

end RustTuf
