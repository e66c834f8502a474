import Verif.Model.Repository

/-!
# The client (src/client.rs)
-/

namespace RustTuf

/-- src/client.rs:1078-1088 `Config`. `overflowChecks` is not part of it: it says whether the crate
was compiled with arithmetic overflow checks (debug builds) or without (release builds). -/
structure Config where
  maxRootLength : Option Nat
  maxTimestampLength : Option Nat
  maxDelegationDepth : Nat
  /-- `PathTranslator::real_to_virtual`. -/
  realToVirtual : TargetPath → Except Err VirtualTargetPath
  overflowChecks : Bool

/-- src/client.rs:107-109 `DefaultTranslator::real_to_virtual`. -/
def defaultTranslator (p : TargetPath) : Except Err VirtualTargetPath := VirtualTargetPath.new p

/-- src/client.rs:1121-1130 `Config::default`. -/
def Config.default (overflowChecks : Bool) : Config where
  maxRootLength := some (1024 * 1024)
  maxTimestampLength := some (32 * 1024)
  maxDelegationDepth := 8
  realToVirtual := defaultTranslator
  overflowChecks := overflowChecks

/-- A client: its trusted metadata and the outside world. -/
structure St (W : Type) where
  tuf : Tuf
  io : Io W

namespace Client
variable {W : Type}

/-- Use a repository. -/
def lift {α : Type} (m : M (Io W) α) : M (St W) α := fun s =>
  match m s.io with
  | (r, io') => (r, { s with io := io' })

/-- The trusted metadata. -/
def getTuf : M (St W) Tuf := fun s => (.ok s.tuf, s)

/-- Readings of the clock. -/
def getClock (R : World W) : M (St W) Clock := fun s =>
  match R.clock s.io.w with
  | (c, w') => (.ok c, { s with io := { s.io with w := w' } })

/-- Call an update function of `Tuf` and record it. -/
def updateTuf (E : Env) (op : Tuf.Op) : M (St W) Tuf.Outcome := fun s =>
  match Tuf.step E s.tuf op with
  | (o, t') =>
    let s' : St W := { tuf := t', io := { s.io with log := s.io.log ++ [.op op o] } }
    match o with
    | .failed e => (.error e, s')
    | o => (.ok o, s')

/-- The code `tuf.trusted_root().version() + 1` (src/client.rs:519) on `u32`: an overflow panics
with overflow checks and wraps around without. -/
def nextRootVersion (checks : Bool) (v : Nat) : Except Err Nat :=
  if v ≥ u32Max then (if checks then .error .panic else .ok 0) else .ok (v + 1)

/-- src/client.rs:498-554: the loop of `update_root_with_repos`, with fuel. `persist` says whether
`local` is `Some`. -/
def rootLoop (E : Env) (D : Digest) (R : World W) (cfg : Config) (src : Source) (persist : Bool) :
    Nat → Bool → M (St W) Bool
  | 0, _ => M.fail .diverged
  | fuel + 1, updated => do
    -- 519
    let t ← getTuf
    let next ← M.ofExcept (nextRootVersion cfg.overflowChecks t.root.version)
    -- 520-532
    match ← M.attempt (lift (fetchMetadata D R src .root (MetadataPath.fromRole .root)
        (.number next) cfg.maxRootLength none)) with
    | .error .notFound => return updated
    | .error e => M.fail e
    | .ok raw =>
      -- 536
      let _ ← updateTuf E (.root raw)
      -- 544-553
      M.when persist do
        lift (storeMetadata R .root (MetadataPath.fromRole .root) .none raw)
        lift (storeMetadata R .root (MetadataPath.fromRole .root) (.number next) raw)
      rootLoop E D R cfg src persist fuel true

/-- Fuel for the root loop; `Props` shows that it suffices. -/
def rootFuel : Nat := u32Max + 2

/-- src/client.rs:483-579 `update_root_with_repos`. -/
def updateRootWithRepos (E : Env) (D : Digest) (R : World W) (cfg : Config) (src : Source)
    (persist : Bool) : M (St W) Bool := do
  let updated ← rootLoop E D R cfg src persist rootFuel false
  -- 567-570
  let clk ← getClock R
  let t ← getTuf
  if t.root.expires ≤ clk .root then M.fail (.expired .root) else
  return updated

/-- src/client.rs:592-641 `update_timestamp_with_repos`. -/
def updateTimestampWithRepos (E : Env) (D : Digest) (R : World W) (cfg : Config) (src : Source)
    (persist : Bool) : M (St W) Bool := do
  let raw ← lift (fetchMetadata D R src .timestamp (MetadataPath.fromRole .timestamp) .none
    cfg.maxTimestampLength none)
  let clk ← getClock R
  match ← updateTuf E (.timestamp clk raw) with
  | .changed =>
    M.when persist do
      lift (storeMetadata R .timestamp (MetadataPath.fromRole .timestamp) .none raw)
    return true
  | _ => return false

/-- The choice between a versioned and an unversioned file (src/client.rs:679-683, 757-761,
933-937). -/
def versionFor (consistent : Bool) (v : Nat) : MetadataVersion :=
  if consistent then .number v else .none

/-- src/client.rs:655-716 `update_snapshot_with_repos`. -/
def updateSnapshotWithRepos (E : Env) (D : Digest) (R : World W) (src : Source) (persist : Bool)
    (consistent : Bool) : M (St W) Bool := do
  let t ← getTuf
  -- 667-671
  match t.timestamp with
  | none => M.fail (.missing .timestamp)
  | some ts =>
    -- 673-677
    if ts.snapshot.version ≤ t.snapshotVersion then return false else
    -- 679
    let (alg, value) ← M.ofExcept (hashPreference ts.snapshot.hashes)
    -- 690-697
    let raw ← lift (fetchMetadata D R src .snapshot (MetadataPath.fromRole .snapshot)
      (versionFor consistent ts.snapshot.version) (some ts.snapshot.length) (some (alg, value)))
    -- 699-715
    let clk ← getClock R
    match ← updateTuf E (.snapshot clk raw) with
    | .changed =>
      M.when persist do
        lift (storeMetadata R .snapshot (MetadataPath.fromRole .snapshot) .none raw)
      return true
    | _ => return false

/-- src/client.rs:730-794 `update_targets_with_repos`. -/
def updateTargetsWithRepos (E : Env) (D : Digest) (R : World W) (src : Source) (persist : Bool)
    (consistent : Bool) : M (St W) Bool := do
  let t ← getTuf
  -- 739-750
  match t.snapshot with
  | none => M.fail (.missing .snapshot)
  | some sn =>
    match sn.metas.get? (MetadataPath.fromRole .targets) with
    | none => M.fail .verification
    | some descr =>
      -- 752-755
      if descr.version ≤ t.targetsVersion then return false else
      -- 757
      let (alg, value) ← M.ofExcept (hashPreference descr.hashes)
      -- 768-775
      let raw ← lift (fetchMetadata D R src .targets (MetadataPath.fromRole .targets)
        (versionFor consistent descr.version) (some descr.length) (some (alg, value)))
      -- 777-793
      let clk ← getClock R
      match ← updateTuf E (.targets clk raw) with
      | .changed =>
        M.when persist do
          lift (storeMetadata R .targets (MetadataPath.fromRole .targets) .none raw)
        return true
      | _ => return false

/-- src/client.rs:418-425 `update`, with 478-481, 582-590, 644-653, 719-728. -/
def update (E : Env) (D : Digest) (R : World W) (cfg : Config) : M (St W) Bool := do
  let r ← updateRootWithRepos E D R cfg .remote true
  let ts ← updateTimestampWithRepos E D R cfg .remote true
  let t ← getTuf
  let sn ← updateSnapshotWithRepos E D R .remote true t.root.consistentSnapshot
  let t ← getTuf
  let ta ← updateTargetsWithRepos E D R .remote true t.root.consistentSnapshot
  return r || ts || sn || ta

/-- src/client.rs:390-398: the block in `new` that loads the local metadata. -/
def loadLocal (E : Env) (D : Digest) (R : World W) (cfg : Config) : M (St W) Unit := do
  let _ ← updateRootWithRepos E D R cfg .cache false
  let _ ← updateTimestampWithRepos E D R cfg .cache false
  let _ ← updateSnapshotWithRepos E D R .cache false false
  let _ ← updateTargetsWithRepos E D R .cache false false
  return ()

/-- src/client.rs:384-413 `new`: errors while loading are logged and ignored. A panic is not an
error: it propagates. -/
def new (E : Env) (D : Digest) (R : World W) (cfg : Config) (t : Tuf) (io : Io W) :
    Except Err Tuf × Io W :=
  match loadLocal E D R cfg { tuf := t, io := io } with
  | (.error .panic, s) => (.error .panic, s.io)
  | (_, s) => (.ok s.tuf, s.io)

/-- src/client.rs:260-270 `with_trusted_root`. -/
def withTrustedRoot (E : Env) (D : Digest) (R : World W) (cfg : Config) (raw : Bytes) :
    M (Io W) Tuf := do
  let t ← M.ofExcept (Tuf.fromTrustedRoot E raw)
  new E D R cfg t

/-- src/client.rs:195-209 `with_trusted_local`. -/
def withTrustedLocal (E : Env) (D : Digest) (R : World W) (cfg : Config) : M (Io W) Tuf := do
  let raw ← fetchMetadata D R .cache .root (MetadataPath.fromRole .root) (.number 1)
    cfg.maxRootLength none
  let t ← M.ofExcept (Tuf.fromTrustedRoot E raw)
  new E D R cfg t

/-- src/client.rs:1033-1060 `fetch_metadata_from_local_or_else_remote`. -/
def fetchLocalOrRemote (D : Digest) (R : World W) (role : Role) (path : MetadataPath)
    (ver : MetadataVersion) (max : Option Nat) (hash : HashData) : M (Io W) (Bool × Bytes) := do
  match ← M.attempt (fetchMetadata D R .cache role path ver max hash) with
  | .ok raw => return (false, raw)
  | .error .notFound =>
    let raw ← fetchMetadata D R .remote role path ver max hash
    return (true, raw)
  | .error e => M.fail e

/-- src/client.rs:331-382 `with_trusted_root_keys`. -/
def withTrustedRootKeys (E : Env) (D : Digest) (R : World W) (cfg : Config)
    (rootVersion : MetadataVersion) (threshold : Nat) (keys : List PublicKey) :
    M (Io W) Tuf := do
  let (fetched, raw) ← fetchLocalOrRemote D R .root (MetadataPath.fromRole .root) rootVersion
    cfg.maxRootLength none
  let t ← M.ofExcept (Tuf.fromRootWithTrustedKeys E raw threshold keys)
  M.when fetched do
    storeMetadata R .root (MetadataPath.fromRole .root) (.number t.root.version) raw
  new E D R cfg t

/-- The ways to construct a client. -/
inductive Start where
  | trustedRoot (raw : Bytes)
  | trustedLocal
  | trustedRootKeys (version : MetadataVersion) (threshold : Nat) (keys : List PublicKey)
deriving DecidableEq

/-- Construct a client. -/
def construct (E : Env) (D : Digest) (R : World W) (cfg : Config) : Start → M (Io W) Tuf
  | .trustedRoot raw => withTrustedRoot E D R cfg raw
  | .trustedLocal => withTrustedLocal E D R cfg
  | .trustedRootKeys v n keys => withTrustedRootKeys E D R cfg v n keys

/-- Result of the inner lookup. -/
abbrev Found := Bool × Except Err TargetDescription

/-- src/client.rs:892-1024: the `for` loop of `lookup_target_description`. `rec` is the recursive
call. -/
def lookupLoop (E : Env) (D : Digest) (R : World W)
    (rec : Bool → TargetsMetadata → MetadataPath → M (St W) Found)
    (dflt : Bool) (target : VirtualTargetPath) (sn : SnapshotMetadata) (parent : MetadataPath) :
    List Delegation → M (St W) Found
  -- 1026
  | [] => return (dflt, .error .notFound)
  | d :: ds => do
    -- 893-899
    if !d.paths.any (fun p => isChild target p) then
      if d.terminating then return (true, .error .notFound)
      else lookupLoop E D R rec dflt target sn parent ds
    else
    -- 901-905
    match sn.metas.get? d.role with
    | none =>
      if !d.terminating then lookupLoop E D R rec dflt target sn parent ds
      else return (true, .error .notFound)
    | some descr =>
    -- 907-910
    match hashPreference descr.hashes with
    | .error e => return (d.terminating, .error e)
    | .ok (alg, value) =>
    -- 924-928
    let t ← getTuf
    let ver := versionFor t.root.consistentSnapshot descr.version
    -- 932-970
    let cached ← M.attempt (lift (fetchMetadata D R .cache .targets d.role .none
      (some descr.length) (some (alg, value))))
    let fetched ← (match cached with
      | .ok raw => M.pure (.ok raw)
      | .error _ => M.attempt (lift (fetchMetadata D R .remote .targets d.role ver
          (some descr.length) (some (alg, value)))))
    match fetched with
    | .error e =>
      if !d.terminating then lookupLoop E D R rec dflt target sn parent ds
      else return (true, .error e)
    | .ok raw =>
      -- 972-975
      let clk ← getClock R
      match ← M.attempt (updateTuf E (.delegation clk parent d.role raw)) with
      | .ok _ =>
        -- 983-996: errors are logged and ignored
        let _ ← M.attempt (lift (storeMetadata R .targets d.role .none raw))
        -- 998-1003: `unwrap`
        let t ← getTuf
        match t.delegations.get? d.role with
        | none => M.fail .panic
        | some m =>
          -- 1004-1012
          let (term, res) ← rec d.terminating m d.role
          -- 1014-1016
          match res with
          | .error e =>
            if term then return (true, .error e)
            else lookupLoop E D R rec dflt target sn parent ds
          -- 1018: the description found is dropped
          | .ok _ => lookupLoop E D R rec dflt target sn parent ds
      | .error e =>
        -- 1020-1021
        if !d.terminating then lookupLoop E D R rec dflt target sn parent ds
        else return (true, .error e)

/-- src/client.rs:864-890 and 1026: `lookup_target_description` below the choice of the targets
metadata. The first argument is `max_delegation_depth + 1 - current_depth`; it is zero exactly if
the depth exceeds the maximum. (`lookupAt` in Model/Depth has the `u32` counter of line 1007.) -/
def lookupIn (E : Env) (D : Digest) (R : World W) (target : VirtualTargetPath)
    (sn : SnapshotMetadata) : Nat → Bool → TargetsMetadata → MetadataPath → M (St W) Found
  -- 864-870
  | 0 => fun dflt _ _ => return (dflt, .error .notFound)
  | rem + 1 => fun dflt targets role =>
    -- 883-885
    match targets.targets.get? target with
    | some d => return (dflt, .ok d)
    | none =>
      -- 887-890
      match targets.delegations with
      | none => return (dflt, .error .notFound)
      | some ds => lookupLoop E D R (lookupIn E D R target sn rem) dflt target sn role ds.roles

/-- src/client.rs:821-836 `fetch_target_description`, with the first call of
`lookup_target_description` (856-885). -/
def fetchTargetDescription (E : Env) (D : Digest) (R : World W) (cfg : Config)
    (target : TargetPath) : M (St W) TargetDescription := do
  let virt ← M.ofExcept (cfg.realToVirtual target)
  let t ← getTuf
  match t.snapshot with
  | none => M.fail (.missing .snapshot)
  | some sn =>
    match t.targets with
    | none => M.fail (.missing .targets)
    | some ta =>
      let (_, res) ← lookupIn E D R virt sn (cfg.maxDelegationDepth + 1) false ta
        (MetadataPath.fromRole .targets)
      M.ofExcept res

/-- src/client.rs:839-854 `_fetch_target`. -/
def fetchTargetReader (E : Env) (D : Digest) (R : World W) (cfg : Config) (target : TargetPath) :
    M (St W) (List Ev) := do
  let descr ← fetchTargetDescription E D R cfg target
  let t ← getTuf
  if t.root.consistentSnapshot then
    let (_, value) ← M.ofExcept (hashPreference descr.hashes)
    let path ← M.ofExcept (TargetPath.withHashPrefix target value)
    lift (fetchTargetStream D R path descr)
  else lift (fetchTargetStream D R target descr)

/-- src/client.rs:797-800 `fetch_target`. -/
def fetchTarget (E : Env) (D : Digest) (R : World W) (cfg : Config) (target : TargetPath) :
    M (St W) Unit := do
  let stream ← fetchTargetReader E D R cfg target
  lift (storeTarget R stream target)

/-- src/client.rs:807-818 `fetch_target_to_writer`. -/
def fetchTargetToWriter (E : Env) (D : Digest) (R : World W) (cfg : Config) (target : TargetPath) :
    M (St W) Unit := do
  let stream ← fetchTargetReader E D R cfg target
  lift (copyToWriter R stream)

/-- The public calls. -/
inductive Call where
  | update
  | fetchTarget (p : TargetPath)
  | fetchTargetToWriter (p : TargetPath)
  | fetchTargetDescription (p : TargetPath)
deriving DecidableEq

/-- What a public call reports. -/
inductive Reply where
  | updated (b : Bool)
  | done
  | description (d : TargetDescription)
deriving DecidableEq

/-- One public call. -/
def exec (E : Env) (D : Digest) (R : World W) (cfg : Config) : Call → M (St W) Reply
  | .update => do return .updated (← update E D R cfg)
  | .fetchTarget p => do fetchTarget E D R cfg p; return .done
  | .fetchTargetToWriter p => do fetchTargetToWriter E D R cfg p; return .done
  | .fetchTargetDescription p => do return .description (← fetchTargetDescription E D R cfg p)

/-- A sequence of public calls; errors do not end it. -/
def execAll (E : Env) (D : Digest) (R : World W) (cfg : Config) (s : St W) (calls : List Call) :
    St W :=
  calls.foldl (fun s c => (exec E D R cfg c s).2) s

end Client
end RustTuf
