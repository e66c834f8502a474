import Verif.Model.Verify
import Verif.Model.Paths

/-!
# The trusted metadata store `Tuf`
-/

namespace RustTuf

/-- src/tuf.rs:20-27 `Tuf`. -/
structure Tuf where
  root : RootMetadata
  snapshot : Option SnapshotMetadata
  targets : Option TargetsMetadata
  timestamp : Option TimestampMetadata
  delegations : Map MetadataPath TargetsMetadata
deriving DecidableEq

/-- The places in src/tuf.rs that read `Utc::now()`. Each is executed at most once per call
(`deleg r` once per role, because of the visited set), so a clock that gives each place its own
reading covers every possible behaviour of the real clock. -/
inductive Site where
  | root | timestamp | snapshot | targets | new | deleg (role : MetadataPath)
deriving DecidableEq

/-- Clock readings of one call. -/
abbrev Clock := Site → Time

namespace Tuf

/-- A store that trusts only a root (src/tuf.rs:61-68, 91-98). -/
def ofRoot (r : RootMetadata) : Tuf :=
  { root := r, snapshot := none, targets := none, timestamp := none, delegations := [] }

/-- src/tuf.rs:33-69 `from_root_with_trusted_keys`. -/
def fromRootWithTrustedKeys (E : Env) (raw : Bytes) (threshold : Nat) (keys : List PublicKey) :
    Except Err Tuf :=
  match verifySignatures E E.rootFromSlice raw threshold keys with
  | .error e => .error e
  | .ok newRoot =>
    match verifySignatures E E.rootFromSlice raw newRoot.root.threshold
        (filterKeys newRoot.keys newRoot.root.keyIds) with
    | .error e => .error e
    | .ok r => .ok (ofRoot r)

/-- src/tuf.rs:75-99 `from_trusted_root`, with src/metadata.rs:268-270 `parse_untrusted` and
491-493 `assume_valid`. -/
def fromTrustedRoot (E : Env) (raw : Bytes) : Except Err Tuf :=
  match E.parseSigned raw with
  | .error e => .error e
  | .ok (_, signed) =>
    match E.rootOfRaw signed with
    | .error e => .error e
    | .ok unverified =>
      match verifySignatures E E.rootFromSlice raw unverified.root.threshold unverified.rootKeys with
      | .error e => .error e
      | .ok r => .ok (ofRoot r)

/-- src/tuf.rs:126-131. -/
def timestampVersion (t : Tuf) : Nat := (t.timestamp.map (·.version)).getD 0
/-- src/tuf.rs:133-138. -/
def snapshotVersion (t : Tuf) : Nat := (t.snapshot.map (·.version)).getD 0
/-- src/tuf.rs:140-145. -/
def targetsVersion (t : Tuf) : Nat := (t.targets.map (·.version)).getD 0
/-- src/tuf.rs:147-152. -/
def delegationVersion (t : Tuf) (role : MetadataPath) : Nat :=
  ((t.delegations.get? role).map (·.version)).getD 0

/-- src/tuf.rs:839-844 `purge_metadata`. -/
def purgeMetadata (t : Tuf) : Tuf :=
  { t with snapshot := none, targets := none, timestamp := none, delegations := [] }

/-- src/tuf.rs:846-852 `trusted_root_unexpired`. -/
def rootUnexpired (t : Tuf) (clk : Clock) : Except Err RootMetadata :=
  if t.root.expires ≤ clk .root then .error (.expired .root) else .ok t.root

/-- src/tuf.rs:854-864 `trusted_snapshot_unexpired`. -/
def snapshotUnexpired (t : Tuf) (clk : Clock) : Except Err SnapshotMetadata :=
  match t.snapshot with
  | some s => if s.expires ≤ clk .snapshot then .error (.expired .snapshot) else .ok s
  | none => .error (.missing .snapshot)

/-- src/tuf.rs:866-876 `trusted_targets_unexpired`. -/
def targetsUnexpired (t : Tuf) (clk : Clock) : Except Err TargetsMetadata :=
  match t.targets with
  | some s => if s.expires ≤ clk .targets then .error (.expired .targets) else .ok s
  | none => .error (.missing .targets)

/-- src/tuf.rs:877-887 `trusted_timestamp_unexpired`. -/
def timestampUnexpired (t : Tuf) (clk : Clock) : Except Err TimestampMetadata :=
  match t.timestamp with
  | some s => if s.expires ≤ clk .timestamp then .error (.expired .timestamp) else .ok s
  | none => .error (.missing .timestamp)

/-- src/tuf.rs:155-246 `update_root`. The state is returned also on error. -/
def updateRoot (E : Env) (t : Tuf) (raw : Bytes) : Except Err Unit × Tuf :=
  -- 169-173
  match verifySignatures E E.rootFromSlice raw t.root.root.threshold t.root.rootKeys with
  | .error e => (.error e, t)
  | .ok newRoot₀ =>
    -- 176-180
    match verifySignatures E E.rootFromSlice raw newRoot₀.root.threshold newRoot₀.rootKeys with
    | .error e => (.error e, t)
    | .ok newRoot =>
      -- 193-195: `checked_add(1)`
      if t.root.version + 1 > u32Max then (.error .verification, t) else
      -- 197-203
      if newRoot.version ≠ t.root.version + 1 then (.error .verification, t) else
      -- 236-245
      (.ok (), { t.purgeMetadata with root := newRoot })

/-- src/tuf.rs:251-338 `update_timestamp`. -/
def updateTimestamp (E : Env) (clk : Clock) (t : Tuf) (raw : Bytes) :
    Except Err (Option TimestampMetadata) × Tuf :=
  -- 269-273
  match verifySignatures E E.timestampFromSlice raw t.root.timestamp.threshold
      t.root.timestampKeys with
  | .error e => (.error e, t)
  | .ok new =>
    -- 288-300
    if new.version < t.timestampVersion then (.error .verification, t)
    else if new.version = t.timestampVersion then (.ok none, t)
    else
      -- 316-318
      let t := if t.snapshotVersion ≠ new.snapshot.version then { t with snapshot := none } else t
      -- 329-331
      if new.expires ≤ clk .new then (.error (.expired .timestamp), t)
      -- 336-337
      else (.ok (some new), { t with timestamp := some new })

/-- src/tuf.rs:487-512 `purge_delegations`: first collect the roles to purge (490-506), then remove
them one by one (508-510). -/
def purgeDelegations (t : Tuf) : Tuf :=
  match t.snapshot with
  | none => t
  | some s =>
    let purge := (s.metas.filter fun p =>
      match t.delegations.get? p.1 with
      | none => false
      | some d => decide (d.version > p.2.version)).map Prod.fst
    { t with delegations := purge.foldl (fun m role => Map.erase m role) t.delegations }

/-- src/tuf.rs:341-485 `update_snapshot`. -/
def updateSnapshot (E : Env) (clk : Clock) (t : Tuf) (raw : Bytes) : Except Err Bool × Tuf :=
  -- 349
  match t.rootUnexpired clk with
  | .error e => (.error e, t)
  | .ok root =>
  -- 350
  match t.timestampUnexpired clk with
  | .error e => (.error e, t)
  | .ok ts =>
  -- 353-369
  if ts.snapshot.version < t.snapshotVersion then (.error .verification, t)
  else if ts.snapshot.version = t.snapshotVersion then (.ok false, t)
  else
  -- 396-400
  match verifySignatures E E.snapshotFromSlice raw root.snapshot.threshold root.snapshotKeys with
  | .error e => (.error e, t)
  | .ok new =>
  -- 406-413
  if new.version ≠ ts.snapshot.version then (.error .verification, t) else
  -- 426-432
  if new.version < t.snapshotVersion then (.error .verification, t) else
  -- 465-477
  let described := ((new.metas.get? (MetadataPath.fromRole .targets)).map (·.version)).getD 0
  let t := if t.targetsVersion ≠ described then { t with targets := none } else t
  -- 479
  let t := { t with snapshot := some new }
  -- 482-484
  (.ok true, t.purgeDelegations)

/-- src/tuf.rs:515-617 `update_targets`. The expiry error names the snapshot role (line 609), as in
the code. -/
def updateTargets (E : Env) (clk : Clock) (t : Tuf) (raw : Bytes) : Except Err Bool × Tuf :=
  -- 522
  match t.rootUnexpired clk with
  | .error e => (.error e, t)
  | .ok root =>
  -- 523
  match t.snapshotUnexpired clk with
  | .error e => (.error e, t)
  | .ok sn =>
  -- 527-534
  match sn.metas.get? (MetadataPath.fromRole .targets) with
  | none => (.error .verification, t)
  | some descr =>
  -- 538-554
  if descr.version < t.targetsVersion then (.error .verification, t)
  else if descr.version = t.targetsVersion then (.ok false, t)
  else
  -- 581-585
  match verifySignatures E E.targetsFromSlice raw root.targets.threshold root.targetsKeys with
  | .error e => (.error e, t)
  | .ok new =>
  -- 591-598
  if new.version ≠ descr.version then (.error .verification, t) else
  -- 608-610
  if new.expires ≤ clk .new then (.error (.expired .snapshot), t) else
  -- 615-616
  (.ok true, { t with targets := some new })

/-- src/tuf.rs:621-663 `find_delegation_threshold_and_keys`. -/
def findDelegation (t : Tuf) (parent role : MetadataPath) : Option (Nat × List PublicKey) :=
  let trustedParent :=
    if parent = MetadataPath.fromRole .targets then t.targets else t.delegations.get? parent
  match trustedParent with
  | none => none
  | some p =>
    match p.delegations with
    | none => none
    | some ds =>
      match ds.roles.find? (fun d => decide (d.role = role)) with
      | none => none
      | some d => some (d.threshold, filterKeys ds.keys d.keyIds)

/-- src/tuf.rs:666-756 `update_delegation`. -/
def updateDelegation (E : Env) (clk : Clock) (t : Tuf) (parent role : MetadataPath)
    (raw : Bytes) : Except Err Bool × Tuf :=
  -- 675
  match t.rootUnexpired clk with
  | .error e => (.error e, t)
  | .ok _ =>
  -- 676
  match t.snapshotUnexpired clk with
  | .error e => (.error e, t)
  | .ok sn =>
  -- 677
  match t.targetsUnexpired clk with
  | .error e => (.error e, t)
  | .ok ta =>
  -- 679-683
  if ta.delegations.isNone then (.error .verification, t) else
  -- 685-693
  match sn.metas.get? role with
  | none => (.error .verification, t)
  | some descr =>
  -- 695-705
  if descr.version < t.delegationVersion role then (.error .verification, t) else
  -- 719-727
  match t.findDelegation parent role with
  | none => (.error .verification, t)
  | some (threshold, keys) =>
  -- 729
  match verifySignatures E E.targetsFromSlice raw threshold keys with
  | .error e => (.error e, t)
  | .ok new =>
  -- 731-733
  if t.delegationVersion role = descr.version then (.ok false, t) else
  -- 735-743
  if new.version ≠ descr.version then (.error .verification, t) else
  -- 745-748
  if new.expires ≤ clk .new then (.error (.expired .targets), t) else
  -- 753-755
  (.ok true, { t with delegations := t.delegations.insert role new })

/-- What one call of the inner `lookup` returns: `(bool, Option<TargetDescription>)` and the
visited set. The outer `Option` is `none` when the fuel ran out. -/
abbrev LookupRes := Option ((Bool × Option TargetDescription) × List MetadataPath)

/-- src/tuf.rs:780-825: the `for` loop of the inner `lookup`. `rec` is the recursive call. -/
def lookupLoop (t : Tuf) (clk : Clock) (path : VirtualTargetPath)
    (rec : Bool → Nat → Delegations → List (List VirtualTargetPath) → List MetadataPath → LookupRes)
    (dflt : Bool) (depth : Nat) (parents : List (List VirtualTargetPath)) :
    List Delegation → List MetadataPath → LookupRes
  -- 825
  | [], visited => some ((dflt, none), visited)
  | d :: ds, visited =>
    -- 781-783
    if visited.contains d.role then some ((d.terminating, none), visited) else
    -- 784
    let visited := d.role :: visited
    -- 789-791
    if depth > 0 && !matchesChain path parents then some ((d.terminating, none), visited) else
    -- 793-796
    match t.delegations.get? d.role with
    | none => some ((d.terminating, none), visited)
    | some td =>
      -- 798-800
      if td.expires ≤ clk (.deleg d.role) then some ((d.terminating, none), visited) else
      -- 802-804
      match td.targets.get? path with
      | some target => some ((d.terminating, some target), visited)
      | none =>
        -- 806-823
        match td.delegations with
        | none => lookupLoop t clk path rec dflt depth parents ds visited
        | some child =>
          match rec d.terminating (depth + 1) child (parents ++ [d.paths]) visited with
          | none => none
          | some ((term, res), visited) =>
            if term then some ((true, res), visited)
            else if res.isSome then some ((term, res), visited)
            else lookupLoop t clk path rec dflt depth parents ds visited

/-- src/tuf.rs:771-826: the inner `lookup`, with fuel bounding the nesting depth. -/
def lookup (t : Tuf) (clk : Clock) (path : VirtualTargetPath) : Nat →
    Bool → Nat → Delegations → List (List VirtualTargetPath) → List MetadataPath → LookupRes
  | 0 => fun _ _ _ _ _ => none
  | fuel + 1 => fun dflt depth ds parents visited =>
    lookupLoop t clk path (lookup t clk path fuel) dflt depth parents ds.roles visited

/-- Fuel for `lookup`: every nested call is made from a trusted delegated role not visited before.
`Props` shows that this suffices. -/
def lookupFuel (t : Tuf) : Nat := t.delegations.length + 1

/-- src/tuf.rs:762-837 `target_description`. -/
def targetDescription (clk : Clock) (t : Tuf) (path : VirtualTargetPath) :
    Except Err TargetDescription :=
  match t.rootUnexpired clk with
  | .error e => .error e
  | .ok _ =>
  match t.snapshotUnexpired clk with
  | .error e => .error e
  | .ok _ =>
  match t.targetsUnexpired clk with
  | .error e => .error e
  | .ok ta =>
  -- 767-769
  match ta.targets.get? path with
  | some d => .ok d
  | none =>
    -- 828-836
    match ta.delegations with
    | none => .error .targetUnavailable
    | some ds =>
      match t.lookup clk path t.lookupFuel false 0 ds [] [] with
      | none => .error .diverged
      | some ((_, some d), _) => .ok d
      | some ((_, none), _) => .error .targetUnavailable

/-- The update calls of the public interface. -/
inductive Op where
  | root (raw : Bytes)
  | timestamp (clk : Clock) (raw : Bytes)
  | snapshot (clk : Clock) (raw : Bytes)
  | targets (clk : Clock) (raw : Bytes)
  | delegation (clk : Clock) (parent role : MetadataPath) (raw : Bytes)

/-- Did the call return `Ok`, and if so did it report a change? -/
inductive Outcome where
  | failed (e : Err) | unchanged | changed
deriving DecidableEq

/-- One update call. -/
def step (E : Env) (t : Tuf) : Op → Outcome × Tuf
  | .root raw =>
    match updateRoot E t raw with
    | (.error e, t') => (.failed e, t')
    | (.ok (), t') => (.changed, t')
  | .timestamp clk raw =>
    match updateTimestamp E clk t raw with
    | (.error e, t') => (.failed e, t')
    | (.ok none, t') => (.unchanged, t')
    | (.ok (some _), t') => (.changed, t')
  | .snapshot clk raw =>
    match updateSnapshot E clk t raw with
    | (.error e, t') => (.failed e, t')
    | (.ok false, t') => (.unchanged, t')
    | (.ok true, t') => (.changed, t')
  | .targets clk raw =>
    match updateTargets E clk t raw with
    | (.error e, t') => (.failed e, t')
    | (.ok false, t') => (.unchanged, t')
    | (.ok true, t') => (.changed, t')
  | .delegation clk parent role raw =>
    match updateDelegation E clk t parent role raw with
    | (.error e, t') => (.failed e, t')
    | (.ok false, t') => (.unchanged, t')
    | (.ok true, t') => (.changed, t')

/-- A history of update calls. Errors do not end a history: callers may go on. -/
def run (E : Env) (t : Tuf) (ops : List Op) : Tuf := ops.foldl (fun t op => (step E t op).2) t

end Tuf
end RustTuf
