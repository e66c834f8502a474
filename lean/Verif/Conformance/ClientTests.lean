import Verif.Conformance.TestKeys

/-!
# The tests of src/client.rs, tests/integration.rs and tests/simple_example.rs, run against the model
A test is a computation that throws a text if an assertion fails.
-/

namespace RustTuf.Conformance.ClientTests

abbrev Test := Except String

/-- `unwrap`. -/
def get {α : Type} (what : String) : Except Err α → Test α
  | .ok a => .ok a
  | .error e => .error s!"{what}: {repr e}"

/-- `assert!`. -/
def check (what : String) (b : Bool) : Test Unit := if b then .ok () else .error what

def date (s : String) : Time := (Formats.parseDate s.toList).getD default

def now : Time := date "2021-05-10T00:00:00Z"

/-- The default expiry of the builders, some time after `now`. -/
def soon : Time := date "2021-05-20T00:00:00Z"

def y2038 : Time := date "2038-01-01T00:00:00Z"

def key (n : Nat) : Test (Keys.Ed25519Key ring) :=
  match testKeys[n - 1]? with
  | some k => .ok k
  | none => .error "no such key"

/-- src/repository/track_repo.rs:21-33 `Track`. -/
inductive Track where
  | store (p : MetadataPath) (v : MetadataVersion) (b : Bytes)
  | found (p : MetadataPath) (v : MetadataVersion) (b : Bytes)
  | err (p : MetadataPath) (v : MetadataVersion)
deriving DecidableEq

/-- Two repositories with their tracks; `failStores` as in src/repository/error_repo.rs. -/
structure Pair where
  remote : Ephemeral := .new
  cache : Ephemeral := .new
  remoteTracks : List Track := []
  cacheTracks : List Track := []
  failStores : Bool := false

def track (r : Except Err (List Ev)) (p : MetadataPath) (v : MetadataVersion) : Track :=
  match r with
  | .ok evs => .found p v ((readToEnd evs []).toOption.getD [])
  | .error _ => .err p v

def world : World Pair where
  remote :=
    { fetchMetadata := fun p v _ _ w =>
        let r := w.remote.fetchMetadata p v
        (r, { w with remoteTracks := w.remoteTracks ++ [track r p v] })
      fetchTarget := fun p _ w => (w.remote.fetchTarget p, w) }
  cache :=
    { fetchMetadata := fun p v _ _ w =>
        let r := w.cache.fetchMetadata p v
        (r, { w with cacheTracks := w.cacheTracks ++ [track r p v] })
      fetchTarget := fun p _ w => (w.cache.fetchTarget p, w) }
  storeMetadata p v raw w :=
    if w.failStores then (.error .encoding, w) else
    let (r, c) := w.cache.storeMetadata p v (cursorEvents raw)
    (r, { w with cache := c, cacheTracks := w.cacheTracks ++ [.store p v raw] })
  storeTarget src p w :=
    let (r, c) := w.cache.storeTarget src p
    (r, { w with cache := c })
  write _ w := (.ok (), w)
  flush w := (.ok (), w)
  clock w := (fun _ => now, w)

/-! ### src/repo_builder.rs -/

structure Committed where
  root : Bytes
  targets : Bytes := []
  snapshot : Bytes := []
  timestamp : Bytes := []

/-- What is given to `RepoBuilder`: versions, keys. Without `targets` only a root is published. -/
structure Plan where
  rootKeys : List Nat := [1]
  otherKeys : List Nat := [1]
  root : RootBuilder → RootBuilder
  targets : Option (TargetsBuilder → TargetsBuilder) := none
  snapshotVersion : Nat := 1
  timestampVersion : Nat := 1

def signAll {M : Type} (encode : M → Option Json) (decode : Json → Option M) (m : M) (keys : List Nat) :
    Test (SignedMetadata JsonValue) := do
  let mut b ← get "builder" (SignedBuilder.fromMetadata encode decode m)
  for n in keys do
    b ← get "sign" (b.sign (← key n).private)
  return b.build

def put (r : Ephemeral) (role : Role) (v : MetadataVersion) (b : Bytes) : Test Ephemeral := do
  let (res, r) := r.storeMetadata (MetadataPath.fromRole role) v (sliceReader b)
  get "store" res
  return r

/-- src/repo_builder.rs:112-217 `commit`. -/
def commit (repo : Ephemeral) (p : Plan) : Test (Ephemeral × Committed) := do
  let root ← get "root" (p.root (RootBuilder.new soon)).build
  let rawRoot ← get "raw root" (← signAll (encodeRoot lib) (decodeRoot lib) root p.rootKeys).toRaw
  let mut repo ← put repo .root (.number root.version) rawRoot
  match p.targets with
  | none => return (repo, { root := rawRoot })
  | some f =>
    let targets ← get "targets" (f (TargetsBuilder.new soon)).build
    let signedTargets ← signAll (encodeTargets lib) (decodeTargets lib) targets p.otherKeys
    let rawTargets ← get "raw targets" signedTargets.toRaw
    let b ← get "insert" (((SnapshotBuilder.new soon).setVersion p.snapshotVersion).insert digest .targets
      signedTargets [.sha256])
    let snapshot ← get "snapshot" b.build
    let signedSnapshot ← signAll (encodeSnapshot lib) (decodeSnapshot lib) snapshot p.otherKeys
    let rawSnapshot ← get "raw snapshot" signedSnapshot.toRaw
    let b ← get "from_snapshot" (TimestampBuilder.fromSnapshot digest soon signedSnapshot [.sha256])
    let timestamp ← get "timestamp" (b.setVersion p.timestampVersion).build
    let signedTimestamp ← signAll (encodeTimestamp lib) (decodeTimestamp lib) timestamp p.otherKeys
    let rawTimestamp ← get "raw timestamp" signedTimestamp.toRaw
    if root.consistentSnapshot then
      repo ← put repo .targets (.number targets.version) rawTargets
      repo ← put repo .snapshot (.number snapshot.version) rawSnapshot
    repo ← put repo .targets .none rawTargets
    repo ← put repo .snapshot .none rawSnapshot
    repo ← put repo .timestamp .none rawTimestamp
    return (repo, ⟨rawRoot, rawTargets, rawSnapshot, rawTimestamp⟩)

/-- A root in which key `n` has all roles. -/
def rootOf (k : Keys.Ed25519Key ring) (version : Nat) (consistent : Bool) (expires : Time) (b : RootBuilder) :
    RootBuilder :=
  let k := k.pub
  ((((((b.setVersion version).setConsistentSnapshot consistent).setExpires expires).addKey .root k).addKey
    .snapshot k).addKey .targets k).addKey .timestamp k

def cfg : Config := Config.default true

def start (w : Pair) (s : Client.Start) : Test (St Pair) :=
  match Client.construct env digest world cfg s { w := w, log := [] } with
  | (.error e, _) => .error s!"construct: {repr e}"
  | (.ok t, io) => .ok { tuf := t, io := io }

def update (s : St Pair) : Except Err Bool × St Pair := Client.update env digest world cfg s

/-- `take_tracks` of both repositories. -/
def takeTracks (s : St Pair) : List Track × List Track × St Pair :=
  (s.io.w.remoteTracks, s.io.w.cacheTracks,
    { s with io := { s.io with w := { s.io.w with remoteTracks := [], cacheTracks := [] } } })

def is {α : Type} [DecidableEq α] (r : Except Err α) (a : Except Err α) : Bool := r == a

def rootP := MetadataPath.fromRole .root
def timestampP := MetadataPath.fromRole .timestamp
def snapshotP := MetadataPath.fromRole .snapshot
def targetsP := MetadataPath.fromRole .targets

/-- src/client.rs:1241-1266. -/
def constructorsErrWithNotFound : Test Unit := do
  let k ← key 1
  let run (s : Client.Start) : Except Err Unit :=
    (Client.construct env digest world cfg s { w := {}, log := [] }).1.map fun _ => ()
  check "local" (is (run .trustedLocal) (.error .notFound))
  check "keys" (is (run (.trustedRootKeys (.number 1) 1 [k.pub])) (.error .notFound))

/-- src/client.rs:1268-1305. -/
def constructorsErrWithInvalidKeys : Test Unit := do
  let k ← key 1
  let bad ← key 2
  let (remote, _) ← commit .new { root := rootOf k 1 false y2038 }
  let run : Except Err Unit := (Client.construct env digest world cfg
    (.trustedRootKeys (.number 1) 1 [bad.pub]) { w := { remote := remote }, log := [] }).1.map fun _ => ()
  check "bad key" (is run (.error .verification))

/-- src/client.rs:1329-1530. -/
def constructorsLoadMetadata (mode : Nat) : Test Unit := do
  let k ← key 1
  let (cache, m1) ← commit .new { root := rootOf k 1 true y2038, targets := some fun b => b.setVersion 1 }
  let (remote, m2) ← commit .new
    { root := rootOf k 2 true y2038, targets := some fun b => b.setVersion 2,
      snapshotVersion := 2, timestampVersion := 2 }
  let s ← start { remote := remote, cache := cache } (match mode with
    | 0 => .trustedLocal
    | 1 => .trustedRoot m1.root
    | _ => .trustedRootKeys (.number 1) 1 [k.pub])
  check "version 1" (s.tuf.root.version == 1)
  let (r, l, s) := takeTracks s
  check "remote untouched" (r == [])
  let rest := [.err rootP (.number 2), .found timestampP .none m1.timestamp,
    .found snapshotP .none m1.snapshot, .found targetsP .none m1.targets]
  check "local tracks" (l == if mode = 1 then rest else .found rootP (.number 1) m1.root :: rest)
  let (o, s) := update s
  check "first update" (is o (.ok true))
  check "version 2" (s.tuf.root.version == 2)
  let (r, l, s) := takeTracks s
  check "remote tracks" (r == [.found rootP (.number 2) m2.root, .err rootP (.number 3),
    .found timestampP .none m2.timestamp, .found snapshotP (.number 2) m2.snapshot,
    .found targetsP (.number 2) m2.targets])
  check "stores" (l == [.store rootP .none m2.root, .store rootP (.number 2) m2.root,
    .store timestampP .none m2.timestamp, .store snapshotP .none m2.snapshot,
    .store targetsP .none m2.targets])
  let (o, s) := update s
  check "second update" (is o (.ok false))
  check "still version 2" (s.tuf.root.version == 2)
  let (r, l, _) := takeTracks s
  check "remote tracks 2" (r == [.err rootP (.number 3), .found timestampP .none m2.timestamp])
  check "no stores" (l == [])

/-- Something else is on the server now. -/
def setRemote (s : St Pair) (r : Ephemeral) : St Pair :=
  { s with io := { s.io with w := { s.io.w with remote := r } } }

/-- src/client.rs:1533-1615. -/
def constructorSucceedsWithMissing : Test Unit := do
  let k ← key 1
  let (cache, m1) ← commit .new { root := rootOf k 1 true y2038 }
  let s ← start { cache := cache } (.trustedRoot m1.root)
  check "version 1" (s.tuf.root.version == 1)
  let (r, l, s) := takeTracks s
  check "remote untouched" (r == [])
  check "local tracks" (l == [.err rootP (.number 2), .err timestampP .none])
  let (remote, _) ← commit .new { root := rootOf k 2 true y2038, targets := some fun b => b.setVersion 1 }
  let (o, s) := update (setRemote s remote)
  check "update" (is o (.ok true))
  check "version 2" (s.tuf.root.version == 2)

/-- src/client.rs:1618-1733. -/
def constructorSucceedsWithExpired : Test Unit := do
  let k ← key 1
  let old := date "1970-01-01T00:00:00Z"
  let (cache, m1) ← commit .new { root := rootOf k 1 true old, targets := some fun b => b.setVersion 1 }
  let (cache, m2) ← commit cache
    { root := rootOf k 2 true old, targets := some fun b => b.setVersion 2,
      snapshotVersion := 2, timestampVersion := 2 }
  let s ← start { cache := cache } (.trustedRoot m1.root)
  check "version 2" (s.tuf.root.version == 2)
  let (r, l, s) := takeTracks s
  check "remote untouched" (r == [])
  check "local tracks" (l == [.found rootP (.number 2) m2.root, .err rootP (.number 3)])
  let (remote, _) ← commit .new
    { root := rootOf k 3 true y2038, targets := some fun b => b.setVersion 3,
      snapshotVersion := 3, timestampVersion := 3 }
  let (o, s) := update (setRemote s remote)
  check "update" (is o (.ok true))
  check "version 3" (s.tuf.root.version == 3)

/-- src/client.rs:1736-1810. -/
def constructorSucceedsWithMalformed : Test Unit := do
  let k ← key 1
  let junk := utf8 "junk timestamp".toList
  let cache ← put .new .timestamp .none junk
  let (remote, m1) ← commit .new { root := rootOf k 1 false y2038, targets := some fun b => b.setVersion 1 }
  let s ← start { cache := cache, remote := remote } (.trustedRoot m1.root)
  check "version 1" (s.tuf.root.version == 1)
  let (r, l, s) := takeTracks s
  check "remote untouched" (r == [])
  check "local tracks" (l == [.err rootP (.number 2), .found timestampP .none junk])
  check "update" (is (update s).1 (.ok true))

/-- src/client.rs:1822-2015. -/
def rootChainUpdate (consistent : Bool) : Test Unit := do
  let k1 ← key 1
  let k2 ← key 2
  let k3 ← key 3
  let others := [1, 2, 3]
  let (remote, m1) ← commit .new
    { otherKeys := others, root := rootOf k1 1 consistent y2038, targets := some fun b => b.setVersion 1 }
  let v : MetadataVersion := if consistent then .number 1 else .none
  let s ← start { remote := remote } (.trustedRootKeys (.number 1) 1 [k1.pub])
  let (r, l, s) := takeTracks s
  check "remote tracks 0" (r == [.found rootP (.number 1) m1.root])
  check "local tracks 0" (l == [.err rootP (.number 1), .store rootP (.number 1) m1.root,
    .err rootP (.number 2), .err timestampP .none])
  let (o, s) := update s
  check "update 1" (is o (.ok true))
  check "version 1" (s.tuf.root.version == 1)
  let (r, l, s) := takeTracks s
  check "remote tracks 1" (r == [.err rootP (.number 2), .found timestampP .none m1.timestamp,
    .found snapshotP v m1.snapshot, .found targetsP v m1.targets])
  check "local tracks 1" (l == [.store timestampP .none m1.timestamp, .store snapshotP .none m1.snapshot,
    .store targetsP .none m1.targets])
  let (o, s) := update s
  check "update 2" (is o (.ok false))
  check "still version 1" (s.tuf.root.version == 1)
  let (r, l, s) := takeTracks s
  check "remote tracks 2" (r == [.err rootP (.number 2), .found timestampP .none m1.timestamp])
  check "local tracks 2" (l == [])
  let (remote, m2) ← commit remote
    { rootKeys := [1, 2], otherKeys := others, root := rootOf k2 2 consistent y2038 }
  let (remote, m3) ← commit remote
    { rootKeys := [2, 3], otherKeys := others, root := rootOf k3 3 consistent y2038 }
  let (o, s) := update (setRemote s remote)
  check "update 3" (is o (.ok true))
  check "version 3" (s.tuf.root.version == 3)
  let (r, l, _) := takeTracks s
  check "remote tracks 3" (r == [.found rootP (.number 2) m2.root, .found rootP (.number 3) m3.root,
    .err rootP (.number 4), .found timestampP .none m1.timestamp, .found snapshotP v m1.snapshot,
    .found targetsP v m1.targets])
  check "local tracks 3" (l == [.store rootP .none m2.root, .store rootP (.number 2) m2.root,
    .store rootP .none m3.root, .store rootP (.number 3) m3.root, .store timestampP .none m1.timestamp,
    .store snapshotP .none m1.snapshot, .store targetsP .none m1.targets])

/-- src/client.rs:2018-2108. -/
def fetchTargetDescription (path : String) (d : Except Err TargetDescription) : Test Unit := do
  let k ← key 1
  let d ← get "description" d
  let (remote, m) ← commit .new
    { root := rootOf k 1 false y2038, targets := some fun b => b.insertDescription path.toList d }
  let s ← start { remote := remote } (.trustedRoot m.root)
  let (o, s) := update s
  check "update" (is o (.ok true))
  match (Client.fetchTargetDescription env digest world cfg path.toList s).1 with
  | .error e => .error s!"{repr e}"
  | .ok d' =>
    check "description" ((encodeTargetDescription d').map (fun j => Json.canonicalize j) ==
      (encodeTargetDescription d).map (fun j => Json.canonicalize j))
    check "custom" (d'.custom.isSome == d.custom.isSome)

def custom : Map Str Json :=
  [("string".toList, .str "string".toList), ("bool".toList, .bool true), ("int".toList, .int 42),
    ("object".toList, .obj [("string".toList, .str "string".toList), ("bool".toList, .bool true),
      ("int".toList, .int 42)]),
    ("array".toList, .arr [.int 1, .int 2, .int 3])]

def text (s : String) : List Ev := sliceReader (utf8 s.toList)

/-- src/client.rs:2111-2182. -/
def updateFailsIfCannotWrite : Test Unit := do
  let k ← key 1
  let (remote, _) ← commit .new { root := rootOf k 1 false y2038, targets := some fun b => b.setVersion 1 }
  let s ← start { remote := remote } (.trustedRootKeys (.number 1) 1 [k.pub])
  let (o, s) := update s
  check "update 1" (is o (.ok true))
  let (remote, _) ← commit remote
    { root := rootOf k 1 false y2038, targets := some fun b => b.setVersion 2,
      snapshotVersion := 2, timestampVersion := 2 }
  let s := setRemote s remote
  let s := { s with io := { s.io with w := { s.io.w with failStores := true } } }
  let (o, s) := update s
  check "update 2" (is o (.error .encoding))
  let (o, s) := update s
  check "update 3" (is o (.error .encoding))
  let (o, s) := update s
  check "update 4" (is o (.error .encoding))
  check "update 5" (is (update s).1 (.ok false))

/-! ### tests/simple_example.rs -/

def myTranslator (p : TargetPath) : Except Err VirtualTargetPath :=
  VirtualTargetPath.new (p.map fun c => if c = '-' then '/' else c)

def sign {M : Type} (encode : M → Option Json) (m : Except Err M) (k : Keys.Ed25519Key ring) :
    Test (SignedMetadata JsonValue) := do
  get "signed" (SignedMetadata.ofMetadata encode (← get "build" m) k.private)

/-- tests/simple_example.rs:75-245. -/
def simpleExample (translator : Bool) (consistent : Bool) : Test Unit := do
  let cfg : Config := if translator then { Config.default true with realToVirtual := myTranslator }
    else Config.default true
  let k1 ← key 1
  let k2 ← key 2
  let k3 ← key 3
  let k4 ← key 4
  let root ← sign (encodeRoot lib) ((((((RootBuilder.new soon).setConsistentSnapshot consistent).addKey .root
    k1.pub).addKey .snapshot k2.pub).addKey .targets k3.pub).addKey .timestamp k4.pub).build k1
  let content := "things fade, alternatives exclude"
  let target := "foo-bar".toList
  let d ← get "description" (TargetDescription.fromReader digest (text content) [.sha256])
  let mut repo := Ephemeral.new
  if consistent then
    let (_, value) ← get "preference" (hashPreference d.hashes)
    let p ← get "prefix" (TargetPath.withHashPrefix target value)
    repo := (repo.storeTarget (text content) p).2
  else
    repo := (repo.storeTarget (text content) target).2
  let virt ← get "virtual" (cfg.realToVirtual target)
  let targets ← sign (encodeTargets lib) ((TargetsBuilder.new soon).insertDescription virt d).build k3
  let b ← get "insert" ((SnapshotBuilder.new soon).insert digest .targets targets [.sha256])
  let snapshot ← sign (encodeSnapshot lib) b.build k2
  let b ← get "from_snapshot" (TimestampBuilder.fromSnapshot digest soon snapshot [.sha256])
  let timestamp ← sign (encodeTimestamp lib) b.build k4
  for (role, m) in [(Role.root, root), (.targets, targets), (.snapshot, snapshot), (.timestamp, timestamp)] do
    let raw ← get "raw" m.toRaw
    repo ← put repo role (.number 1) raw
    repo ← put repo role .none raw
  match Client.construct env digest world cfg (.trustedRootKeys (.number 1) 1 [k1.pub])
      { w := { remote := repo }, log := [] } with
  | (.error e, _) => .error s!"construct: {repr e}"
  | (.ok t, io) =>
    let (o, s) := Client.update env digest world cfg { tuf := t, io := io }
    check "update" (is o (.ok true))
    let (o, s) := Client.fetchTarget env digest world cfg target s
    check "fetch" (is o (.ok ()))
    check "stored" (s.io.w.cache.targets.get? target == some (utf8 content.toList))

/-! ### tests/integration.rs -/

/-- The common beginning: a trusted root, timestamp and snapshot. -/
def begin (keys : List Nat) (roles : List String) : Test Tuf := do
  let ks ← keys.mapM key
  let [k1, k2, k3, k4] := ks | .error "four keys"
  let root ← sign (encodeRoot lib) (((((RootBuilder.new soon).addKey .root k1.pub).addKey .snapshot
    k2.pub).addKey .targets k3.pub).addKey .timestamp k4.pub).build k1
  let tuf ← get "tuf" (Tuf.fromRootWithTrustedKeys env (← get "raw" root.toRaw) 1 [k1.pub])
  let mut b := SnapshotBuilder.new soon
  for r in roles do
    let d ← get "description" (MetadataDescription.fromReader digest (sliceReader [0]) 1 [.sha256])
    b := b.insertDescription (← get "path" (MetadataPath.new r.toList)) d
  let snapshot ← sign (encodeSnapshot lib) b.build k2
  let tb ← get "from_snapshot" (TimestampBuilder.fromSnapshot digest soon snapshot [.sha256])
  let timestamp ← sign (encodeTimestamp lib) tb.build k4
  let (o, tuf) := tuf.updateTimestamp env (fun _ => now) (← get "raw" timestamp.toRaw)
  check "timestamp" (o.toOption.isSome)
  let (o, tuf) := tuf.updateSnapshot env (fun _ => now) (← get "raw" snapshot.toRaw)
  check "snapshot" (is o (.ok true))
  return tuf

/-- `Delegations::new` with one delegation for each triple of role, key that may sign it, path; the map
of keys has the last component. -/
def delegations (l : List (String × Nat × String)) (keys : List Nat) : Test Delegations := do
  let roles ← l.mapM fun (role, n, path) => do
    get "delegation" (Delegation.new (← get "path" (MetadataPath.new role.toList)) false 1
      [(← key n).pub.keyId] [← get "path" (VirtualTargetPath.new path.toList)])
  let keys ← keys.mapM fun n => do
    let k ← key n
    return (k.pub.keyId, k.pub)
  get "delegations" (Delegations.new keys roles)

def targetsWith (d : Option Delegations) (files : List (String × String)) (n : Nat) : Test Bytes := do
  let mut b := TargetsBuilder.new soon
  if let some d := d then b := b.setDelegations d
  for (path, content) in files do
    b ← get "insert" (b.insertFromReader digest path.toList (text content) [.sha256])
  get "raw" (← sign (encodeTargets lib) b.build (← key n)).toRaw

def delegate (t : Tuf) (parent role : String) (raw : Bytes) : Test (Except Err Bool × Tuf) := do
  return t.updateDelegation env (fun _ => now) (← get "path" (MetadataPath.new parent.toList))
    (← get "path" (MetadataPath.new role.toList)) raw

def found (t : Tuf) (path : String) : Except Err Unit :=
  (t.targetDescription (fun _ => now) path.toList).map fun _ => ()

def trustTargets (t : Tuf) (raw : Bytes) : Test Tuf := do
  let (o, t) := t.updateTargets env (fun _ => now) raw
  check "targets" (is o (.ok true))
  return t

/-- tests/integration.rs:21-115. -/
def simpleDelegation : Test Unit := do
  let t ← begin [1, 2, 3, 4] ["targets", "delegation"]
  let t ← trustTargets t (← targetsWith (← delegations [("delegation", 5, "foo")] [5]) [] 3)
  let (o, t) ← delegate t "targets" "delegation" (← targetsWith none [("foo", "bar")] 5)
  check "delegation" (is o (.ok true))
  check "found" (is (found t "foo") (.ok ()))

/-- tests/integration.rs:117-246. -/
def nestedDelegation : Test Unit := do
  let t ← begin [1, 2, 3, 4] ["targets", "delegation-a", "delegation-b"]
  let t ← trustTargets t (← targetsWith (← delegations [("delegation-a", 5, "foo")] [5]) [] 3)
  let (o, t) ← delegate t "targets" "delegation-a"
    (← targetsWith (← delegations [("delegation-b", 6, "foo")] [6]) [] 5)
  check "a" (is o (.ok true))
  let (o, t) ← delegate t "delegation-a" "delegation-b" (← targetsWith none [("foo", "bar")] 6)
  check "b" (is o (.ok true))
  check "found" (is (found t "foo") (.ok ()))

/-- tests/integration.rs:248-349. -/
def rejectsBadDelegationSignatures : Test Unit := do
  let t ← begin [1, 2, 3, 4] ["targets", "delegation"]
  let t ← trustTargets t (← targetsWith (← delegations [("delegation", 5, "foo")] [5]) [] 3)
  let (o, t) ← delegate t "targets" "delegation" (← targetsWith none [("foo", "bar")] 6)
  check "delegation" (is o (.error .verification))
  check "not found" (is (found t "foo") (.error .targetUnavailable))

/-- tests/integration.rs:351-577. -/
def diamondDelegation : Test Unit := do
  let t ← begin [1, 1, 2, 1] ["targets", "delegation-a", "delegation-b", "delegation-c"]
  let t ← trustTargets t (← targetsWith
    (← delegations [("delegation-a", 3, "foo"), ("delegation-b", 4, "bar")] [3, 4]) [] 2)
  let (o, t) ← delegate t "targets" "delegation-a"
    (← targetsWith (← delegations [("delegation-c", 5, "foo")] [5]) [] 3)
  check "a" (is o (.ok true))
  let (o, t) ← delegate t "targets" "delegation-b"
    (← targetsWith (← delegations [("delegation-c", 4, "bar")] [5]) [] 4)
  check "b" (is o (.ok true))
  let raw ← targetsWith none [("foo", "foo contents"), ("bar", "bar contents")] 5
  let (o, t) ← delegate t "delegation-a" "delegation-c" raw
  check "c through a" (is o (.ok true))
  let (o, t) ← delegate t "delegation-b" "delegation-c" raw
  check "c through b" (is o (.error .verification))
  check "foo" (is (found t "foo") (.ok ()))
  check "bar" (is (found t "bar") (.error .targetUnavailable))

def tests : List (String × (Unit → Test Unit)) := [
  ("client_constructors_err_with_not_found", fun _ => constructorsErrWithNotFound),
  ("client_constructors_err_with_invalid_keys", fun _ => constructorsErrWithInvalidKeys),
  ("with_trusted_local_loads_metadata_from_local_repo", fun _ => constructorsLoadMetadata 0),
  ("with_trusted_root_loads_metadata_from_local_repo", fun _ => constructorsLoadMetadata 1),
  ("with_trusted_root_keys_loads_metadata_from_local_repo", fun _ => constructorsLoadMetadata 2),
  ("constructor_succeeds_with_missing_metadata", fun _ => constructorSucceedsWithMissing),
  ("constructor_succeeds_with_expired_metadata", fun _ => constructorSucceedsWithExpired),
  ("constructor_succeeds_with_malformed_metadata", fun _ => constructorSucceedsWithMalformed),
  ("root_chain_update_consistent_snapshot_false", fun _ => rootChainUpdate false),
  ("root_chain_update_consistent_snapshot_true", fun _ => rootChainUpdate true),
  ("test_fetch_target_description_standard", fun _ => fetchTargetDescription "standard/metadata"
    (TargetDescription.fromReader digest (text "target with no custom metadata") [.sha256])),
  ("test_fetch_target_description_custom_empty", fun _ => fetchTargetDescription "custom-empty"
    (TargetDescription.fromReaderWithCustom digest (text "target with empty custom metadata") [.sha256] [])),
  ("test_fetch_target_description_custom", fun _ => fetchTargetDescription "custom/metadata"
    (TargetDescription.fromReaderWithCustom digest (text "target with lots of custom metadata") [.sha256]
      custom)),
  ("update_fails_if_cannot_write_to_repo", fun _ => updateFailsIfCannotWrite),
  ("simple_example", fun _ => do
    for t in [false, true] do
      for c in [false, true] do
        simpleExample t c),
  ("simple_delegation", fun _ => simpleDelegation),
  ("nested_delegation", fun _ => nestedDelegation),
  ("rejects_bad_delegation_signatures", fun _ => rejectsBadDelegationSignatures),
  ("diamond_delegation", fun _ => diamondDelegation)]

end RustTuf.Conformance.ClientTests
