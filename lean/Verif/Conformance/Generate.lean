import Verif.Conformance.ClientTests
import Verif.Model.Pretty

/-!
# tests/metadata/generate.rs, run against the model
The documents that the program writes, to be compared with the files under tests/metadata. The files were
made when keys still carried `keyid_hash_algorithms`.
-/

namespace RustTuf.Conformance.Generate

open ClientTests

abbrev Key := Keys.Ed25519Key ring

/-- generate.rs:52-66: a key of tests/metadata/keys.json, given by its role and number. -/
def keyOf (keys : Json) (role : String) (n : Nat) : Test Key := do
  let member (j : Option Json) (k : String) : Option Json :=
    match j with
    | some (.obj m) => (m.find? fun p => p.1 == k.toList).map Prod.snd
    | _ => none
  let element (j : Option Json) (n : Nat) : Option Json :=
    match j with
    | some (.arr l) => l[n]?
    | _ => none
  match member (member (element (element (member (some keys) role) n) 0) "keyval") "private" with
  | some (.str s) =>
    let b := (hexLowerDecode s).getD []
    let k ← get "from_ed25519" (Keys.ed25519FromBytes lib ring b)
    get "from_pair" (Keys.ed25519FromPair lib ring k.pair Keys.pythonAlgs)
  | _ => .error "no such key"

def expiration : Time := date "2100-01-01T00:00:00Z"

/-- No number in these documents is a floating-point number. -/
def noFloat : Nat → Str := fun _ => []

/-- generate.rs:84-130 `update_root`. -/
def updateRoot (root snapshot targets timestamp : Key) (signer : Option Key) (version : Nat) (consistent : Bool) :
    Test Bytes := do
  let b := ((((((RootBuilder.new soon).addKey .root root.pub).setExpires expiration).setVersion version).addKey
    .snapshot snapshot.pub).addKey .targets targets.pub).addKey .timestamp timestamp.pub
  let mut s ← sign (encodeRoot lib) (b.setConsistentSnapshot consistent).build (signer.getD root)
  if signer.isSome then
    let (r, s') := s.addSignature ⟨fun v => Json.canonicalize v.1, fun _ => .ok ()⟩ root.private
    get "add_signature" r
    s := s'
  get "root" (s.toWriterPretty noFloat)

/-- generate.rs:132-228 `add_target`: targets, snapshot, timestamp. -/
def addTarget (snapshot targets timestamp : Key) (step : Nat) : Test (Bytes × Bytes × Bytes) := do
  let mut b := ((TargetsBuilder.new soon).setExpires expiration).setVersion (step + 1)
  for i in List.range (step + 1) do
    let d ← get "target" (TargetDescription.fromReader digest (text (toString i)) [.sha256])
    b := b.insertDescription (toString i).toList d
  let ta ← sign (encodeTargets lib) b.build targets
  let sb ← get "insert_metadata" ((((SnapshotBuilder.new soon).setExpires expiration).setVersion
    (step + 1)).insertWithPathPretty noFloat digest "targets".toList ta [.sha256])
  let sn ← sign (encodeSnapshot lib) sb.build snapshot
  let tb ← get "from_snapshot" (TimestampBuilder.fromSnapshotPretty noFloat digest soon sn [.sha256])
  let ts ← sign (encodeTimestamp lib) ((tb.setExpires expiration).setVersion (step + 1)).build timestamp
  return (← get "targets" (ta.toWriterPretty noFloat), ← get "snapshot" (sn.toWriterPretty noFloat),
    ← get "timestamp" (ts.toWriterPretty noFloat))

/-- generate.rs:230-293: the files that a step writes, by name. -/
def step (keys : Json) (consistent : Bool) (i : Nat) : Test (List (String × Bytes)) := do
  let root ← keyOf keys "root" (if i ≥ 1 then 1 else 0)
  let targets ← keyOf keys "targets" (if i ≥ 2 then 1 else 0)
  let snapshot ← keyOf keys "snapshot" (if i ≥ 3 then 1 else 0)
  let timestamp ← keyOf keys "timestamp" (if i ≥ 4 then 1 else 0)
  let signer : Option Key ← if i = 1 then (keyOf keys "root" 0).map some else pure none
  let r ← updateRoot root snapshot targets timestamp signer (i + 1) consistent
  let (ta, sn, ts) ← addTarget snapshot targets timestamp i
  let pre := if consistent then s!"{i + 1}." else ""
  return [(s!"{i + 1}.root.json", r), ("root.json", r), (pre ++ "targets.json", ta), (pre ++ "snapshot.json", sn),
    ("timestamp.json", ts)]

end RustTuf.Conformance.Generate
