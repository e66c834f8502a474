import Verif.Model.Shims

/-!
# Examples for C54 and C69
-/

namespace RustTuf.Props
open RustTuf

namespace ShimExample

/-- A library with a constant digest, in which dates are single digits. -/
def lib : ShimLib where
  float := ⟨fun _ => none⟩
  sha256 := fun _ => List.replicate 32 0
  parseDate := fun s => if s = "1".toList then some 1 else none
  formatDate := fun _ => "1".toList
  base64Decode := fun _ => none
  base64Encode := fun _ => []
  readSpki := fun _ => none
  writeSpki := fun _ _ => none

def zeros (n : Nat) : Str := List.replicate n '0'
def q (s : Str) : Str := '"' :: s ++ ['"']

/-- A key, given by its IDs in the text. -/
def keyText : Str :=
  "{\"keytype\":\"ed25519\",\"scheme\":\"ed25519\",\"keyval\":{\"public\":".toList ++
    q (zeros 64) ++ "}}".toList

def roleText (threshold : Str) (ids : List Str) : Str :=
  "{\"threshold\":".toList ++ threshold ++ ",\"keyids\":[".toList ++
    joinWith ',' (ids.map q) ++ "]}".toList

/-- Root metadata; the member order differs from the canonical one. -/
def rootText (threshold : Str) (ids : List Str) (keyId : Str) (version : Str) : Str :=
  "{\"spec_version\":\"1.0\",\"_type\":\"root\",\"version\":".toList ++ version ++
  ",\"expires\":\"1\",\"consistent_snapshot\":true,\"keys\":{".toList ++
    q keyId ++ ":".toList ++ keyText ++ "},\"roles\":{\"root\":".toList ++
    roleText threshold ids ++ ",\"snapshot\":".toList ++ roleText threshold ids ++
    ",\"targets\":".toList ++ roleText threshold ids ++ ",\"timestamp\":".toList ++
    roleText threshold ids ++ "}}".toList

def decode (t : Str) : Option RootMetadata :=
  match parseText lib.float t with
  | .error _ => none
  | .ok j => decodeRoot lib j

-- A root that is accepted, with its key.
example : (decode (rootText "1".toList [zeros 64] (zeros 64) "3".toList)).map
    (fun r => (r.version, r.keys.length, r.root.threshold)) = some (3, 1, 1) := by
  decide +kernel
-- Threshold above the number of key IDs, a repeated key ID, threshold zero, version zero: refused.
example : decode (rootText "2".toList [zeros 64] (zeros 64) "3".toList) = none := by
  decide +kernel
example : decode (rootText "2".toList [zeros 64, zeros 64] (zeros 64) "3".toList) = none := by
  decide +kernel
example : decode (rootText "0".toList [zeros 64] (zeros 64) "3".toList) = none := by
  decide +kernel
example : decode (rootText "1".toList [zeros 64] (zeros 64) "0".toList) = none := by
  decide +kernel
-- A key under a foreign ID is dropped, so this root can never be satisfied.
example : (decode (rootText "1".toList [zeros 64] (List.replicate 64 '1') "3".toList)).map
    (fun r => (r.keys.length, r.rootKeys.length, r.root.threshold)) = some (0, 0, 1) := by
  decide +kernel

/-- Targets metadata with one target and one delegation. -/
def targetsText (target role path : Str) : Str :=
  "{\"_type\":\"targets\",\"spec_version\":\"1.0\",\"version\":1,\"expires\":\"1\",\"targets\":{".toList
    ++ q target ++ ":{\"length\":5,\"hashes\":{\"sha256\":\"00ff\"}}},\"delegations\":{\"keys\":{".toList
    ++ q (zeros 64) ++ ":".toList ++ keyText ++ "},\"roles\":[{\"role\":".toList ++ q role ++
    ",\"terminating\":false,\"threshold\":1,\"keyids\":[".toList ++ q (zeros 64) ++
    "],\"paths\":[".toList ++ q path ++ "]}]}}".toList

def decodeT (t : Str) : Option TargetsMetadata :=
  match parseText lib.float t with
  | .error _ => none
  | .ok j => decodeTargets lib j

example : (decodeT (targetsText "a/b".toList "r".toList "a/".toList)).map
    (fun m => (m.targets.map (·.1), m.delegations.map fun d => d.roles.map (·.paths))) =
    some (["a/b".toList], some [["a/".toList]]) := by decide +kernel
example : decodeT (targetsText "../b".toList "r".toList "a/".toList) = none := by decide +kernel
example : decodeT (targetsText "b".toList "/r".toList "a/".toList) = none := by decide +kernel
example : decodeT (targetsText "b".toList "r".toList "a/..".toList) = none := by decide +kernel

end ShimExample

end RustTuf.Props
