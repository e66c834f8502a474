import Verif.Conformance.Generate
import Verif.Conformance.UnitTests

/-!
# tests/interop/main.rs and all ported tests, run against the model
`lake env lean --run Verif/Conformance/Interop.lean /repo/tests` from the directory of the project. The
files of the crate are read when this is run, not when it is built.
-/

namespace RustTuf.Conformance

/-- The files and directories at most `depth` levels below a directory. -/
def tree : Nat → System.FilePath → FileName → IO (List (FileName × Node))
  | 0, _, _ => return []
  | depth + 1, dir, name => do
    let mut all := [(name, .dir)]
    for e in ← dir.readDir do
      let n := name ++ [e.fileName.toList]
      if ← e.path.isDir then all := all ++ (← tree depth e.path n)
      else all := all ++ [(n, .file (← IO.FS.readBinFile e.path).toList)]
    return all

def look (l : List (FileName × Node)) : Tree := fun n => (l.find? fun x => x.1 == n).map Prod.snd

/-- tests/interop/main.rs:119-171: all steps of one directory. -/
def testKeyRotation (dir : System.FilePath) (now : Time) : IO Bool := do
  let mut steps : List String := []
  for e in ← dir.readDir do
    if ← e.path.isDir then steps := steps ++ [e.fileName]
  let sorted := (steps.toArray.qsort (· < ·)).toList
  let mut keys : Option (List PublicKey) := none
  let mut cache := Ephemeral.new
  let mut targets := []
  for s in sorted do
    let l ← tree 4 (dir / s) [s.toList]
    match initRemote s.toList (look l) with
    | .error e => IO.println s!"{dir} {s}: {repr e}"; return false
    | .ok (f, files) =>
      if keys.isNone then
        match extractKeys f files with
        | .error e => IO.println s!"{dir} {s}: keys: {repr e}"; return false
        | .ok k => keys := some k
      targets := targets ++ [s.toList]
      match runStep f now (keys.getD []) files cache targets with
      | .error e => IO.println s!"{dir} {s}: {e}"; return false
      | .ok c => cache := c
  IO.println s!"{dir}: {sorted.length} steps passed"
  return true

/-- Run one ported test. -/
def runTest (name : String) (t : Except String Unit) : IO Bool := do
  match t with
  | .ok () => IO.println s!"{name}: ok"; return true
  | .error e => IO.println s!"{name}: FAILED: {e}"; return false

/-- Run the tests of src and of tests/*.rs. -/
def runTests (tests : System.FilePath) : IO Bool := do
  let mut ok := true
  for (name, t) in ClientTests.tests ++ UnitTests.tests do
    ok := (← runTest name (t ())) && ok
  let bytes (dir file : String) : IO Bytes := do return (← IO.FS.readBinFile (tests / dir / file)).toList
  for n in ["rsa-2048", "rsa-4096"] do
    ok := (← runTest n (UnitTests.rsaKeys (← bytes "rsa" (n ++ ".pk8.der")) (← bytes "rsa" (n ++ ".spki.der"))
      (← bytes "rsa" (n ++ ".pkcs1.der")))) && ok
  ok := (← runTest "ed25519" (UnitTests.ed25519Keys (← bytes "ed25519" "ed25519-1")
    (← bytes "ed25519" "ed25519-1.pub") (← bytes "ed25519" "ed25519-1.pk8.der")
    (← bytes "ed25519" "ed25519-1.spki.der"))) && ok
  return ok

/-- Compare what tests/metadata/generate.rs writes with the files. -/
def regenerate (dir : System.FilePath) : IO Bool := do
  let mut ok := true
  match parseJson ⟨fun _ => none⟩ (← IO.FS.readBinFile (dir / "keys.json")).toList with
  | .error _ => return false
  | .ok keys =>
    for c in [false, true] do
      for i in List.range 6 do
        match Generate.step keys c i with
        | .error e => IO.println s!"generate {c} {i}: FAILED: {e}"; ok := false
        | .ok files =>
          for (name, b) in files do
            let stored ← IO.FS.readBinFile (dir / s!"consistent-snapshot-{c}" / s!"{i}" / "repository" / name)
            ok := (← runTest s!"generate {c} {i} {name}" (ClientTests.check "differs" (stored.toList == b))) && ok
  return ok

end RustTuf.Conformance

open RustTuf RustTuf.Conformance in
def main (args : List String) : IO UInt32 := do
  let tests : System.FilePath := args.headD "/repo/tests"
  let some now := Formats.parseDate "2020-01-01T00:00:00Z".toList | return 1
  let mut ok ← runTests tests
  for d in [tests / "interop" / "fuchsia-go-tuf-5527fe", tests / "interop" / "fuchsia-go-tuf-transition-M4",
      tests / "metadata"] do
    for c in ["consistent-snapshot-false", "consistent-snapshot-true"] do
      ok := (← testKeyRotation (d / c) now) && ok
  ok := (← regenerate (tests / "metadata")) && ok
  return if ok then 0 else 1
