import Verif.Conformance.Ed25519
import Verif.Model.Client
import Verif.Model.FileSystem
import Verif.Model.Formats
import Verif.Model.JsonEnv

/-!
# An executable instance of the model
The parameters of the model are filled in: SHA-256, SHA-512 and Ed25519 with implementations, the
order of iteration with the order of insertion. RSA signatures and floats are rejected.
-/

namespace RustTuf.Conformance

def lib : ShimLib := Formats.lib ⟨fun _ => none⟩ sha256

def ringVerify : Scheme → Bytes → Bytes → Bytes → Bool
  | .ed25519, key, msg, sig => Ed25519.verify key msg sig
  | _, _, _, _ => false

def env : Env := jsonEnv lib ringVerify id fun m => List.Perm.refl m

def digest : Digest
  | .sha256, b => sha256 b
  | .sha512, b => sha512 b
  | .unknown _, _ => []

/-- The state around the client of tests/interop/main.rs: the files of the remote repository, the local
repository, what was written to the buffer. -/
structure Around where
  files : Tree
  cache : Ephemeral
  buf : Bytes

/-- Paths relative to the current directory, as far as the tests use them. -/
def resolve (s : Str) : FileName := splitOn '/' s

/-- tests/interop/main.rs:239-244 `init_remote`. -/
def initRemote (dir : Str) (files : Tree) : Except Err (FileSystem × Tree) :=
  FileSystem.build resolve dir (some "repository".toList)
    (some (pathPush "repository".toList "targets".toList)) files

/-- A client between the file system repository `f` and an ephemeral repository, at the time `now`. -/
def world (f : FileSystem) (now : Time) : World Around where
  remote :=
    { fetchMetadata := fun p v _ _ w => (f.fetchMetadata w.files p v, w)
      fetchTarget := fun p _ w => (f.fetchTarget w.files p, w) }
  cache :=
    { fetchMetadata := fun p v _ _ w => (w.cache.fetchMetadata p v, w)
      fetchTarget := fun p _ w => (w.cache.fetchTarget p, w) }
  storeMetadata p v raw w :=
    let (r, c) := w.cache.storeMetadata p v (cursorEvents raw)
    (r, { w with cache := c })
  storeTarget src p w :=
    let (r, c) := w.cache.storeTarget src p
    (r, { w with cache := c })
  write b w := (.ok (), { w with buf := w.buf ++ b })
  flush w := (.ok (), w)
  clock w := (fun _ => now, w)

/-- tests/interop/main.rs:216-237 `extract_keys`. -/
def extractKeys (f : FileSystem) (files : Tree) : Except Err (List PublicKey) := do
  let evs ← f.fetchMetadata files (MetadataPath.fromRole .root) (.number 1)
  let raw ← match readToEnd evs [] with
    | .ok b => .ok b
    | .error k => .error k.toErr
  let (_, signed) ← env.parseSigned raw
  let root ← env.rootOfRaw signed
  return root.rootKeys

/-- tests/interop/main.rs:173-213 `run_test_step`: what is left in the local repository, or what went
wrong. -/
def runStep (f : FileSystem) (now : Time) (keys : List PublicKey) (files : Tree) (cache : Ephemeral)
    (targets : List Str) : Except String Ephemeral := do
  let R := world f now
  let cfg := Config.default true
  let io : Io Around := { w := { files := files, cache := cache, buf := [] }, log := [] }
  match Client.construct env digest R cfg (.trustedRootKeys (.number 1) 1 keys) io with
  | (.error e, _) => throw s!"no client: {repr e}"
  | (.ok tuf, io) =>
    match Client.update env digest R cfg { tuf := tuf, io := io } with
    | (.ok true, s) =>
      match Client.update env digest R cfg s with
      | (.ok false, s) =>
        let mut s := s
        for t in targets do
          s := { s with io := { s.io with w := { s.io.w with buf := [] } } }
          match Client.fetchTargetToWriter env digest R cfg t s with
          | (.ok (), s') =>
            if s'.io.w.buf ≠ utf8 t then throw s!"wrong content of {String.ofList t}"
            s := s'
          | (.error e, _) => throw s!"target {String.ofList t}: {repr e}"
        return s.io.w.cache
      | (r, _) => throw s!"second update: {repr r}"
    | (r, _) => throw s!"first update: {repr r}"

end RustTuf.Conformance
