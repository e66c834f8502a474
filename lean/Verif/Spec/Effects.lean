import Verif.Spec.Published
import Verif.Spec.FilePath

/-! What calls of a client may do besides returning something. -/

namespace RustTuf.Spec
open Client Tuf

/-- What an update does: it asks for metadata, stores metadata, and has root, timestamp, snapshot and
targets metadata verified. -/
def UpdateEntry : LogEntry → Prop
  | .fetch src _ _ _ _ => src = .remote
  | .got src _ _ => src = .remote
  | .store _ _ _ => True
  | .op o _ => ∀ clk parent role raw, o ≠ .delegation clk parent role raw
  | .fetchTarget _ => False
  | .storeTarget _ => False
  | .wrote _ => False

/-- What a search through delegated roles does: it asks for metadata and stores metadata, but neither root
nor snapshot metadata, and has metadata of delegated roles verified. -/
def SearchEntry : LogEntry → Prop
  | .fetch _ p _ _ _ => p ≠ "root".toList ∧ p ≠ "snapshot".toList
  | .got _ p _ => p ≠ "root".toList ∧ p ≠ "snapshot".toList
  | .store p v _ => v = .none ∧ p ≠ "root".toList ∧ p ≠ "snapshot".toList
  | .op o _ => ∃ clk parent role raw, o = .delegation clk parent role raw
  | .fetchTarget _ => False
  | .storeTarget _ => False
  | .wrote _ => False

/-- The file of the repository that holds a target with this description: with consistent snapshots its name
is preceded by the digest that is checked and a dot. -/
def FileOf (r : RootMetadata) (d : TargetDescription) (path name : TargetPath) : Prop :=
  if r.consistentSnapshot then
    ∃ a v dirs file, Preferred d.hashes a v ∧ pieces path = dirs ++ [file] ∧
      pieces name = dirs ++ [hexText v ++ '.' :: file]
  else name = path

/-- What a call does for a listed target: nothing if only the description is wanted. Otherwise it asks for
that file, once, and then hands what it gets to the local repository, once and under the name the caller
used, or to the caller's writer. It may fail before any of these steps. -/
def HandsOver (file : TargetPath → Prop) : Call → List LogEntry → Prop
  | .update, _ => False
  | .fetchTargetDescription _, l => l = []
  | .fetchTarget p, l =>
    l = [] ∨ ∃ n, file n ∧ (l = [.fetchTarget n] ∨ l = [.fetchTarget n, .storeTarget p])
  | .fetchTargetToWriter _, l => l = [] ∨ ∃ (n : TargetPath) (chunks : List Bytes), file n ∧
    l = .fetchTarget n :: chunks.map .wrote

/-- The caller's path in a call. -/
def asks (p : TargetPath) : Call → Prop
  | .update => False
  | .fetchTarget q => q = p
  | .fetchTargetToWriter q => q = p
  | .fetchTargetDescription q => q = p

end RustTuf.Spec
