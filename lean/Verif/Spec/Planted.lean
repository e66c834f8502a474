import Verif.Spec.Client
import Verif.Spec.Authors
import Verif.Spec.Delegates
import Verif.Spec.RoundTrip
import Verif.Spec.Withdrawn

/-!
# Specification of files that the author has written
-/

namespace RustTuf.Spec
open Client

/-- The bytes can be read as metadata of a kind. In a file that carries a version number, they are a root
of that version. A delegated role must be one to which the author has delegated. -/
def ReadsAs (E : Env) (author : Bytes → Prop) (v : MetadataVersion) (msg : Bytes) : Kind → Prop
  | .top .root => ∃ m, E.rootFromSlice msg = .ok m ∧ (v = .none ∨ v = .number m.version)
  | .top .timestamp => v = .none ∧ ∃ m, E.timestampFromSlice msg = .ok m
  | .top .snapshot => v = .none ∧ ∃ m, E.snapshotFromSlice msg = .ok m
  | .top .targets => v = .none ∧ ∃ m, E.targetsFromSlice msg = .ok m
  | .delegated role => v = .none ∧ (∃ m, E.targetsFromSlice msg = .ok m) ∧
      ∃ m ds d, Approved author E.targetsFromSlice m ∧ m.delegations = some ds ∧ d ∈ ds.roles ∧ d.role = role

/-- The file for path `p` and version `v` is what its name says, and what it has signed was written by
the author. -/
def Genuine (E : Env) (author : Bytes → Prop) (p : MetadataPath) (v : MetadataVersion) (raw : Bytes) : Prop :=
  ∃ (k : Kind) (sigs : List Signature) (signed : E.Raw) (msg : Bytes), k.path = p ∧
    E.parseSigned raw = .ok (sigs, signed) ∧ E.canonicalize signed = .ok msg ∧ author msg ∧ ReadsAs E author v msg k

/-- The bytes are read, but for the order of maps, as an object that the author has made for a kind. In a
file that carries a version number, it is the root of that version. -/
def ReadsWork (E : Env) (w : Works) (v : MetadataVersion) (msg : Bytes) : Kind → Prop
  | .top .root => ∃ m m', w.root m ∧ E.rootFromSlice msg = .ok m' ∧ SameRoot m m' ∧
      (v = .none ∨ v = .number m.version)
  | .top .timestamp => v = .none ∧ ∃ m m', w.timestamp m ∧ E.timestampFromSlice msg = .ok m' ∧ SameTimestamp m m'
  | .top .snapshot => v = .none ∧ ∃ m m', w.snapshot m ∧ E.snapshotFromSlice msg = .ok m' ∧ SameSnapshot m m'
  | .top .targets => v = .none ∧ ∃ m m', w.targets m ∧ E.targetsFromSlice msg = .ok m' ∧ SameTargets m m'
  | .delegated role => v = .none ∧ (∃ m m', w.targets m ∧ E.targetsFromSlice msg = .ok m' ∧ SameTargets m m') ∧
      ∃ m ds d, w.targets m ∧ m.delegations = some ds ∧ d ∈ ds.roles ∧ d.role = role

/-- The file for path `p` and version `v` holds what the author has made for it. -/
def HoldsWork (E : Env) (w : Works) (p : MetadataPath) (v : MetadataVersion) (raw : Bytes) : Prop :=
  ∃ (k : Kind) (sigs : List Signature) (signed : E.Raw) (msg : Bytes), k.path = p ∧
    E.parseSigned raw = .ok (sigs, signed) ∧ E.canonicalize signed = .ok msg ∧ ReadsWork E w v msg k

/-- The attacker has less than a threshold of the keys of each role of a root. -/
def AllGuarded (honest : Scheme → Bytes → Prop) (r : RootMetadata) : Prop :=
  (RootGuarded honest r ∧ TargetsGuarded honest r) ∧ TimeGuarded honest r

end RustTuf.Spec
