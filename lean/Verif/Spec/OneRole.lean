import Verif.Model.JsonEnv
import Verif.Spec.Anchored

/-!
# Specification of the type of a document
-/

namespace RustTuf.Spec
open RustTuf

/-- A name written as a string, or as serde also accepts it, as an object with the one member
`name: null`. -/
inductive Names : Json → Str → Prop
  | str (s : Str) : Names (.str s) s
  | obj (s : Str) : Names (.obj [(s, .null)]) s

/-- What a document says about its type: the member `_type`, or the first element of an array. -/
inductive HasType : Json → Str → Prop
  | obj (m : List (Str × Json)) (t : Json) (s : Str) :
      Map.get? m "_type".toList = some t → Names t s → HasType (.obj m) s
  | arr (t : Json) (l : List Json) (s : Str) : Names t s → HasType (.arr (t :: l)) s

/-- The document says something that is metadata of this top-level role, whoever has signed it. -/
def Is (E : Env) (raw : Bytes) : Role → Prop
  | .root => ∃ m, Says E E.rootFromSlice raw m
  | .timestamp => ∃ m, Says E E.timestampFromSlice raw m
  | .snapshot => ∃ m, Says E E.snapshotFromSlice raw m
  | .targets => ∃ m, Says E E.targetsFromSlice raw m

/-- The kind of metadata that an update call expects. Delegated roles have targets metadata. -/
def expects : Kind → Role
  | .top r => r
  | .delegated _ => .targets

end RustTuf.Spec
