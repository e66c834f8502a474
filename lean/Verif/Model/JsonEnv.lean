import Verif.Model.Shims
import Verif.Model.Verify
import Verif.Props.Cjson

/-!
# The JSON instance of the data interchange
`Env` of `Model/Verify.lean` for `D = Json` (src/interchange/cjson/mod.rs:199-316).
-/

namespace RustTuf

/-- `serde_json::Value`: objects have no repeated members and list them in ascending order. -/
def JsonValue : Type := {v : Json // v.normal = v}

/-- Reading a tree as a `serde_json::Value`. -/
def Json.toValue (v : Json) : JsonValue :=
  ⟨v.normal, Props.normal_isValue _ (Props.isValue_normal v)⟩

/-- `Json`, with signature checking and hash-map order left open. -/
def jsonEnv (X : ShimLib) (ringVerify : Scheme → Bytes → Bytes → Bytes → Bool)
    (sigOrder : Map KeyId Signature → List (KeyId × Signature))
    (sigOrder_perm : ∀ m, (sigOrder m).Perm m) : Env where
  Raw := JsonValue
  parseSigned b := fromSlice X.float
    (fun j => (decodeSigned j).map fun p => (p.1, p.2.toValue)) b
  canonicalize v := Json.canonicalize v.1
  rootFromSlice := fromSlice X.float (decodeRoot X)
  timestampFromSlice := fromSlice X.float (decodeTimestamp X)
  snapshotFromSlice := fromSlice X.float (decodeSnapshot X)
  targetsFromSlice := fromSlice X.float (decodeTargets X)
  rootOfRaw v := fromValue (decodeRoot X) v.1
  ringVerify := ringVerify
  sigOrder := sigOrder
  sigOrder_perm := sigOrder_perm

end RustTuf
