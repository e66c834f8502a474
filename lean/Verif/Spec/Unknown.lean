import Verif.Model.Json

/-!
# Specification of members that a reader does not know
Which members each kind of metadata has, and what it means that a document has further ones.
-/

namespace RustTuf.Spec

/-- What is known about a JSON value: nothing, the members of an object, that all members of an object
or all elements of an array are of one kind. -/
inductive Shape where
  | any
  | fields (l : List (Str × Shape))
  | dict (s : Shape)
  | items (s : Shape)

/-- The second value is the first with one more member, of a name that does not occur in the shape, in
some object at some depth. -/
inductive Adds : Shape → Json → Json → Prop
  | here (l : List (Str × Shape)) (a b : List (Str × Json)) (k : Str) (v : Json) :
      (∀ p ∈ l, p.1 ≠ k) → Adds (.fields l) (.obj (a ++ b)) (.obj (a ++ (k, v) :: b))
  | inField (l : List (Str × Shape)) (a b : List (Str × Json)) (n : Str) (s : Shape) (j j' : Json) :
      (n, s) ∈ l → Adds s j j' →
      Adds (.fields l) (.obj (a ++ (n, j) :: b)) (.obj (a ++ (n, j') :: b))
  | inDict (s : Shape) (a b : List (Str × Json)) (k : Str) (j j' : Json) :
      Adds s j j' → Adds (.dict s) (.obj (a ++ (k, j) :: b)) (.obj (a ++ (k, j') :: b))
  | inItems (s : Shape) (a b : List Json) (j j' : Json) :
      Adds s j j' → Adds (.items s) (.arr (a ++ j :: b)) (.arr (a ++ j' :: b))

/-- Any number of additional members. -/
inductive AddsAll (s : Shape) : Json → Json → Prop
  | refl (j : Json) : AddsAll s j j
  | step (i j k : Json) : AddsAll s i j → Adds s j k → AddsAll s i k

namespace Shape

/-- A public key. -/
def key : Shape :=
  .fields [("keytype".toList, .any), ("scheme".toList, .any), ("keyid_hash_algorithms".toList, .any),
    ("keyval".toList, .fields [("public".toList, .any)])]

/-- A role of a root. -/
def role : Shape := .fields [("threshold".toList, .any), ("keyids".toList, .any)]

/-- Root metadata. -/
def root : Shape :=
  .fields [("_type".toList, .any), ("spec_version".toList, .any), ("version".toList, .any),
    ("consistent_snapshot".toList, .any), ("expires".toList, .any), ("keys".toList, .dict key),
    ("roles".toList, .fields [("root".toList, role), ("snapshot".toList, role),
      ("targets".toList, role), ("timestamp".toList, role)])]

/-- How a snapshot or a timestamp describes a file. -/
def description : Shape :=
  .fields [("version".toList, .any), ("length".toList, .any), ("hashes".toList, .any)]

/-- Timestamp and snapshot metadata. -/
def listing : Shape :=
  .fields [("_type".toList, .any), ("spec_version".toList, .any), ("version".toList, .any),
    ("expires".toList, .any), ("meta".toList, .dict description)]

/-- The description of a target. -/
def target : Shape :=
  .fields [("length".toList, .any), ("hashes".toList, .any), ("custom".toList, .any)]

/-- A delegation. -/
def delegation : Shape :=
  .fields [("role".toList, .any), ("terminating".toList, .any), ("threshold".toList, .any),
    ("keyids".toList, .any), ("paths".toList, .any)]

/-- Targets metadata. -/
def targets : Shape :=
  .fields [("_type".toList, .any), ("spec_version".toList, .any), ("version".toList, .any),
    ("expires".toList, .any), ("targets".toList, .dict target),
    ("delegations".toList, .fields [("keys".toList, .dict key), ("roles".toList, .items delegation)])]

/-- A signed document. What is signed is not part of the shape. -/
def signed : Shape :=
  .fields [("signatures".toList, .items (.fields [("keyid".toList, .any), ("sig".toList, .any)])),
    ("signed".toList, .any)]

end Shape

end RustTuf.Spec
