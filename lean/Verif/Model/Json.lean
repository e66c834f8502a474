import Verif.Model.Basic

/-!
# JSON values
-/

namespace RustTuf

/-- `serde_json::Value` (serde_json 1.0, default features). Numbers are integers (serde_json keeps
`u64` and negative `i64`) or floats; a float is represented by its bit pattern, since the code only
tells floats from integers. Objects are lists of members; `serde_json::Map` is a `BTreeMap`, i.e. a
list sorted by key without repeated keys, which is the special case `IsValue` in
`Spec/Json.lean`. -/
inductive Json where
  | null
  | bool (b : Bool)
  | int (i : Int)
  | float (bits : Nat)
  | str (s : Str)
  | arr (l : List Json)
  | obj (m : List (Str × Json))

namespace Json
mutual
/-- Boolean equality of JSON values (`Value: PartialEq`). -/
def beq : Json → Json → Bool
  | .null, .null => true
  | .bool a, .bool b => decide (a = b)
  | .int a, .int b => decide (a = b)
  | .float a, .float b => decide (a = b)
  | .str a, .str b => decide (a = b)
  | .arr a, .arr b => beqL a b
  | .obj a, .obj b => beqM a b
  | _, _ => false
/-- Boolean equality of lists of JSON values. -/
def beqL : List Json → List Json → Bool
  | [], [] => true
  | a :: as, b :: bs => beq a b && beqL as bs
  | _, _ => false
/-- Boolean equality of member lists. -/
def beqM : List (Str × Json) → List (Str × Json) → Bool
  | [], [] => true
  | (k, a) :: as, (k', b) :: bs => decide (k = k') && beq a b && beqM as bs
  | _, _ => false
end

mutual
theorem beq_iff : ∀ a b : Json, beq a b = true ↔ a = b
  | .null, b => by cases b <;> simp [beq]
  | .bool a, b => by cases b <;> simp [beq]
  | .int a, b => by cases b <;> simp [beq]
  | .float a, b => by cases b <;> simp [beq]
  | .str a, b => by cases b <;> simp [beq]
  | .arr a, b => by cases b <;> simp [beq, beqL_iff a]
  | .obj a, b => by cases b <;> simp [beq, beqM_iff a]
theorem beqL_iff : ∀ a b : List Json, beqL a b = true ↔ a = b
  | [], b => by cases b <;> simp [beqL]
  | a :: as, b => by cases b <;> simp [beqL, beq_iff a, beqL_iff as]
theorem beqM_iff : ∀ a b : List (Str × Json), beqM a b = true ↔ a = b
  | [], b => by cases b <;> simp [beqM]
  | (k, a) :: as, b => by
    cases b with
    | nil => simp [beqM]
    | cons p bs => obtain ⟨k', b⟩ := p; simp [beqM, beq_iff a, beqM_iff as, and_assoc]
end

instance : DecidableEq Json := fun a b => decidable_of_iff _ (beq_iff a b)
end Json

end RustTuf
