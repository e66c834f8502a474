import Verif.Model.Json

/-!
# What is the same JSON value?
-/

namespace RustTuf.Spec

/-- The same value up to the order of the members of objects, at any level. Members with the same
name must not change places, since a reader keeps the last one. -/
inductive Reordered : Json → Json → Prop
  | refl (v) : Reordered v v
  | symm (v w) : Reordered v w → Reordered w v
  | trans (v w x) : Reordered v w → Reordered w x → Reordered v x
  | swap (a b p q) : p.1 ≠ q.1 → Reordered (.obj (a ++ p :: q :: b)) (.obj (a ++ q :: p :: b))
  | inArr (a b v w) : Reordered v w → Reordered (.arr (a ++ v :: b)) (.arr (a ++ w :: b))
  | inObj (a b k v w) : Reordered v w → Reordered (.obj (a ++ (k, v) :: b)) (.obj (a ++ (k, w) :: b))

mutual
/-- No object has two members with the same name. -/
def Distinct : Json → Prop
  | .arr l => DistinctL l
  | .obj m => (m.map Prod.fst).Nodup ∧ DistinctM m
  | _ => True
def DistinctL : List Json → Prop
  | [] => True
  | v :: l => Distinct v ∧ DistinctL l
def DistinctM : List (Str × Json) → Prop
  | [] => True
  | p :: m => Distinct p.2 ∧ DistinctM m
end

mutual
/-- All numbers are integers between `i64::MIN` and `u64::MAX`. -/
def integral : Json → Bool
  | .int i => decide (-9223372036854775808 ≤ i ∧ i ≤ 18446744073709551615)
  | .float _ => false
  | .arr l => integralL l
  | .obj m => integralM m
  | _ => true
def integralL : List Json → Bool
  | [] => true
  | v :: l => integral v && integralL l
def integralM : List (Str × Json) → Bool
  | [] => true
  | p :: m => integral p.2 && integralM m
end

mutual
/-- The values that a `serde_json::Value` can hold: objects are `BTreeMap`s, so their members are
listed in strictly ascending order of names. -/
def IsValue : Json → Prop
  | .arr l => IsValueL l
  | .obj m => (m.Pairwise fun p q => p.1 < q.1) ∧ IsValueM m
  | _ => True
def IsValueL : List Json → Prop
  | [] => True
  | v :: l => IsValue v ∧ IsValueL l
def IsValueM : List (Str × Json) → Prop
  | [] => True
  | p :: m => IsValue p.2 ∧ IsValueM m
end

mutual
/-- How deep arrays and objects are nested. -/
def nesting : Json → Nat
  | .arr l => nestingL l + 1
  | .obj m => nestingM m + 1
  | _ => 0
def nestingL : List Json → Nat
  | [] => 0
  | v :: l => max (nesting v) (nestingL l)
def nestingM : List (Str × Json) → Nat
  | [] => 0
  | p :: m => max (nesting p.2) (nestingM m)
end

end RustTuf.Spec
