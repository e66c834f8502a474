import Verif.Model.Json

/-!
# Specification of repeated members
When two JSON documents, as they are written, have the same content: the order of members does not
matter, and of several members with the same name the last one counts.
-/

namespace RustTuf.Spec

/-- `v` is the value of the last member with this name. -/
def LastMember (m : List (Str × Json)) (name : Str) (v : Json) : Prop :=
  ∃ pre post, m = pre ++ (name, v) :: post ∧ ∀ p ∈ post, p.1 ≠ name

/-- Same content. -/
inductive SameContent : Json → Json → Prop
  | scalar (v : Json) : (∀ l, v ≠ .arr l) → (∀ m, v ≠ .obj m) → SameContent v v
  | arr (l l' : List Json) : l.length = l'.length →
      (∀ i (h : i < l.length) (h' : i < l'.length), SameContent l[i] l'[i]) →
      SameContent (.arr l) (.arr l')
  | obj (m m' : List (Str × Json)) :
      (∀ name, (∃ v, LastMember m name v) ↔ ∃ v, LastMember m' name v) →
      (∀ name v v', LastMember m name v → LastMember m' name v' → SameContent v v') →
      SameContent (.obj m) (.obj m')

end RustTuf.Spec
