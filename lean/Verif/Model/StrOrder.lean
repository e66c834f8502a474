import Verif.Model.Basic

/-!
# `Ord for String` and `BTreeMap<String, _>`
-/

namespace RustTuf

/-- `Ord for String`, strictly less. Rust compares UTF-8 bytes; UTF-8 keeps the order of scalar
values, so this is the lexicographic order of scalar values. -/
def strLt : Str → Str → Bool
  | _, [] => false
  | [], _ :: _ => true
  | a :: as, b :: bs => decide (a < b) || (decide (a = b) && strLt as bs)

/-- `BTreeMap::insert` on the list of entries in order of their keys. -/
def btreeInsert {V : Type} (k : Str) (v : V) : List (Str × V) → List (Str × V)
  | [] => [(k, v)]
  | p :: m =>
    if strLt k p.1 then (k, v) :: p :: m
    else if k = p.1 then (k, v) :: m
    else p :: btreeInsert k v m

/-- A `BTreeMap` filled by inserting entries one after the other. -/
def btreeCollect {V : Type} (l : List (Str × V)) : List (Str × V) :=
  l.foldl (fun m p => btreeInsert p.1 p.2 m) []

end RustTuf
