import Verif.Model.Http

/-! What a web server makes of a request path. -/

namespace RustTuf.Spec

/-- Value of a hexadecimal digit in either case. -/
def hexVal (c : Char) : Option Nat :=
  let n := c.toNat
  if 48 ≤ n ∧ n ≤ 57 then some (n - 48)
  else if 65 ≤ n ∧ n ≤ 70 then some (n - 55)
  else if 97 ≤ n ∧ n ≤ 102 then some (n - 87)
  else none

/-- Percent-decoding: `%XY` becomes a byte, anything else stands for itself. -/
def percentDecode : Str → Bytes
  | [] => []
  | c :: a :: b :: rest =>
    if c = '%' then
      match hexVal a, hexVal b with
      | some x, some y => UInt8.ofNat (16 * x + y) :: percentDecode rest
      | _, _ => UInt8.ofNat c.toNat :: percentDecode (a :: b :: rest)
    else UInt8.ofNat c.toNat :: percentDecode (a :: b :: rest)
  | c :: rest => UInt8.ofNat c.toNat :: percentDecode rest

/-- Walk along decoded segments, treating empty and "." segments as nothing and ".." as "up". -/
def serverWalk : List Bytes → List Bytes → List Bytes
  | dir, [] => dir
  | dir, c :: cs =>
    if c = [] ∨ c = [46] then serverWalk dir cs
    else if c = [46, 46] then serverWalk dir.dropLast cs
    else serverWalk (dir ++ [c]) cs

/-- The file a server that decodes and normalises paths looks up. -/
def serverFile (path : Str) : List Bytes :=
  serverWalk [] ((path.splitOn '/').map percentDecode)

/-- The parts of a URI that came out of the URI parser. -/
def ValidBase (u : Uri) : Prop :=
  u.scheme.isSome = u.authority.isSome ∧
  ∀ p q, u.pathAndQuery = some (p, q) →
    (∀ c ∈ p, validPathChar c = true) ∧ ∀ s, q = some s → ∀ c ∈ s, validQueryChar c = true

/-- The path of a base URI as the code reads it. -/
def basePath (u : Uri) : Str :=
  match u.pathAndQuery with
  | some (p, _) => if p = [] then ['/'] else p
  | none => []

/-- The query of a URI. -/
def queryOf (u : Uri) : Option Str :=
  match u.pathAndQuery with
  | some (_, q) => q
  | none => none

/-- A component a server cannot misread: no '%', no slash, not special. -/
def UrlSafe (c : Str) : Prop := '%' ∉ c ∧ '/' ∉ c ∧ c ≠ ['.'] ∧ c ≠ ['.', '.']

end RustTuf.Spec
