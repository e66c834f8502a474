import Verif.Spec.Http

/-! Percent escapes in the components of a path, as bytes. -/

namespace RustTuf.Spec

/-- Replace every percent sign that starts an escape, together with the two bytes after it. -/
def unescapeWith (esc : UInt8 → UInt8 → Option UInt8) : Bytes → Bytes
  | [] => []
  | x :: a :: b :: rest =>
    if x = 37 then
      match esc a b with
      | some c => c :: unescapeWith esc rest
      | none => x :: unescapeWith esc (a :: b :: rest)
    else x :: unescapeWith esc (a :: b :: rest)
  | x :: rest => x :: unescapeWith esc rest

/-- The byte that two hexadecimal digits of either case stand for. -/
def anyEscape (a b : UInt8) : Option UInt8 :=
  match hexVal (Char.ofNat a.toNat), hexVal (Char.ofNat b.toNat) with
  | some x, some y => some (UInt8.ofNat (16 * x + y))
  | _, _ => none

/-- Bytes that cannot stand in a URL as they are: controls, blanks, what is not ASCII, and some signs. -/
def NotInUrl (b : UInt8) : Prop :=
  b.toNat ≤ 32 ∨ 127 ≤ b.toNat ∨ b ∈ utf8 "\"<>`#?{}".toList

instance (b : UInt8) : Decidable (NotInUrl b) := by unfold NotInUrl; infer_instance

/-- Value of a hexadecimal digit in upper case. -/
def hexUpperVal (c : UInt8) : Option Nat :=
  if 48 ≤ c.toNat ∧ c.toNat ≤ 57 then some (c.toNat - 48)
  else if 65 ≤ c.toNat ∧ c.toNat ≤ 70 then some (c.toNat - 55)
  else none

/-- Only escapes in upper case of bytes that cannot stand in a URL. -/
def neededEscape (a b : UInt8) : Option UInt8 :=
  match hexUpperVal a, hexUpperVal b with
  | some x, some y => if NotInUrl (UInt8.ofNat (16 * x + y)) then some (UInt8.ofNat (16 * x + y)) else none
  | _, _ => none

/-- The name that a component has for a server: all escapes are decoded. -/
def serverName (c : Str) : Bytes := unescapeWith anyEscape (utf8 c)

/-- A component with needed escapes decoded. -/
def partlyDecoded (c : Str) : Bytes := unescapeWith neededEscape (utf8 c)

end RustTuf.Spec
