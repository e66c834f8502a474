import Verif.Model.Cjson
import Verif.Spec.Json

/-!
# The grammar of RFC 8259, with what the texts stand for
Sections 2 to 7 of the RFC, rule by rule. Numbers that are not integers in the range of `u64` or `i64`
are what the parameter `L` says, as in the model.
-/

namespace RustTuf.Spec

/-- `ws`. -/
def Blank (s : Str) : Prop := ∀ c ∈ s, c = ' ' ∨ c = '\t' ∨ c = '\n' ∨ c = '\r'

/-- `HEXDIG` in either case, and its value. -/
def HexOf (c : Char) (n : Nat) : Prop :=
  "0123456789abcdef".toList[n]? = some c ∨ "0123456789ABCDEF".toList[n]? = some c

/-- `4HEXDIG` and its value. -/
def FourDigits (x : Str) (n : Nat) : Prop :=
  ∃ a b c d i j k l, x = [a, b, c, d] ∧ HexOf a i ∧ HexOf b j ∧ HexOf c k ∧ HexOf d l ∧
    n = 4096 * i + 256 * j + 16 * k + l

/-- The letters of the short escapes, with the characters they stand for. -/
def shortEscapes : List (Char × Nat) :=
  [('"', 0x22), ('\\', 0x5C), ('/', 0x2F), ('b', 0x08), ('f', 0x0C), ('n', 0x0A), ('r', 0x0D), ('t', 0x09)]

/-- `char`, and the character it stands for. -/
inductive CharText : Str → Char → Prop
  | plain (c : Char) : 0x20 ≤ c.toNat → c ≠ '"' → c ≠ '\\' → CharText [c] c
  | short (e : Char) (n : Nat) : (e, n) ∈ shortEscapes → CharText ['\\', e] (Char.ofNat n)
  | unicode (x : Str) (n : Nat) : FourDigits x n → n < 0xD800 ∨ 0xDFFF < n →
      CharText ('\\' :: 'u' :: x) (Char.ofNat n)
  | pair (x y : Str) (hi lo : Nat) : FourDigits x hi → FourDigits y lo →
      0xD800 ≤ hi → hi ≤ 0xDBFF → 0xDC00 ≤ lo → lo ≤ 0xDFFF →
      CharText ('\\' :: 'u' :: x ++ '\\' :: 'u' :: y)
        (Char.ofNat (0x10000 + 0x400 * (hi - 0xD800) + (lo - 0xDC00)))

/-- `*char`. -/
inductive CharsText : Str → Str → Prop
  | nil : CharsText [] []
  | cons {x t s : Str} {c : Char} : CharText x c → CharsText t s → CharsText (x ++ t) (c :: s)

/-- `string`. -/
def StringText (t s : Str) : Prop := ∃ x, CharsText x s ∧ t = '"' :: x ++ ['"']

/-- `1*DIGIT`. -/
def DigitsText (s : Str) : Prop := s ≠ [] ∧ ∀ c ∈ s, c ∈ "0123456789".toList

/-- What digits stand for. -/
def decimalValue (s : Str) : Nat := s.foldl (fun n c => 10 * n + (c.toNat - '0'.toNat)) 0

/-- `int`. -/
def WholeText (s : Str) : Prop := s = ['0'] ∨ DigitsText s ∧ s.head? ≠ some '0'

/-- `[ frac ]`. -/
def FractionText (s : Str) : Prop := s = [] ∨ ∃ ds, DigitsText ds ∧ s = '.' :: ds

/-- `[ exp ]`. -/
def ExponentText (s : Str) : Prop :=
  s = [] ∨ ∃ e sign ds, (e = 'e' ∨ e = 'E') ∧ (sign = [] ∨ sign = ['+'] ∨ sign = ['-']) ∧ DigitsText ds ∧
    s = e :: sign ++ ds

/-- `number`. Integers are kept if they are in the range of `u64`, or are negative and in the range of
`i64`. -/
inductive NumberText (L : FloatLib) : Str → Json → Prop
  | natural (ds : Str) : WholeText ds → decimalValue ds ≤ 18446744073709551615 →
      NumberText L ds (.int (decimalValue ds))
  | negative (ds : Str) : WholeText ds → 0 < decimalValue ds → decimalValue ds ≤ 9223372036854775808 →
      NumberText L ('-' :: ds) (.int (-(decimalValue ds : Int)))
  | float (sign ds f e : Str) (b : Nat) : sign = [] ∨ sign = ['-'] → WholeText ds → FractionText f →
      ExponentText e →
      (f = [] → e = [] → sign = [] → 18446744073709551615 < decimalValue ds) →
      (f = [] → e = [] → sign = ['-'] → decimalValue ds = 0 ∨ 9223372036854775808 < decimalValue ds) →
      L.bits (sign ++ ds ++ (f ++ e)) = some b → NumberText L (sign ++ ds ++ (f ++ e)) (.float b)

mutual
/-- `value`. Members of objects are kept in their order. -/
inductive ValueText (L : FloatLib) : Str → Json → Prop
  | null : ValueText L "null".toList .null
  | true : ValueText L "true".toList (.bool true)
  | false : ValueText L "false".toList (.bool false)
  | number {t : Str} {v : Json} : NumberText L t v → ValueText L t v
  | string {t s : Str} : StringText t s → ValueText L t (.str s)
  | emptyArray {a : Str} : Blank a → ValueText L ('[' :: a ++ [']']) (.arr [])
  | array {t : Str} {l : List Json} : ElementsText L t l → ValueText L ('[' :: t ++ [']']) (.arr l)
  | emptyObject {a : Str} : Blank a → ValueText L ('{' :: a ++ ['}']) (.obj [])
  | object {t : Str} {m : List (Str × Json)} : MembersText L t m → ValueText L ('{' :: t ++ ['}']) (.obj m)
/-- `value *( value-separator value )`. -/
inductive ElementsText (L : FloatLib) : Str → List Json → Prop
  | one {a t b : Str} {v : Json} : Blank a → ValueText L t v → Blank b →
      ElementsText L (a ++ (t ++ b)) [v]
  | more {a t b r : Str} {v : Json} {l : List Json} : Blank a → ValueText L t v → Blank b →
      ElementsText L r l → ElementsText L (a ++ (t ++ (b ++ ',' :: r))) (v :: l)
/-- `member *( value-separator member )`. -/
inductive MembersText (L : FloatLib) : Str → List (Str × Json) → Prop
  | one {a k b c t d s : Str} {v : Json} : Blank a → StringText k s → Blank b → Blank c →
      ValueText L t v → Blank d →
      MembersText L (a ++ (k ++ (b ++ ':' :: (c ++ (t ++ d))))) [(s, v)]
  | more {a k b c t d r s : Str} {v : Json} {m : List (Str × Json)} : Blank a → StringText k s →
      Blank b → Blank c → ValueText L t v → Blank d → MembersText L r m →
      MembersText L (a ++ (k ++ (b ++ ':' :: (c ++ (t ++ (d ++ ',' :: r)))))) ((s, v) :: m)
end

/-- `JSON-text`. -/
def JsonText (L : FloatLib) (s : Str) (v : Json) : Prop :=
  ∃ a t b, Blank a ∧ ValueText L t v ∧ Blank b ∧ s = a ++ (t ++ b)

end RustTuf.Spec
