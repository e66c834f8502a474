import Verif.Spec.Calendar

/-!
# Texts that are read as dates
-/

namespace RustTuf.Spec
open Formats

/-- White space of Unicode. -/
def Space (c : Char) : Prop :=
  c.toNat ∈ [9, 10, 11, 12, 13, 32, 0x85, 0xA0, 0x1680, 0x2000, 0x2001, 0x2002, 0x2003, 0x2004, 0x2005,
    0x2006, 0x2007, 0x2008, 0x2009, 0x200A, 0x2028, 0x2029, 0x202F, 0x205F, 0x3000]

instance (c : Char) : Decidable (Space c) := inferInstanceAs (Decidable (_ ∈ _))

/-- A number in decimal, leading zeros allowed. -/
def Digits (s : Str) (n : Nat) : Prop :=
  ∃ vs : List Nat, vs ≠ [] ∧ (∀ v ∈ vs, v < 10) ∧ s = vs.map Nat.digitChar ∧
    n = vs.foldl (fun n v => 10 * n + v) 0

/-- A number of one or two digits, perhaps with white space before it. -/
def FieldText (s : Str) (n : Nat) : Prop :=
  ∃ ws ds, s = ws ++ ds ∧ (∀ c ∈ ws, Space c) ∧ Digits ds n ∧ ds.length ≤ 2

/-- A year: up to four digits, or a sign and any number of digits, perhaps with white space before it. -/
def YearText (s : Str) (y : Int) : Prop :=
  ∃ ws sign ds n, s = ws ++ sign ++ ds ∧ (∀ c ∈ ws, Space c) ∧ Digits ds n ∧
    (sign = [] ∧ ds.length ≤ 4 ∧ y = n ∨ sign = ['+'] ∧ y = n ∨ sign = ['-'] ∧ y = -n)

/-- The text of a date and a time of day, not more and not less. -/
def IsDateText (s : Str) (d : Date) (hour minute sec : Nat) : Prop :=
  ∃ a b c e f g, s = a ++ '-' :: (b ++ '-' :: (c ++ 'T' :: (e ++ ':' :: (f ++ ':' :: (g ++ ['Z']))))) ∧
    YearText a d.year ∧ FieldText b d.month ∧ FieldText c d.day ∧ FieldText e hour ∧
    FieldText f minute ∧ FieldText g sec

/-- A day that exists, of a year that chrono knows. -/
def DayExists (d : Date) : Prop :=
  1 ≤ d.month ∧ d.month ≤ 12 ∧ 1 ≤ d.day ∧ d.day ≤ monthLength d.year d.month ∧
    -262144 ≤ d.year ∧ d.year ≤ 262143

/-- The start of a second of a day. -/
def SecondOf (t : Time) (d : Date) (hour minute sec : Nat) : Prop :=
  dateOf t = d ∧ second ∣ t ∧ t / second % 86400 = hour * 3600 + minute * 60 + sec

end RustTuf.Spec
