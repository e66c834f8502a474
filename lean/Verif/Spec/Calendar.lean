import Verif.Model.Formats

/-!
# The Gregorian calendar, for judging dates
-/

namespace RustTuf.Spec
open Formats

/-- Every fourth year is a leap year, of the full centuries only every fourth. -/
def LeapYear (y : Int) : Prop := 4 ∣ y ∧ (100 ∣ y → 400 ∣ y)

instance (y : Int) : Decidable (LeapYear y) := inferInstanceAs (Decidable (_ ∧ (_ → _)))

/-- The length of a month. -/
def monthLength (y : Int) : Nat → Nat
  | 2 => if LeapYear y then 29 else 28
  | 4 | 6 | 9 | 11 => 30
  | _ => 31

/-- The day after. -/
def nextDay (d : Date) : Date :=
  if d.day < monthLength d.year d.month then ⟨d.year, d.month, d.day + 1⟩
  else if d.month < 12 then ⟨d.year, d.month + 1, 1⟩
  else ⟨d.year + 1, 1, 1⟩

/-- The date of a point in time. -/
def dateOf (t : Time) : Date := dateOfDay (t / second / 86400)

/-- Two digits. -/
def two (n : Nat) : Str := [Nat.digitChar (n / 10), Nat.digitChar (n % 10)]

/-- The text of a date and a time of day in UTC, as in RFC 3339. -/
def dateText (d : Date) (hour minute sec : Nat) : Str :=
  two (d.year.toNat / 100) ++ two (d.year.toNat % 100) ++ ['-'] ++ two d.month ++ ['-'] ++ two d.day ++
    ['T'] ++ two hour ++ [':'] ++ two minute ++ [':'] ++ two sec ++ ['Z']

end RustTuf.Spec
