import Verif.Spec.Date
import Verif.Model.Simple

/-!
HTTP dates as RFC 7231 section 7.1.1.1 defines them: any year of four digits, leap seconds, and two-digit years relative
to the time of reading.
-/

namespace HT.Spec

/-- The fields are a date and time the standard can write: an existing day of the years 0 to 9999, and second 60 for
leap seconds. -/
def Fields.Standard (f : Fields) : Prop :=
  f.year ≤ 9999 ∧ 1 ≤ f.month ∧ f.month ≤ 12 ∧ 1 ≤ f.day ∧ f.day ≤ monthLen f.year f.month ∧
    f.hour < 24 ∧ f.minute < 60 ∧ f.second ≤ 60

/-- Days from January 1st of year 0 to January 1st of year `y`. -/
def daysBefore : Nat → Nat
  | 0 => 0
  | y + 1 => daysBefore y + daysToMonth y 12

/-- The instant in seconds from 1970-01-01, negative before; a leap second is counted as the second after it. -/
def Fields.moment (f : Fields) : Int :=
  ((((daysBefore f.year + daysToMonth f.year (f.month - 1) + (f.day - 1) : Nat) - daysBefore 1970 : Int) * 24 + f.hour) * 60
    + f.minute) * 60 + f.second

/-- The three layouts. -/
inductive DateLayout where
  | imf | rfc850 | asctime
  deriving DecidableEq

/-- The date as written in a layout, with the day of the week `w`. -/
def Fields.written (f : Fields) (w : Nat) : DateLayout → Str
  | .imf => shortDay w ++ s!!", " ++ d2 f.day ++ s!!" " ++ monthStr f.month ++ s!!" " ++ d4 f.year
      ++ s!!" " ++ f.clock ++ s!!" GMT"
  | .rfc850 => longDay w ++ s!!", " ++ d2 f.day ++ s!!"-" ++ monthStr f.month ++ s!!"-"
      ++ d2 (f.year % 100) ++ s!!" " ++ f.clock ++ s!!" GMT"
  | .asctime => shortDay w ++ s!!" " ++ monthStr f.month ++ s!!" "
      ++ (if f.day < 10 then [' ', Char.ofNat (48 + f.day)] else d2 f.day) ++ s!!" " ++ f.clock ++ s!!" "
      ++ d4 f.year

/-- A number that orders dates as the calendar does. -/
def Fields.key (f : Fields) : Nat :=
  ((((f.year * 13 + f.month) * 32 + f.day) * 24 + f.hour) * 60 + f.minute) * 61 + f.second

/-- The same date `n` years later. -/
def Fields.later (f : Fields) (n : Nat) : Fields := { f with year := f.year + n }

/-- At the time `now`, the date is the meaning of what is written for it: in the layout with two digits for the year
it is not more than 50 years in the future, and a hundred years later it would be. -/
def Fields.MeantAt (f now : Fields) : DateLayout → Prop
  | .rfc850 => f.key ≤ (now.later 50).key ∧ (now.later 50).key < (f.later 100).key
  | _ => True

end HT.Spec
