import Verif.Spec.Num

/-! An independent Gregorian calendar (counting days year by year and month by month) and the three
HTTP date grammars. -/

namespace HT.Spec

/-- Gregorian leap years. -/
def Leap (y : Nat) : Prop := 4 ∣ y ∧ (¬ 100 ∣ y ∨ 400 ∣ y)

instance (y : Nat) : Decidable (Leap y) := inferInstanceAs (Decidable (_ ∧ _))

/-- Length of a month. -/
def monthLen (y : Nat) : Nat → Nat
  | 1 => 31
  | 2 => if Leap y then 29 else 28
  | 3 => 31
  | 4 => 30
  | 5 => 31
  | 6 => 30
  | 7 => 31
  | 8 => 31
  | 9 => 30
  | 10 => 31
  | 11 => 30
  | 12 => 31
  | _ => 0

/-- Days from January 1st of `y` to the first of month `m + 1`. -/
def daysToMonth (y : Nat) : Nat → Nat
  | 0 => 0
  | m + 1 => daysToMonth y m + monthLen y (m + 1)

/-- Days from 1970-01-01 to January 1st of year 1970 + k. -/
def daysToYear : Nat → Nat
  | 0 => 0
  | k + 1 => daysToYear k + daysToMonth (1970 + k) 12

/-- Date-time fields. -/
structure Fields where
  year : Nat
  month : Nat
  day : Nat
  hour : Nat
  minute : Nat
  second : Nat
  deriving DecidableEq

/-- Number of days from 1970-01-01 to the given day. -/
def Fields.dayNumber (f : Fields) : Nat :=
  daysToYear (f.year - 1970) + daysToMonth f.year (f.month - 1) + (f.day - 1)

/-- Seconds from the epoch to the given instant (UTC, no leap seconds). -/
def Fields.instant (f : Fields) : Nat :=
  ((f.dayNumber * 24 + f.hour) * 60 + f.minute) * 60 + f.second

/-- The fields are a real date and time between 1970 and 9999. -/
def Fields.Real (f : Fields) : Prop :=
  1970 ≤ f.year ∧ f.year ≤ 9999 ∧ 1 ≤ f.month ∧ f.month ≤ 12 ∧ 1 ≤ f.day ∧
  f.day ≤ monthLen f.year f.month ∧ f.hour < 24 ∧ f.minute < 60 ∧ f.second < 60

instance (f : Fields) : Decidable f.Real := by unfold Fields.Real; infer_instance

/-- The weaker range check: any day up to 31 in any month. -/
def Fields.Loose (f : Fields) : Prop :=
  1970 ≤ f.year ∧ f.year ≤ 9999 ∧ 1 ≤ f.month ∧ f.month ≤ 12 ∧ 1 ≤ f.day ∧
  f.day ≤ 31 ∧ f.hour < 24 ∧ f.minute < 60 ∧ f.second < 60

/-- Weekday number (0 = Monday) of day number `n`: 1970-01-01 was a Thursday. -/
def weekday (n : Nat) : Nat := (n + 3) % 7

def shortDays : List Str := [s!!"Mon", s!!"Tue", s!!"Wed", s!!"Thu", s!!"Fri", s!!"Sat", s!!"Sun"]

def longDays : List Str := [s!!"Monday", s!!"Tuesday", s!!"Wednesday", s!!"Thursday", s!!"Friday",
  s!!"Saturday", s!!"Sunday"]

def months : List Str := [s!!"Jan", s!!"Feb", s!!"Mar", s!!"Apr", s!!"May", s!!"Jun", s!!"Jul",
  s!!"Aug", s!!"Sep", s!!"Oct", s!!"Nov", s!!"Dec"]

/-- Decimal with two digits. -/
def d2 (n : Nat) : Str := [Char.ofNat (48 + n / 10), Char.ofNat (48 + n % 10)]

/-- Decimal with four digits. -/
def d4 (n : Nat) : Str := d2 (n / 100) ++ d2 (n % 100)

/-- `08:49:37`. -/
def Fields.clock (f : Fields) : Str := d2 f.hour ++ s!!":" ++ d2 f.minute ++ s!!":" ++ d2 f.second

/-- Name of day `w` (0 = Monday). -/
def shortDay (w : Nat) : Str := shortDays.getD w []
def longDay (w : Nat) : Str := longDays.getD w []
/-- Name of month `m` (1 = January). -/
def monthStr (m : Nat) : Str := months.getD (m - 1) []

/-- `Sun, 06 Nov 1994 08:49:37 GMT`. -/
def Fields.imf (f : Fields) : Str :=
  shortDay (weekday f.dayNumber) ++ s!!", " ++ d2 f.day ++ s!!" " ++ monthStr f.month ++ s!!" " ++ d4 f.year
    ++ s!!" " ++ f.clock ++ s!!" GMT"

/-- `Sunday, 06-Nov-94 08:49:37 GMT`. -/
def Fields.rfc850 (f : Fields) : Str :=
  longDay (weekday f.dayNumber) ++ s!!", " ++ d2 f.day ++ s!!"-" ++ monthStr f.month ++ s!!"-"
    ++ d2 (f.year % 100) ++ s!!" " ++ f.clock ++ s!!" GMT"

/-- `Sun Nov  6 08:49:37 1994`. -/
def Fields.asctime (f : Fields) : Str :=
  shortDay (weekday f.dayNumber) ++ s!!" " ++ monthStr f.month ++ s!!" "
    ++ (if f.day < 10 then [' ', Char.ofNat (48 + f.day)] else d2 f.day) ++ s!!" " ++ f.clock ++ s!!" "
    ++ d4 f.year

/-! ### What the reader accepts: the same layouts, with numbers possibly written `+d` and any
weekday name. -/

/-- A number written in exactly `k` characters: digits, the first of which may be a `+`. -/
def NumText (k : Nat) (s : Str) (n : Nat) : Prop :=
  s.length = k ∧ Numeral s n

/-- `hh:mm:ss` with the fields of `f`. -/
def ClockText (s : Str) (f : Fields) : Prop :=
  ∃ h m x, s = h ++ s!!":" ++ m ++ s!!":" ++ x ∧ NumText 2 h f.hour ∧ NumText 2 m f.minute ∧
    NumText 2 x f.second

def ImfText (s : Str) (f : Fields) : Prop :=
  ∃ w d y t, w ∈ shortDays ∧ NumText 2 d f.day ∧ NumText 4 y f.year ∧ ClockText t f ∧
    1 ≤ f.month ∧ f.month ≤ 12 ∧
    s = w ++ s!!", " ++ d ++ s!!" " ++ monthStr f.month ++ s!!" " ++ y ++ s!!" " ++ t ++ s!!" GMT"

/-- The reader does not look at the character between year and clock (`sep`). -/
def Rfc850Text (s : Str) (f : Fields) : Prop :=
  ∃ w d y t yy sep, w ∈ longDays ∧ NumText 2 d f.day ∧ NumText 2 y yy ∧ ClockText t f ∧
    1 ≤ f.month ∧ f.month ≤ 12 ∧ f.year = (if yy < 70 then 2000 + yy else 1900 + yy) ∧
    s = w ++ s!!", " ++ d ++ s!!"-" ++ monthStr f.month ++ s!!"-" ++ y ++ [sep] ++ t ++ s!!" GMT"

def AsctimeText (s : Str) (f : Fields) : Prop :=
  ∃ w d y t, w ∈ shortDays ∧ (NumText 2 d f.day ∨ ∃ d', d = ' ' :: d' ∧ NumText 1 d' f.day) ∧
    NumText 4 y f.year ∧ ClockText t f ∧ 1 ≤ f.month ∧ f.month ≤ 12 ∧
    s = w ++ s!!" " ++ monthStr f.month ++ s!!" " ++ d ++ s!!" " ++ t ++ s!!" " ++ y

/-- One of the three layouts. -/
def DateText (s : Str) (f : Fields) : Prop := ImfText s f ∨ Rfc850Text s f ∨ AsctimeText s f

end HT.Spec
