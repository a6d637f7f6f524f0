import Verif.Core.Num
import Verif.Core.Round

/-!
Binary floating-point numbers and their conversions from and to text (Rust standard library,
trusted). Values are exact: a finite magnitude is a whole number of units, one unit being the smallest
positive number of the format (2^-149 for `f32`, 2^-1074 for `f64`).
-/

namespace HT

/-- A floating-point number. The sign and payload of a NaN are not modelled. -/
inductive Fl where
  | fin (neg : Bool) (m : Nat)
  | inf (neg : Bool)
  | nan
  deriving DecidableEq, Repr

/-- A format: significant bits, exponent of the unit (negated), and the first magnitude that overflows. -/
structure FlFormat where
  prec : Nat
  unit : Nat
  limit : Nat

/-- IEEE binary32. -/
def f32Format : FlFormat := ⟨24, 149, 2 ^ 277⟩
/-- IEEE binary64. -/
def f64Format : FlFormat := ⟨53, 1074, 2 ^ 2098⟩

namespace Fl

/-- The number nearest to `num / den`. -/
def round (F : FlFormat) (neg : Bool) (num den : Nat) : Fl :=
  let m := roundTo F.prec (num * 2 ^ F.unit) den
  if m < F.limit then .fin neg m else .inf neg

/-- A sign, and what follows it. -/
def sign : Str → Bool × Str
  | '-' :: s => (true, s)
  | '+' :: s => (false, s)
  | s => (false, s)

/-- The exponent part, `e5`, `E-3`, or nothing: its sign and value. -/
def parseExp : Str → Option (Bool × Nat)
  | [] => some (false, 0)
  | c :: s =>
    if c = 'e' ∨ c = 'E' then
      let (neg, ds) := sign s
      if ds = [] then none else (digitsVal 10 0 ds).map fun n => (neg, n)
    else none

/-- The digits after a decimal point, if there is one, and what follows. -/
def fracPart : Str → Str × Str
  | '.' :: r => (r.takeWhile isDigit, r.dropWhile isDigit)
  | r => ([], r)

/-- A decimal number without sign, `Digit* ['.' Digit*] [Exp]` with at least one digit, as a fraction.
(std clamps exponents of more than five digits; this matters only for numerals longer than 65536
characters.) -/
def parseDecimal (s : Str) : Option (Nat × Nat) :=
  let int := s.takeWhile isDigit
  let (frac, rest) := fracPart (s.dropWhile isDigit)
  if int = [] ∧ frac = [] then none
  else match digitsVal 10 0 (int ++ frac), parseExp rest with
    | some m, some (true, e) => some (m, 10 ^ frac.length * 10 ^ e)
    | some m, some (false, e) => some (m * 10 ^ e, 10 ^ frac.length)
    | _, _ => none

/-- `f32::from_str` / `f64::from_str`: correctly rounded. -/
def parse (F : FlFormat) (s : Str) : Option Fl :=
  let (neg, body) := sign s
  if eqIgnoreCase body s!!"inf" ∨ eqIgnoreCase body s!!"infinity" then some (.inf neg)
  else if eqIgnoreCase body s!!"nan" then some .nan
  else (parseDecimal body).map fun (a, b) => round F neg a b

/-- Position on the extended number line; `none` for NaN. -/
def rank : Fl → Option (Int × Int)
  | .inf true => some (-1, 0)
  | .fin true m => some (0, -(m : Int))
  | .fin false m => some (0, m)
  | .inf false => some (1, 0)
  | .nan => none

/-- `f32::partial_cmp` / `f64::partial_cmp`. -/
def partialCmp (a b : Fl) : Option Ordering :=
  match a.rank, b.rank with
  | some x, some y => some ((compare x.1 y.1).then (compare x.2 y.2))
  | _, _ => none

/-- `a <= b`. -/
def le (a b : Fl) : Bool :=
  match partialCmp a b with
  | some .lt => true
  | some .eq => true
  | _ => false

/-- `is_sign_positive` (the sign of a NaN is not modelled). -/
def isSignPositive : Fl → Bool
  | .fin neg _ => !neg
  | .inf neg => !neg
  | .nan => true

/-- `1.0`. -/
def one (F : FlFormat) : Fl := .fin false (2 ^ F.unit)

/-- `{:.3}`: thousandths, exact halves going to the even one. -/
def fmt3 (F : FlFormat) : Fl → Str
  | .fin neg m =>
    let k := roundDiv (m * 1000) (2 ^ F.unit)
    (if neg then s!!"-" else []) ++ dec (k / 1000) ++ s!!"." ++ zpad 3 (dec (k % 1000))
  | .inf neg => (if neg then s!!"-" else []) ++ s!!"inf"
  | .nan => s!!"NaN"

/-- Products, sums and quotients of non-negative finite numbers, as magnitudes. (Overflow is not
modelled; the numbers used here stay far below it.) -/
def mulMag (F : FlFormat) (a b : Nat) : Nat := roundTo F.prec (a * b) (2 ^ F.unit)
def addMag (F : FlFormat) (a b : Nat) : Nat := roundTo F.prec (a + b) 1
def divMag (F : FlFormat) (a b : Nat) : Nat := roundTo F.prec (a * 2 ^ F.unit) b
/-- An integer as a floating-point number. -/
def natMag (F : FlFormat) (n : Nat) : Nat := roundTo F.prec (n * 2 ^ F.unit) 1

/-- The multiples of `10^a / 10^b` next to the number of magnitude `m` that are rounded to it: the nearer one
(the upper one if they are equally near), if any. -/
def nearMultiple (F : FlFormat) (m a b : Nat) : Option Nat :=
  let num := m * 10 ^ b
  let den := 2 ^ F.unit * 10 ^ a
  let q := num / den
  let ok (c : Nat) : Bool := round F false (c * 10 ^ a) (10 ^ b) == .fin false m
  if ok q then
    if ok (q + 1) && den ≤ 2 * (num - q * den) then some (q + 1) else some q
  else if ok (q + 1) then some (q + 1) else none

/-- `c * 10^a / 10^b` in decimal, `a` or `b` being 0. -/
def decimalText (c a b : Nat) : Str :=
  if b = 0 then dec (c * 10 ^ a)
  else dec (c / 10 ^ b) ++ s!!"." ++ zpad b (dec (c % 10 ^ b))

/-- Fractions with `b`, `b + 1`, … decimals, `fuel` attempts. -/
def displayFrac (F : FlFormat) (m : Nat) : (fuel b : Nat) → Str
  | 0, b => decimalText (m * 10 ^ b / 2 ^ F.unit) 0 b
  | fuel + 1, b =>
    match nearMultiple F m 0 b with
    | some c => decimalText c 0 b
    | none => displayFrac F m fuel (b + 1)

/-- Multiples of `10^a`, `10^(a-1)`, …, then fractions. -/
def displayInt (F : FlFormat) (m : Nat) : Nat → Str
  | 0 => displayFrac F m (F.unit + 1) 0
  | a + 1 =>
    match nearMultiple F m (a + 1) 0 with
    | some c => decimalText c (a + 1) 0
    | none => displayInt F m a

/-- `{}`: the shortest decimal that is read back as the same number, without exponent. -/
def display (F : FlFormat) : Fl → Str
  | .fin neg m => (if neg then s!!"-" else []) ++ displayInt F m (dec (m / 2 ^ F.unit)).length
  | .inf neg => (if neg then s!!"-" else []) ++ s!!"inf"
  | .nan => s!!"NaN"

end Fl
end HT
