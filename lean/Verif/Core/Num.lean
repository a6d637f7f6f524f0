import Verif.Core.Str

/-!
Rust integer parsing and printing (standard library, trusted).
-/

namespace HT

/-- Digit of value `d` (`0-9a-f`), as printed by `{}` and `{:x}`. -/
def digitC (d : Nat) : Char :=
  if d < 10 then Char.ofNat (48 + d) else Char.ofNat (87 + d)

/-- `char::to_digit(radix)` for radix at most 16. -/
def toDigit (radix : Nat) (c : Char) : Option Nat :=
  let n := c.toNat
  let d := if 48 ≤ n ∧ n ≤ 57 then n - 48
    else if 97 ≤ n ∧ n ≤ 102 then n - 87
    else if 65 ≤ n ∧ n ≤ 70 then n - 55
    else radix
  if d < radix then some d else none

/-- Value of a string of digits, `none` when some character is not a digit. -/
def digitsVal (radix : Nat) (acc : Nat) : Str → Option Nat
  | [] => some acc
  | c :: cs => match toDigit radix c with
    | none => none
    | some d => digitsVal radix (acc * radix + d) cs

/-- Drop one leading `'+'`. A `'-'` is not dropped for unsigned types. -/
def dropPlus : Str → Str
  | '+' :: s => s
  | s => s

/-- `uN::from_str_radix(s, radix)` with `2^N = bound`: an optional `+`, then at least one digit,
and the value must fit. -/
def parseRadix (radix bound : Nat) (s : Str) : Option Nat :=
  match dropPlus s with
  | [] => none
  | c :: cs => match digitsVal radix 0 (c :: cs) with
    | none => none
    | some n => if n < bound then some n else none

/-- `uN::from_str`. -/
def parseUInt (bound : Nat) (s : Str) : Option Nat := parseRadix 10 bound s

def u8Max1 : Nat := 2 ^ 8
def u16Max1 : Nat := 2 ^ 16
def u64Max1 : Nat := 2 ^ 64
def u128Max1 : Nat := 2 ^ 128

/-- Digits of `n` in base `radix` (at least 2), most significant first, at least one digit. -/
def natStr (radix : Nat) (n : Nat) : Str :=
  if n < radix ∨ radix < 2 then [digitC n]
  else natStr radix (n / radix) ++ [digitC (n % radix)]
termination_by n
decreasing_by exact Nat.div_lt_self (by omega) (by omega)

/-- `{}` of an unsigned integer. -/
def dec (n : Nat) : Str := natStr 10 n

/-- Left-pad with zeros to `width` (`{:0width}`). -/
def zpad (width : Nat) (s : Str) : Str := List.replicate (width - s.length) '0' ++ s

/-- `{:0width$x}`. -/
def hexPad (width n : Nat) : Str := zpad width (natStr 16 n)

end HT
