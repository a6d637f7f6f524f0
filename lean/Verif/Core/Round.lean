/-!
Rounding used by binary floating point (IEEE 754, round to nearest, ties to even). Trusted base:
these definitions stand for the hardware and for Rust's conversions; `Lemmas/Round.lean` proves
that they pick the nearest representable number.
-/

namespace HT

/-- `a / b` rounded to the nearest integer, ties to the even one (`b > 0`). -/
def roundDiv (a b : Nat) : Nat :=
  let q := a / b
  let r := a % b
  if 2 * r < b then q
  else if 2 * r > b then q + 1
  else if q % 2 = 0 then q else q + 1

/-- `a / b` rounded to `p` significant bits, but never finer than one unit (subnormals). -/
def roundTo (p a b : Nat) : Nat :=
  let e := (a / b).log2 + 1 - p
  roundDiv a (b * 2 ^ e) * 2 ^ e

/-- `n as f64` for an unsigned integer of at most 128 bits; the result is an integer, so it is given
as one. -/
def natToF64 (n : Nat) : Nat := roundTo 53 n 1

end HT
