import Verif.Core.Float
import Verif.Spec.Num
import Verif.Spec.Round
import Verif.Spec.Headers

/-! What a decimal number in a text is, and which floating-point number it is read as. -/

namespace HT.Spec

/-- Only decimal digits. -/
def Digits (s : Str) : Prop := ∀ c ∈ s, '0' ≤ c ∧ c ≤ '9'

/-- An exponent, or nothing. The number is the one before it times `10^up / 10^down`. -/
inductive Exponent : Str → Nat → Nat → Prop
  | none : Exponent [] 0 0
  | plain (c : Char) (ds : Str) : (c = 'e' ∨ c = 'E') → ds ≠ [] → Digits ds → Exponent (c :: ds) (decValue ds) 0
  | plus (c : Char) (ds : Str) : (c = 'e' ∨ c = 'E') → ds ≠ [] → Digits ds → Exponent (c :: '+' :: ds) (decValue ds) 0
  | minus (c : Char) (ds : Str) : (c = 'e' ∨ c = 'E') → ds ≠ [] → Digits ds → Exponent (c :: '-' :: ds) 0 (decValue ds)

/-- `s` is a decimal number without sign, of value `a / b`: digits, perhaps a point and more digits, perhaps an
exponent; at least one digit before or after the point. -/
def Decimal (s : Str) (a b : Nat) : Prop :=
  ∃ int point frac ex up down, s = int ++ point ++ frac ++ ex ∧ Digits int ∧ Digits frac ∧ int ++ frac ≠ [] ∧
    (point = s!!"." ∨ point = [] ∧ frac = []) ∧ Exponent ex up down ∧
    a = decValue (int ++ frac) * 10 ^ up ∧ b = 10 ^ frac.length * 10 ^ down

/-- `m` units are the representable number nearest to `a / b` units. If another one is as near, `m` is an even
multiple of their distance. -/
def NearestUnits (p a b m : Nat) : Prop :=
  Representable p m ∧ ∀ y, Representable p y →
    gap a (b * m) ≤ gap a (b * y) ∧ (y ≠ m → gap a (b * m) = gap a (b * y) → ∃ k, m = 2 * k * gap m y)

/-- `x` is the number of the format nearest to `a / b`, infinity from the limit on. -/
def NearestFloat (F : FlFormat) (neg : Bool) (a b : Nat) (x : Fl) : Prop :=
  ∃ m, NearestUnits F.prec (a * 2 ^ F.unit) b m ∧
    (m < F.limit ∧ x = .fin neg m ∨ F.limit ≤ m ∧ x = .inf neg)

/-- `s` is `-`, `+` or nothing before `t`. -/
def Signed (s : Str) (neg : Bool) (t : Str) : Prop :=
  neg = true ∧ s = '-' :: t ∨ neg = false ∧ (s = '+' :: t ∨ s = t)

/-- The floating-point number a text stands for. -/
def NumberText (F : FlFormat) (s : Str) (x : Fl) : Prop :=
  ∃ neg t, Signed s neg t ∧
    ((∃ a b, Decimal t a b ∧ NearestFloat F neg a b x) ∨
     ((sameName t s!!"inf" = true ∨ sameName t s!!"infinity" = true) ∧ x = .inf neg) ∨ (sameName t s!!"nan" = true ∧ x = .nan))

end HT.Spec
