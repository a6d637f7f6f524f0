import Verif.Core.Utf8
import Verif.Spec.Ipv6

/-! Forms as text (`application/x-www-form-urlencoded`, WHATWG URL, 5). -/

namespace HT.Spec

/-- The byte is a hexadecimal digit of this value. -/
def HexByte (b : Byte) (d : Nat) : Prop := HexDigitIs (Char.ofNat b.val) d

/-- The rest begins with two hexadecimal digits. -/
def TwoDigits (r : List Byte) : Prop := ∃ h l x y r', r = h :: l :: r' ∧ HexByte h x ∧ HexByte l y

/-- What written bytes stand for: a plus sign for a blank, a percent sign and two digits for any byte, all else for itself. -/
inductive FormBytes : List Byte → List Byte → Prop
  | nil : FormBytes [] []
  | blank {w bs} : FormBytes w bs → FormBytes (43 :: w) (32 :: bs)
  | escaped {h l x y w bs} : HexByte h x → HexByte l y → FormBytes w bs → FormBytes (37 :: h :: l :: w) (byte (x * 16 + y) :: bs)
  | plain {b w bs} : b ≠ 43 → (b = 37 → ¬ TwoDigits w) → FormBytes w bs → FormBytes (b :: w) (b :: bs)

/-- What a name or value as written stands for; bytes that are no UTF-8 are replaced. -/
def FieldMeans (lossy : List Byte → Str) (w s : Str) : Prop :=
  ∃ bs, FormBytes (utf8Encode w) bs ∧ (utf8Encode s = bs ∨ (∀ t, utf8Encode t ≠ bs) ∧ s = lossy bs)

/-- What a piece of a form stands for: the first equals sign ends the name. -/
def PairMeans (lossy : List Byte → Str) (w : Str) (p : Str × Str) : Prop :=
  (∃ n v, w = n ++ '=' :: v ∧ '=' ∉ n ∧ FieldMeans lossy n p.1 ∧ FieldMeans lossy v p.2) ∨
  ('=' ∉ w ∧ FieldMeans lossy w p.1 ∧ p.2 = [])

/-- What a form stands for: pieces between ampersands, those that are empty left out. -/
def FormMeans (lossy : List Byte → Str) (t : Str) (ps : List (Str × Str)) : Prop :=
  ∃ ws, ws ≠ [] ∧ t = join s!!"&" ws ∧ (∀ w ∈ ws, '&' ∉ w) ∧ List.Forall₂ (PairMeans lossy) (ws.filter (· ≠ [])) ps

/-- Characters that stand for themselves. -/
def Unreserved (c : Char) : Prop :=
  ('0' ≤ c ∧ c ≤ '9') ∨ ('a' ≤ c ∧ c ≤ 'z') ∨ ('A' ≤ c ∧ c ≤ 'Z') ∨ c = '*' ∨ c = '-' ∨ c = '.' ∨ c = '_'

end HT.Spec
