import Verif.Spec.Json

/-! The grammar of RFC 8259 with what each text means, apart from any reader. Numbers are integers; the negative zero is none. -/

namespace HT.Spec

/-- White space: section 2. -/
def JsonBlank (t : Str) : Prop := ∀ c ∈ t, c = ' ' ∨ c = '\t' ∨ c = '\n' ∨ c = '\r'

/-- Four hexadecimal digits for a number. -/
def FourHex (u : Str) (n : Nat) : Prop :=
  ∃ a b c d w x y z, u = [a, b, c, d] ∧ hexValue a = some w ∧ hexValue b = some x ∧ hexValue c = some y ∧ hexValue d = some z ∧
    n = w * 4096 + x * 256 + y * 16 + z

/-- How a character may be written in a string: section 7. As it is, unless it is a quote, a backslash or a control character;
with one of the short escapes; by its number; and outside the basic plane by the two halves of its number. -/
inductive Spells : Char → Str → Prop
  | plain (c : Char) : c ≠ '"' → c ≠ '\\' → 32 ≤ c.toNat → Spells c [c]
  | quote : Spells '"' s!!"\\\""
  | backslash : Spells '\\' s!!"\\\\"
  | slash : Spells '/' s!!"\\/"
  | b : Spells (Char.ofNat 8) s!!"\\b"
  | f : Spells (Char.ofNat 12) s!!"\\f"
  | n : Spells (Char.ofNat 10) s!!"\\n"
  | r : Spells (Char.ofNat 13) s!!"\\r"
  | t : Spells (Char.ofNat 9) s!!"\\t"
  | number (c : Char) (u : Str) : FourHex u c.toNat → Spells c (s!!"\\u" ++ u)
  | halves (c : Char) (u v : Str) (m n : Nat) : FourHex u (0xD800 + m) → FourHex v (0xDC00 + n) → m < 0x400 → n < 0x400 →
      c.toNat = 0x10000 + m * 0x400 + n → Spells c (s!!"\\u" ++ u ++ s!!"\\u" ++ v)

/-- A string between its quotes. -/
inductive Spelled : Str → Str → Prop
  | nil : Spelled [] []
  | cons {c : Char} {s u v : Str} : Spells c u → Spelled s v → Spelled (c :: s) (u ++ v)

/-- The digits of an integer: section 6. -/
def JsonDigits (u : Str) (n : Nat) : Prop :=
  u ≠ [] ∧ (∀ c ∈ u, '0' ≤ c ∧ c ≤ '9') ∧ (u.head? = some '0' → u = ['0']) ∧ n = decValue u

/-- What a text can stand for: a value, the elements of an array or the members of an object. -/
inductive JsonPart where
  | value (j : Json)
  | elems (l : List Json)
  | members (l : List (Str × Json))

/-- The grammar: sections 3 to 7. -/
inductive Means : Str → JsonPart → Prop
  | null : Means s!!"null" (.value .null)
  | true : Means s!!"true" (.value (.bool true))
  | false : Means s!!"false" (.value (.bool false))
  | nat {u : Str} {n : Nat} : JsonDigits u n → Means u (.value (.int n))
  | neg {u : Str} {n : Nat} : JsonDigits u n → n ≠ 0 → Means ('-' :: u) (.value (.int (-n)))
  | str {u s : Str} : Spelled s u → Means ('"' :: (u ++ ['"'])) (.value (.str s))
  | arr0 {a : Str} : JsonBlank a → Means ('[' :: (a ++ [']'])) (.value (.arr []))
  | arr {u : Str} {l : List Json} : Means u (.elems l) → Means ('[' :: (u ++ [']'])) (.value (.arr l))
  | obj0 {a : Str} : JsonBlank a → Means ('{' :: (a ++ ['}'])) (.value (.obj []))
  | obj {u : Str} {l : List (Str × Json)} : Means u (.members l) → Means ('{' :: (u ++ ['}'])) (.value (.obj l))
  | elem {a u b : Str} {j : Json} : JsonBlank a → Means u (.value j) → JsonBlank b → Means (a ++ u ++ b) (.elems [j])
  | elems {a u b v : Str} {j : Json} {l : List Json} : JsonBlank a → Means u (.value j) → JsonBlank b → Means v (.elems l) →
      Means (a ++ u ++ b ++ ',' :: v) (.elems (j :: l))
  | member {a k b c u d s : Str} {j : Json} : JsonBlank a → Spelled s k → JsonBlank b → JsonBlank c → Means u (.value j) → JsonBlank d →
      Means (a ++ '"' :: (k ++ '"' :: (b ++ ':' :: (c ++ u ++ d)))) (.members [(s, j)])
  | members {a k b c u d v s : Str} {j : Json} {l : List (Str × Json)} : JsonBlank a → Spelled s k → JsonBlank b → JsonBlank c →
      Means u (.value j) → JsonBlank d → Means v (.members l) →
      Means (a ++ '"' :: (k ++ '"' :: (b ++ ':' :: (c ++ u ++ d ++ ',' :: v)))) (.members ((s, j) :: l))

/-- A JSON text for a value: section 2. -/
def IsJsonText (t : Str) (j : Json) : Prop := ∃ a u b, t = a ++ u ++ b ∧ JsonBlank a ∧ Means u (.value j) ∧ JsonBlank b

/-- All integers, also in members that count for nothing, are of 64 bits. -/
inductive IntsFit : Json → Prop
  | null : IntsFit .null
  | bool {b} : IntsFit (.bool b)
  | int {n} : -9223372036854775808 ≤ n → n ≤ 18446744073709551615 → IntsFit (.int n)
  | str {s} : IntsFit (.str s)
  | arr {l} : (∀ v ∈ l, IntsFit v) → IntsFit (.arr l)
  | obj {l} : (∀ p ∈ l, IntsFit p.2) → IntsFit (.obj l)

end HT.Spec
