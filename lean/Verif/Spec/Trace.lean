import Verif.Spec.Num
import Verif.Model.Trace

/-! What a `traceparent` value says. -/

namespace HT.Spec

/-- A hexadecimal digit, in either letter case, and its value. -/
def HexDigit (c : Char) (v : Nat) : Prop :=
  (s!!"0123456789abcdef")[v]? = some c ∨ (s!!"0123456789ABCDEF")[v]? = some c

/-- `s` is a non-empty string of hexadecimal digits, possibly after one `+`, with value `n`. -/
def HexNumeral (s : Str) (n : Nat) : Prop :=
  ∃ (ds : Str) (vs : List Nat), ds ≠ [] ∧ (s = ds ∨ s = '+' :: ds) ∧ List.Forall₂ HexDigit ds vs ∧
    n = vs.foldl (fun a d => a * 16 + d) 0

/-- The text is a hexadecimal numeral of at most `bits` bits. -/
def IsHex (bits : Nat) (s : Str) : Prop := ∃ n, HexNumeral s n ∧ n < 2 ^ bits

/-- The widths of the four fields of a `traceparent` value. -/
def traceBits : List Nat := [8, 128, 64, 8]

/-- The value has at least four dash-separated fields, the first four being numerals of the right
widths; they are version, trace id, parent id and flags. -/
def TraceText (v : Str) (version traceId parentId flags : Nat) : Prop :=
  ∃ a b c d rest, split '-' v = a :: b :: c :: d :: rest ∧
    HexNumeral a version ∧ version < 2 ^ 8 ∧ HexNumeral b traceId ∧ traceId < 2 ^ 128 ∧
    HexNumeral c parentId ∧ parentId < 2 ^ 64 ∧ HexNumeral d flags ∧ flags < 2 ^ 8

/-- All the numbers fit their Rust types. -/
def TraceWF (c : TraceContext) : Prop :=
  c.id < 2 ^ 64 ∧ c.version < 2 ^ 8 ∧ c.traceId < 2 ^ 128 ∧ (∀ p ∈ c.parentId, p < 2 ^ 64) ∧ c.flags < 2 ^ 8

end HT.Spec
