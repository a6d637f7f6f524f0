import Verif.Core.Str

/-!
The `traceparent` header of the W3C Trace Context recommendation, section 3.2: what a valid value is.
-/

namespace HT.Spec

/-- The text is exactly `w` lower-case hexadecimal digits with value `n`. -/
def FixedHex (w : Nat) (s : Str) (n : Nat) : Prop :=
  s.length = w ∧ ∃ vs : List Nat, List.Forall₂ (fun c v => (s!!"0123456789abcdef")[v]? = some c) s vs ∧
    n = vs.foldl (fun a d => a * 16 + d) 0

/-- A valid value: version, trace id, parent id and flags of fixed widths; version 255 is forbidden, ids are not zero;
only versions after 0 may carry more fields. -/
def ValidTraceparent (v : Str) (version traceId parentId flags : Nat) : Prop :=
  ∃ a b c d rest, v = a ++ s!!"-" ++ b ++ s!!"-" ++ c ++ s!!"-" ++ d ++ rest ∧
    (rest = [] ∨ version ≠ 0 ∧ ∃ more, rest = '-' :: more) ∧
    FixedHex 2 a version ∧ FixedHex 32 b traceId ∧ FixedHex 16 c parentId ∧ FixedHex 2 d flags ∧
    version ≠ 255 ∧ traceId ≠ 0 ∧ parentId ≠ 0

end HT.Spec
