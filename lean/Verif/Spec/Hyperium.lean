import Verif.Model.Hyperium
import Verif.Spec.Headers

/-! Specification of the conversions to and from the crate `http`. -/

namespace HT.Spec

/-- Text the crate accepts as a header value: no control character but tab. -/
def HttpText (v : Str) : Prop := ∀ c ∈ v, c = '\t' ∨ (32 ≤ c.toNat ∧ c.toNat ≠ 127)

/-- A header collection as the library builds it: each name once and in lower case, and at least one value. -/
def LowerMap (h : Headers) : Prop :=
  (h.map Prod.fst).Nodup ∧ ∀ e ∈ h, NoUpper e.1 ∧ e.2 ≠ []

/-- A header map of the crate: each name once, lower-case ASCII text, and at least one value. -/
def HttpMap (m : HMap) : Prop :=
  (m.map Prod.fst).Nodup ∧ ∀ e ∈ m, Ascii e.1 ∧ NoUpper e.1 ∧ e.2 ≠ []

/-- The crate takes every name (`ok`) and every value. -/
def Accepted (ok : Str → Bool) (h : Headers) : Prop :=
  ∀ e ∈ h, ok e.1 = true ∧ ∀ v ∈ e.2, HttpText v

/-- The same names with the same values as bytes. -/
def asBytes (h : Headers) : HMap := h.map fun e => (e.1, e.2.map utf8Encode)

/-- The bytes are all below 128. -/
def AsciiBytes (v : List Byte) : Prop := ∀ b ∈ v, b.val < 128

/-- The text whose UTF-8 form is the bytes. -/
def IsText (v : List Byte) (s : Str) : Prop := utf8Encode s = v

/-- The same names in the same order, each with its first value only. -/
def FirstValues (m : HMap) (h : Headers) : Prop :=
  List.Forall₂ (fun e e' => e'.1 = e.1 ∧ ∃ v s, e.2.head? = some v ∧ IsText v s ∧ e'.2 = [s]) m h

/-- Every value is the UTF-8 form of some text. -/
def AllText (m : HMap) : Prop := ∀ e ∈ m, ∀ v ∈ e.2, ∃ s, IsText v s

/-- `n` has, in the headers `h`, the values `base` followed by the first value the map has for it. -/
def BaseAndFirst (m : HMap) (base : Option (List Str)) (h : Headers) (n : Str) : Prop :=
  (n ∉ m.map Prod.fst → h.get n = base) ∧
    ∀ v vs s, (n, v :: vs) ∈ m → IsText v s → h.get n = some (base.getD [] ++ [s])

end HT.Spec
