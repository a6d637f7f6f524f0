import Verif.Model.Mime
import Verif.Spec.Headers

/-! Specification of media types (RFC 7231 section 3.1.1.1, RFC 7230 section 3.2.6). -/

namespace HT.Spec

/-- `tchar`, RFC 7230. -/
def TChar (c : Char) : Prop := c.isAlphanum = true ∨ c ∈ s!!"!#$%&'*+-.^_`|~"

/-- `token`, RFC 7230. -/
def Token (s : Str) : Prop := s ≠ [] ∧ ∀ c ∈ s, TChar c

/-- A character that a quoted string may hold: tab, or a Latin-1 character that is no control character
of ASCII. -/
def QuotedChar (c : Char) : Prop := c = '\t' ∨ (32 ≤ c.toNat ∧ c.toNat ≤ 255 ∧ c.toNat ≠ 127)

/-- A well-formed media type value. -/
structure MimeWF (m : Mime) : Prop where
  base : Token m.basetype ∧ NoUpper m.basetype
  sub : Token m.subtype ∧ NoUpper m.subtype
  essence : m.essence = m.basetype ++ '/' :: m.subtype
  names : ∀ e ∈ m.params, Token e.1 ∧ NoUpper e.1
  nodup : (m.params.map (·.1)).Nodup
  values : ∀ e ∈ m.params, ∀ c ∈ e.2, QuotedChar c
  charset : (s!!"charset", s!!"utf-8") ∉ m.params

/-- The whitespace of RFC 7231 media types plus line ends. -/
def HttpWs (s : Str) : Prop := ∀ c ∈ s, c = ' ' ∨ c = '\t' ∨ c = '\n' ∨ c = '\r'

/-- `Escaped text value`: the inside of a quoted string and what it stands for. -/
inductive Escaped : Str → Str → Prop where
  | nil : Escaped [] []
  | plain {c s v} : c ≠ '"' → c ≠ '\\' → Escaped s v → Escaped (c :: s) (c :: v)
  | pair {c s v} : Escaped s v → Escaped ('\\' :: c :: s) (c :: v)

/-- A parameter value as a token or as a quoted string. -/
def ValueText (raw v : Str) : Prop :=
  (raw = v ∧ Token v) ∨ (∃ e, raw = '"' :: (e ++ ['"']) ∧ Escaped e v ∧ ∀ c ∈ v, QuotedChar c)

/-- Parameters of a media type in the order written. -/
inductive ParamsText : Str → List (Str × Str) → Prop where
  | nil : ParamsText [] []
  | cons {w1 n raw v w2 rest ps} : HttpWs w1 → Token n → ValueText raw v → HttpWs w2 → ParamsText rest ps →
      ParamsText (';' :: (w1 ++ (n ++ '=' :: (raw ++ (w2 ++ rest))))) ((n, v) :: ps)

/-- A media type as written: type, subtype and parameters. -/
def MediaText (s base sub : Str) (ps : List (Str × Str)) : Prop :=
  ∃ w1 w2 pt, HttpWs w1 ∧ HttpWs w2 ∧ Token base ∧ Token sub ∧ ParamsText pt ps ∧
    s = w1 ++ (base ++ '/' :: (sub ++ (w2 ++ pt)))

/-- The first entry of each name. -/
def firstOf : List (Str × Str) → List (Str × Str)
  | [] => []
  | p :: ps => p :: (firstOf ps).filter (fun e => e.1 ≠ p.1)

/-- Value of the first parameter whose name agrees up to case. -/
def firstValue (ps : List (Str × Str)) (n : Str) : Option Str :=
  (ps.find? fun e => sameName e.1 n).map (·.2)

end HT.Spec
