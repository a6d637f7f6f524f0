import Verif.Model.Headers
import Verif.Model.Body

/-!
`{:?}` of header names, values, lists of values, collections and bodies, and `{}` of a list of values:
`src/headers/{header_name,header_value,header_values,headers}.rs`, `src/body.rs`. Only the plain form is modelled, not
`{:#?}`.
-/

namespace HT

/-- `char::escape_debug_ext` as used for strings (std): the quote is escaped, the apostrophe is not. For characters
outside ASCII the Unicode tables of std decide; `pr` says which are printed as they are. -/
def escapeDebug (pr : Char → Bool) (c : Char) : Str :=
  if c.toNat = 0 then s!!"\\0"
  else if c = '\t' then s!!"\\t"
  else if c = '\r' then s!!"\\r"
  else if c = '\n' then s!!"\\n"
  else if c = '"' then s!!"\\\""
  else if c = '\\' then s!!"\\\\"
  else if (32 ≤ c.toNat ∧ c.toNat < 127) ∨ (128 ≤ c.toNat ∧ pr c = true) then [c]
  else s!!"\\u{" ++ natStr 16 c.toNat ++ s!!"}"

/-- `Debug for str` (std). -/
def debugStr (pr : Char → Bool) (s : Str) : Str := ['"'] ++ s.flatMap (escapeDebug pr) ++ ['"']

/-- `Formatter::debug_list` (std), without `#`. -/
def debugList (es : List Str) : Str := ['['] ++ join s!!", " es ++ [']']

/-- `Formatter::debug_map` (std), without `#`. -/
def debugMap (es : List (Str × Str)) : Str := ['{'] ++ join s!!", " (es.map fun e => e.1 ++ s!!": " ++ e.2) ++ ['}']

/-- `Debug for HeaderName`, src/headers/header_name.rs:63-67. -/
def HeaderName.debug (pr : Char → Bool) (n : HeaderName) : Str := debugStr pr n

/-- `Debug for HeaderValue`, src/headers/header_value.rs:98-102. -/
def HeaderValue.debug (pr : Char → Bool) (v : HeaderValue) : Str := debugStr pr v

/-- `Debug for HeaderValues`, src/headers/header_values.rs:82-90. -/
def HeaderValues.debug (pr : Char → Bool) (vs : HeaderValues) : Str :=
  match vs with
  | [v] => HeaderValue.debug pr v
  | vs => debugList (vs.map (HeaderValue.debug pr))

/-- `Display for HeaderValues`, src/headers/header_values.rs:92-100: the entries are written with `{:?}`. -/
def HeaderValues.display (pr : Char → Bool) (vs : HeaderValues) : Str :=
  debugList (vs.map (HeaderValue.debug pr))

/-- `Debug for Headers`, src/headers/headers.rs:185-189, in one visiting order of the hash map. -/
def Headers.debug (pr : Char → Bool) (m : Headers) : Str :=
  debugMap (m.map fun e => (HeaderName.debug pr e.1, HeaderValues.debug pr e.2))

/-- `Debug for Option<usize>` (derived in std). -/
def debugOptNat : Option Nat → Str
  | none => s!!"None"
  | some n => s!!"Some(" ++ dec n ++ s!!")"

/-- `Debug for Body`, src/body.rs:539-547. -/
def Body.debug {σ : Type} (b : Body σ) : Str :=
  s!!"Body { reader: \"<hidden>\", length: " ++ debugOptNat b.length ++ s!!", bytes_read: " ++ dec b.bytesRead ++ s!!" }"

end HT
