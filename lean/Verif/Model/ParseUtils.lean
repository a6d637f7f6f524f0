import Verif.Core.Str

/-! Model of `src/parse_utils.rs`. -/

namespace HT.ParseUtils

/-- `tchar`, src/parse_utils.rs:22-43. -/
def tchar (c : Char) : Bool :=
  ('a' ≤ c && c ≤ 'z') || ('A' ≤ c && c ≤ 'Z') || ('0' ≤ c && c ≤ '9')
  || ['!', '#', '$', '%', '&', '\'', '*', '+', '-', '.', '^', '_', '`', '|', '~'].contains c

/-- `c as u8`. -/
def asU8 (c : Char) : Nat := c.toNat % 256

/-- `vchar`, src/parse_utils.rs:46-48. -/
def vchar (c : Char) : Bool :=
  let b := asU8 c
  b == 9 || (32 ≤ b && b ≤ 126) || (128 ≤ b && b ≤ 255)

/-- `parse_token`, src/parse_utils.rs:4-19. All token characters are one byte long, so the byte
index `end_of_token` is the number of token characters. -/
def parseToken (input : Str) : Option Str × Str :=
  if input.takeWhile tchar = [] then (none, input)
  else (some (input.takeWhile tchar), input.dropWhile tchar)

/-- The `qdtext` arm, src/parse_utils.rs:80. -/
def qdtext (b : Nat) : Bool :=
  b == 9 || b == 32 || b == 15 || (35 ≤ b && b ≤ 91) || (93 ≤ b && b ≤ 126) || (128 ≤ b && b ≤ 255)

/-- The scanning loop of `parse_quoted_string`, src/parse_utils.rs:60-86: `i` is the byte index of the
next character, `bs` the recorded backslashes, latest first. `none` stands both for bailing out and for
reaching the end, which have the same result. -/
def scan (i : Nat) (bs : List Nat) : Str → Option (Nat × List Nat)
  | [] => none
  | c :: s =>
    if i > 1 ∧ bs.head? = some (i - 2) then
      if vchar c then scan (i + utf8Len c) bs s else none
    else if asU8 c = 92 then scan (i + utf8Len c) ((i - 1) :: bs) s
    else if asU8 c = 34 then some (i + 1, bs)
    else if qdtext (asU8 c) then scan (i + utf8Len c) bs s
    else none

/-- The `filter_map` over `char_indices`, src/parse_utils.rs:98-111: `i` is the byte index, `bs` the
recorded backslashes not yet reached, lowest first. -/
def dropAt (i : Nat) (bs : List Nat) : Str → Str
  | [] => []
  | c :: s =>
    if bs.head? = some i then dropAt (i + utf8Len c) bs.tail s
    else c :: dropAt (i + utf8Len c) bs s

/-- `parse_quoted_string`, src/parse_utils.rs:51-118. The slices panic inside a character. -/
def parseQuotedString (input : Str) : Res (Option Str × Str) :=
  match input with
  | '"' :: s =>
    match scan 1 [] s with
    | none => .ok (none, input)
    | some (e, bs) =>
      (splitAtByte (e - 1 - 1) s).bind fun (value, _) =>
      (splitAtByte e input).bind fun (_, rest) =>
        .ok (some (if bs = [] then value else dropAt 0 bs.reverse value), rest)
  | _ => .ok (none, input)

end HT.ParseUtils
