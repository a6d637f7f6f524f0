import Verif.Core.Res

/-!
Rust `str` operations used by http-types, on `List Char`.

Lean's `Char` is a Unicode scalar value, exactly Rust's `char`, so a Rust string is a list of
`Char`. These definitions model the Rust standard library (trusted, not part of /repo).
-/

namespace HT

/-- Rust `str` / `String`. -/
abbrev Str := List Char

open Lean in
/-- `s!!"abc"` is the literal `['a', 'b', 'c']`. -/
macro:max "s!!" s:str : term => do
  let cs := (s.getString.toList.map fun c => (Syntax.mkCharLit c)).toArray
  `(([$(cs),*] : List Char))

/-- `char::is_ascii`. -/
def isAsciiC (c : Char) : Bool := c.toNat < 128

/-- `str::is_ascii`. -/
def isAscii (s : Str) : Bool := s.all isAsciiC

/-- `char::to_ascii_lowercase`. -/
def lowerC (c : Char) : Char :=
  if 65 ≤ c.toNat ∧ c.toNat ≤ 90 then Char.ofNat (c.toNat + 32) else c

/-- `str::to_ascii_lowercase`. -/
def lower (s : Str) : Str := s.map lowerC

/-- `char::to_ascii_uppercase`. -/
def upperC (c : Char) : Char :=
  if 97 ≤ c.toNat ∧ c.toNat ≤ 122 then Char.ofNat (c.toNat - 32) else c

/-- `str::to_ascii_uppercase`. -/
def upper (s : Str) : Str := s.map upperC

/-- `str::eq_ignore_ascii_case`: std compares `a.to_ascii_lowercase() == b.to_ascii_lowercase()`
bytewise. -/
def eqIgnoreCase (a b : Str) : Bool := lower a == lower b

/-- `char::is_ascii_digit`. -/
def isDigit (c : Char) : Bool := 48 ≤ c.toNat && c.toNat ≤ 57

/-- `char::is_whitespace` (Unicode `White_Space`). -/
def isWs (c : Char) : Bool :=
  let n := c.toNat
  (9 ≤ n && n ≤ 13) || n == 32 || n == 0x85 || n == 0xA0 || n == 0x1680
  || (0x2000 ≤ n && n ≤ 0x200A) || n == 0x2028 || n == 0x2029 || n == 0x202F
  || n == 0x205F || n == 0x3000

/-- `str::trim_start`. -/
def trimStart (s : Str) : Str := s.dropWhile isWs

/-- `str::trim_end`. -/
def trimEnd (s : Str) : Str := (s.reverse.dropWhile isWs).reverse

/-- `str::trim`. -/
def trim (s : Str) : Str := trimEnd (trimStart s)

/-- `str::split(c)`: the pieces between occurrences of `c`; always at least one piece. -/
def split (c : Char) : Str → List Str
  | [] => [[]]
  | x :: xs =>
    if x = c then [] :: split c xs
    else match split c xs with
      | [] => [[x]]
      | p :: ps => (x :: p) :: ps

/-- `str::split_once(c)`. -/
def splitOnce (c : Char) : Str → Option (Str × Str)
  | [] => none
  | x :: xs =>
    if x = c then some ([], xs)
    else (splitOnce c xs).map fun (a, b) => (x :: a, b)

/-- `str::splitn(2, c)` as a list of one or two pieces. -/
def splitn2 (c : Char) (s : Str) : List Str :=
  match splitOnce c s with
  | none => [s]
  | some (a, b) => [a, b]

/-- `[..].join(sep)` on strings. -/
def join (sep : Str) : List Str → Str
  | [] => []
  | [x] => x
  | x :: y :: ys => x ++ sep ++ join sep (y :: ys)

/-- `str::strip_prefix`. -/
def stripPrefix (p s : Str) : Option Str :=
  match p, s with
  | [], s => some s
  | _ :: _, [] => none
  | a :: p, b :: s => if a = b then stripPrefix p s else none

/-- `str::starts_with`. -/
def startsWith (p s : Str) : Bool := (stripPrefix p s).isSome

/-- Number of UTF-8 bytes of a character (`char::len_utf8`). -/
def utf8Len (c : Char) : Nat :=
  if c.toNat < 0x80 then 1 else if c.toNat < 0x800 then 2 else if c.toNat < 0x10000 then 3 else 4

/-- `str::len` (bytes). -/
def byteLen (s : Str) : Nat := (s.map utf8Len).sum

/-- `(&s[..n], &s[n..])`, or a panic when `n` is past the end or inside a character. -/
def splitAtByte : Nat → Str → Res (Str × Str)
  | 0, s => .ok ([], s)
  | _ + 1, [] => .panic
  | n + 1, c :: s =>
    if utf8Len c ≤ n + 1 then
      (splitAtByte (n + 1 - utf8Len c) s).map fun (a, b) => (c :: a, b)
    else .panic
termination_by _ s => s.length

end HT
