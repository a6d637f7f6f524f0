import Verif.Spec.Num
import Verif.Model.Json

/-! How JSON is read (RFC 8259). Numbers are integers; a text with others, which are fractions, exponents and the negative zero,
is not read. -/

namespace HT.Spec

/-- A value. The members of an object are in the order of the text. -/
inductive Json where
  | null
  | bool (b : Bool)
  | int (n : Int)
  | str (s : Str)
  | arr (l : List Json)
  | obj (l : List (Str × Json))

/-- The value of a hexadecimal digit. -/
def hexValue (c : Char) : Option Nat :=
  if '0' ≤ c ∧ c ≤ '9' then some (c.toNat - 48)
  else if 'a' ≤ c ∧ c ≤ 'f' then some (c.toNat - 87)
  else if 'A' ≤ c ∧ c ≤ 'F' then some (c.toNat - 55)
  else none

/-- The character for the one after the backslash. -/
def unescape (c : Char) : Option Char :=
  if c = '"' ∨ c = '\\' ∨ c = '/' then some c
  else if c = 'b' then some (Char.ofNat 8)
  else if c = 'f' then some (Char.ofNat 12)
  else if c = 'n' then some (Char.ofNat 10)
  else if c = 'r' then some (Char.ofNat 13)
  else if c = 't' then some (Char.ofNat 9)
  else none

/-- The value of four hexadecimal digits. -/
def hexUnit (a b c d : Char) : Option Nat :=
  match hexValue a, hexValue b, hexValue c, hexValue d with
  | some a, some b, some c, some d => some (((a * 16 + b) * 16 + c) * 16 + d)
  | _, _, _, _ => none

/-- The character for four hexadecimal digits; not for half of a surrogate pair. -/
def hexChar (a b c d : Char) : Option Char :=
  (hexUnit a b c d).bind fun n => if n < 0xD800 ∨ 0xDFFF < n then some (Char.ofNat n) else none

/-- The character for a surrogate pair. -/
def pairChar (m n : Option Nat) : Option Char :=
  match m, n with
  | some m, some n =>
    if 0xD800 ≤ m ∧ m < 0xDC00 ∧ 0xDC00 ≤ n ∧ n < 0xE000 then some (Char.ofNat (0x10000 + (m - 0xD800) * 0x400 + (n - 0xDC00)))
    else none
  | _, _ => none

/-- A string, after its opening quote, and what follows it. -/
def readString : Str → Option (Str × Str)
  | [] => none
  | c :: r =>
    if c = '"' then some ([], r)
    else if c = '\\' then
      match r with
      | [] => none
      | e :: r =>
        if e = 'u' then
          match r with
          | a :: b :: c :: d :: r =>
            match hexChar a b c d with
            | some x => (readString r).map fun y => (x :: y.1, y.2)
            | none =>
              match r with
              | '\\' :: 'u' :: a' :: b' :: c' :: d' :: r =>
                (pairChar (hexUnit a b c d) (hexUnit a' b' c' d')).bind fun x => (readString r).map fun y => (x :: y.1, y.2)
              | _ => none
          | _ => none
        else (unescape e).bind fun x => (readString r).map fun y => (x :: y.1, y.2)
    else if c.toNat < 32 then none
    else (readString r).map fun y => (c :: y.1, y.2)

/-- Without white space before it. -/
def skipWs (t : Str) : Str := t.dropWhile fun c => c = ' ' || c = '\t' || c = '\n' || c = '\r'

/-- An integer: digits, without a zero before others, not followed by a fraction or an exponent. -/
def readDigits (t : Str) : Option (Nat × Str) :=
  let ds := t.takeWhile isDigit
  let r := t.dropWhile isDigit
  if ds = [] ∨ (ds.head? = some '0' ∧ 1 < ds.length) then none
  else match r with
    | c :: _ => if c = '.' ∨ c = 'e' ∨ c = 'E' then none else some (decValue ds, r)
    | [] => some (decValue ds, r)

/-- A number or a word. -/
def readWord (t : Str) : Option (Json × Str) :=
  match t with
  | '-' :: r => (readDigits r).bind fun x => if x.1 = 0 then none else some (.int (-(x.1 : Int)), x.2)
  | 't' :: 'r' :: 'u' :: 'e' :: r => some (.bool true, r)
  | 'f' :: 'a' :: 'l' :: 's' :: 'e' :: r => some (.bool false, r)
  | 'n' :: 'u' :: 'l' :: 'l' :: r => some (.null, r)
  | r => (readDigits r).map fun x => (.int x.1, x.2)

mutual
/-- A value and what follows it; the number bounds the depth and the elements. -/
def readValue : Nat → Str → Option (Json × Str)
  | 0, _ => none
  | n + 1, t =>
    match skipWs t with
    | '"' :: r => (readString r).map fun x => (.str x.1, x.2)
    | '[' :: r => match skipWs r with
      | ']' :: r => some (.arr [], r)
      | r => (readElems n r).map fun x => (.arr x.1, x.2)
    | '{' :: r => match skipWs r with
      | '}' :: r => some (.obj [], r)
      | r => (readMembers n r).map fun x => (.obj x.1, x.2)
    | r => readWord r
/-- The elements of an array up to its end. -/
def readElems : Nat → Str → Option (List Json × Str)
  | 0, _ => none
  | n + 1, t =>
    (readValue n t).bind fun v =>
      match skipWs v.2 with
      | ',' :: r => (readElems n r).map fun x => (v.1 :: x.1, x.2)
      | ']' :: r => some ([v.1], r)
      | _ => none
/-- The members of an object up to its end. -/
def readMembers : Nat → Str → Option (List (Str × Json) × Str)
  | 0, _ => none
  | n + 1, t =>
    match skipWs t with
    | '"' :: r => (readString r).bind fun k =>
      match skipWs k.2 with
      | ':' :: r => (readValue n r).bind fun v =>
        match skipWs v.2 with
        | ',' :: r => (readMembers n r).map fun x => ((k.1, v.1) :: x.1, x.2)
        | '}' :: r => some ([(k.1, v.1)], r)
        | _ => none
      | _ => none
    | _ => none
end

/-- The value that a text is. -/
def parseJson (t : Str) : Option Json :=
  (readValue (t.length + 1) t).bind fun v => if skipWs v.2 = [] then some v.1 else none

/-- The object that a report group is meant to be: its name, if it has one, the seconds, the endpoints by their URLs, and
whether it is for the subdomains, if that was said. -/
def reportObject (r : ReportTo) : Json :=
  .obj ((r.group.toList.map fun g => (s!!"group", .str g)) ++
    [(s!!"max_age", .int r.maxAge), (s!!"endpoints", .arr (r.endpoints.map fun u => .obj [(s!!"url", .str u)]))] ++
    r.includeSubdomains.toList.map fun b => (s!!"include_subdomains", .bool b))

end HT.Spec
