import Verif.Core.Utf8

/-!
Model of `base64::encode` / `base64::decode` of the dependency `base64` 0.13 (Cargo.toml:31) with its
default configuration `STANDARD`: standard alphabet, padding written, padding optional when reading,
unused trailing bits must be zero. The dependency's source is not in /repo; its block-wise fast path is
not modelled, only the function it computes.
-/

namespace HT

/-- Character of a 6-bit value (the encode table). -/
def b64Char (n : Nat) : Char :=
  if n < 26 then Char.ofNat (65 + n)
  else if n < 52 then Char.ofNat (97 + (n - 26))
  else if n < 62 then Char.ofNat (48 + (n - 52))
  else if n = 62 then '+' else '/'

/-- The decode table. -/
def b64Val (c : Char) : Option Nat :=
  if 'A' ≤ c ∧ c ≤ 'Z' then some (c.toNat - 65)
  else if 'a' ≤ c ∧ c ≤ 'z' then some (c.toNat - 97 + 26)
  else if '0' ≤ c ∧ c ≤ '9' then some (c.toNat - 48 + 52)
  else if c = '+' then some 62
  else if c = '/' then some 63
  else none

/-- `base64::encode`. -/
def b64Encode : List Byte → Str
  | [] => []
  | [x] => [b64Char (x.val / 4), b64Char (x.val % 4 * 16), '=', '=']
  | [x, y] =>
    [b64Char (x.val / 4), b64Char (x.val % 4 * 16 + y.val / 16), b64Char (y.val % 16 * 4), '=']
  | x :: y :: z :: rest =>
    b64Char (x.val / 4) :: b64Char (x.val % 4 * 16 + y.val / 16) ::
      b64Char (y.val % 16 * 4 + z.val / 64) :: b64Char (z.val % 64) :: b64Encode rest

/-- 6-bit values to bytes: a lone last value is an invalid length, unused bits of the last value must
be zero. -/
def b64Unpack : List Nat → Option (List Byte)
  | [] => some []
  | [_] => none
  | [a, b] => if b % 16 = 0 then some [byte (a * 4 + b / 16)] else none
  | [a, b, c] =>
    if c % 4 = 0 then some [byte (a * 4 + b / 16), byte (b % 16 * 16 + c / 4)] else none
  | a :: b :: c :: d :: rest =>
    (b64Unpack rest).map fun bs =>
      byte (a * 4 + b / 16) :: byte (b % 16 * 16 + c / 4) :: byte (c % 4 * 64 + d) :: bs

/-- How many `=` may follow `n` values: padding is refused in the first two places of a group of four,
and a fifth place is refused. -/
def b64PadOk (n k : Nat) : Bool :=
  match n % 4 with
  | 0 => k = 0
  | 2 => k ≤ 2
  | 3 => k ≤ 1
  | _ => false

/-- `base64::decode`. -/
def b64Decode (s : Str) : Option (List Byte) :=
  let ds := s.takeWhile (· ≠ '=')
  let pads := s.dropWhile (· ≠ '=')
  if pads.all (· = '=') && b64PadOk ds.length pads.length then
    (ds.mapM b64Val).bind b64Unpack
  else none

end HT
