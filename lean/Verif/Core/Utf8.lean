import Verif.Core.Str

/-!
UTF-8 encoding and decoding as done by Rust's standard library (`str::as_bytes`,
`String::from_utf8`). Trusted library behaviour, proved inverse to each other in
`Verif/Lemmas/Utf8.lean`.
-/

namespace HT

/-- Rust `u8`. -/
abbrev Byte := Fin 256

/-- A byte from a number known to be below 256. -/
def byte (n : Nat) : Byte := Fin.ofNat 256 n

/-- `char::encode_utf8`. -/
def utf8EncodeC (c : Char) : List Byte :=
  let n := c.toNat
  if n < 0x80 then [byte n]
  else if n < 0x800 then [byte (0xC0 + n / 64), byte (0x80 + n % 64)]
  else if n < 0x10000 then
    [byte (0xE0 + n / 4096), byte (0x80 + n / 64 % 64), byte (0x80 + n % 64)]
  else
    [byte (0xF0 + n / 262144), byte (0x80 + n / 4096 % 64), byte (0x80 + n / 64 % 64),
      byte (0x80 + n % 64)]

/-- `str::as_bytes` / `String::into_bytes`. -/
def utf8Encode (s : Str) : List Byte := s.flatMap utf8EncodeC

/-- Continuation byte. -/
def isCont (b : Byte) : Bool := 0x80 ≤ b.val && b.val < 0xC0

/-- `String::from_utf8`: `none` on an invalid sequence (overlong forms, surrogates, values above
U+10FFFF, stray or missing continuation bytes). -/
def utf8Decode : List Byte → Option Str
  | [] => some []
  | b0 :: rest =>
    if b0.val < 0x80 then (utf8Decode rest).map (Char.ofNat b0.val :: ·)
    else if b0.val < 0xC2 then none
    else if b0.val < 0xE0 then
      match rest with
      | b1 :: r =>
        if isCont b1 then
          (utf8Decode r).map (Char.ofNat ((b0.val - 0xC0) * 64 + (b1.val - 0x80)) :: ·)
        else none
      | _ => none
    else if b0.val < 0xF0 then
      match rest with
      | b1 :: b2 :: r =>
        let n := (b0.val - 0xE0) * 4096 + (b1.val - 0x80) * 64 + (b2.val - 0x80)
        if isCont b1 && isCont b2 && (0x800 ≤ n && (n < 0xD800 || 0xE000 ≤ n)) then
          (utf8Decode r).map (Char.ofNat n :: ·)
        else none
      | _ => none
    else if b0.val < 0xF5 then
      match rest with
      | b1 :: b2 :: b3 :: r =>
        let n := (b0.val - 0xF0) * 262144 + (b1.val - 0x80) * 4096 + (b2.val - 0x80) * 64
          + (b3.val - 0x80)
        if isCont b1 && isCont b2 && isCont b3 && (0x10000 ≤ n && n < 0x110000) then
          (utf8Decode r).map (Char.ofNat n :: ·)
        else none
      | _ => none
    else none

end HT
