import Verif.Core.Num
import Verif.Model.Body
import Verif.Model.Headers

/-! Forms of pairs of texts, as `serde_urlencoded` 0.7 writes and reads them for `Body::from_form` (src/body.rs:318-329) and
`Body::into_form` (src/body.rs:357-360): `form_urlencoded` with `percent_encoding`. -/

namespace HT
namespace Form

/-- `byte_serialized_unchanged`. -/
def unchanged (b : Byte) : Bool :=
  b.val == 42 || b.val == 45 || b.val == 46 || b.val == 95 || (48 ≤ b.val && b.val ≤ 57) || (65 ≤ b.val && b.val ≤ 90) ||
    (97 ≤ b.val && b.val ≤ 122)

/-- One digit of `percent_encode_byte`: a large letter from ten on. -/
def bigDigit (d : Nat) : Char := if d < 10 then Char.ofNat (48 + d) else Char.ofNat (55 + d)

/-- `ByteSerialize::next`. -/
def encodeByte (b : Byte) : Str :=
  if unchanged b then [Char.ofNat b.val]
  else if b.val = 32 then s!!"+"
  else ['%', bigDigit (b.val / 16), bigDigit (b.val % 16)]

/-- `byte_serialize`, `append_encoded`. -/
def encodeField (s : Str) : Str := (utf8Encode s).flatMap encodeByte

/-- `append_pair`. -/
def encodePair (p : Str × Str) : Str := encodeField p.1 ++ '=' :: encodeField p.2

/-- `serde_urlencoded::to_string` of a list of pairs or a map in some order: no pair is empty, so that there is a separator
before each but the first. -/
def encode (ps : List (Str × Str)) : Str := join s!!"&" (ps.map encodePair)

/-- `char::to_digit(16)` of a byte. -/
def hexVal (b : Byte) : Option Nat := toDigit 16 (Char.ofNat b.val)

/-- `PercentDecode::next`, to the end. -/
def percentDecode : List Byte → List Byte
  | 37 :: h :: l :: r =>
    match hexVal h, hexVal l with
    | some x, some y => byte (x * 16 + y) :: percentDecode r
    | _, _ => 37 :: percentDecode (h :: l :: r)
  | b :: r => b :: percentDecode r
  | [] => []

/-- `decode`: plus signs are blanks, then the percent signs; what `from_utf8_lossy` makes of bytes that are no UTF-8 is a
parameter. -/
def decodeField (lossy : List Byte → Str) (s : Str) : Str :=
  let bytes := percentDecode ((utf8Encode s).map fun b => if b = 43 then 32 else b)
  (utf8Decode bytes).getD (lossy bytes)

/-- `Parse::next` on a piece: the first equals sign ends the name. -/
def decodePair (lossy : List Byte → Str) (p : Str) : Str × Str :=
  match splitOnce '=' p with
  | some (n, v) => (decodeField lossy n, decodeField lossy v)
  | none => (decodeField lossy p, decodeField lossy [])

/-- `Parse::next`, to the end. The bytes of `&` and `=` stand for nothing else in UTF-8, so that the text is split and not
its bytes. -/
def decode (lossy : List Byte → Str) (s : Str) : List (Str × Str) :=
  ((split '&' s).filter (· ≠ [])).map (decodePair lossy)

/-- Deserializing a map: each pair is inserted. -/
def toMap (ps : List (Str × Str)) : FMap Str Str := ps.foldl (fun m p => m.set p.1 p.2) []

end Form
end HT
