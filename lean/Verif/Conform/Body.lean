import Verif.Model.Body
import Verif.Model.StatusCode
import Verif.Model.Version

/-! Tests of src/body.rs, src/version.rs and src/status_code.rs about the model; see `Verif/Conform/Basic.lean`. -/

namespace HT.Conform

set_option synthInstance.maxSize 1000

/-- src/body.rs:669-681, as a text and with the count of bytes read: poll with buffers of one size until nothing comes. -/
def readBuffers {σ : Type} (I : ReaderI σ) (size : Nat) : Nat → Body σ → List Byte → Option (List Byte × Nat)
  | 0, _, _ => none
  | fuel + 1, b, acc =>
    match Body.pollRead I b size with
    | (.ok [], b) => some (acc, b.bytesRead)
    | (.ok bs, b) => readBuffers I size fuel b (acc ++ bs)
    | (.pending, b) => readBuffers I size fuel b acc
    | _ => none

def bytes (s : Str) : List Byte := utf8Encode s

/-- Read with every size of a range. -/
def readAll {σ : Type} (I : ReaderI σ) (last : Nat) (b : Body σ) : List (Option (List Byte × Nat)) :=
  (List.range' 1 (last - 1)).map fun n => readBuffers I n 40 b []

/-- The outcomes expected of them. -/
def allGive (last : Nat) (s : Str) (n : Nat) : List (Option (List Byte × Nat)) :=
  List.replicate (last - 1) (some (utf8Encode s, n))

/-! src/body.rs:643-667 -/

example : Body.intoJson (α := Unit) (fun _ => none) emptyI Body.empty [32] = some (.err 422) := by decide +kernel
example : Body.intoForm (α := Unit) (fun _ => none) emptyI Body.empty [32] = some (.err 422) := by decide +kernel

/-! src/body.rs:683-737 -/

example : readAll cursorI 13 (Body.fromReader (bytes s!!"hello world") (some 5)) = allGive 13 s!!"hello" 5 := by decide +kernel
example : readAll cursorI 13 (Body.fromReader (bytes s!!"hello world") (some 15)) = allGive 13 s!!"hello world" 11 := by
  decide +kernel
example : readAll cursorI 13 (Body.fromReader (bytes s!!"hello world") (some 11)) = allGive 13 s!!"hello world" 11 := by
  decide +kernel
example : readAll cursorI 13 (Body.fromReader (bytes s!!"hello world") none) = allGive 13 s!!"hello world" 11 := by
  decide +kernel

/-- Length, type and what is read from two bodies chained. -/
def chained (last : Nat) (a b : Body (List Byte)) :
    Res (Option Nat × Option Mime × List (Option (List Byte × Nat))) :=
  (Body.chain a b).map fun c => (c.len, c.mime, readAll (Body.chainReaderI cursorI cursorI) last c)

/-! src/body.rs:739-855 -/

example : chained 13 (.fromString s!!"hello ") (.fromString s!!"world") =
    .ok (some 11, some Mime.PLAIN, allGive 13 s!!"hello world" 11) := by decide +kernel
example : chained 13 (.fromBytes (bytes s!!"hello ")) (.fromString s!!"world") =
    .ok (some 11, some Mime.BYTE_STREAM, allGive 13 s!!"hello world" 11) := by decide +kernel
example : chained 13 (.fromReader (bytes s!!"hello ") (some 6)) (.fromString s!!"world") =
    .ok (some 11, some Mime.BYTE_STREAM, allGive 13 s!!"hello world" 11) := by decide +kernel
example : chained 13 (.fromReader (bytes s!!"hello ") none) (.fromString s!!"world") =
    .ok (none, some Mime.BYTE_STREAM, allGive 13 s!!"hello world" 11) := by decide +kernel
example : chained 13 (.fromString s!!"hello ") (.fromReader (bytes s!!"world") none) =
    .ok (none, some Mime.BYTE_STREAM, allGive 13 s!!"hello world" 11) := by decide +kernel
example : chained 26 (.fromReader (bytes s!!"hello xyz") (some 6)) (.fromReader (bytes s!!"world abc") (some 5)) =
    .ok (some 11, some Mime.BYTE_STREAM, allGive 26 s!!"hello world" 11) := by decide +kernel
example : ((Body.chain (.fromString s!!"hello") (.fromBytes (bytes s!!" "))).bind fun c =>
      (Body.chain c (.fromString s!!"world")).map fun c =>
        (c.len, c.mime, readAll (Body.chainReaderI (Body.chainReaderI cursorI cursorI) cursorI) 13 c)) =
    .ok (some 11, some Mime.BYTE_STREAM, allGive 13 s!!"hello world" 11) := by decide +kernel

/-! src/body.rs:857-881 -/

example :
    (Body.pollRead cursorI (.fromReader (bytes s!!"1234 hello xyz") (some 11)) 5).1 = .ok (bytes s!!"1234 ") ∧
    (Body.pollRead cursorI (.fromReader (bytes s!!"321 world abc") (some 9)) 4).1 = .ok (bytes s!!"321 ") ∧
    chained 26 (Body.pollRead cursorI (.fromReader (bytes s!!"1234 hello xyz") (some 11)) 5).2
      (Body.pollRead cursorI (.fromReader (bytes s!!"321 world abc") (some 9)) 4).2 =
      .ok (some 11, some Mime.BYTE_STREAM, allGive 26 s!!"hello world" 11) := by decide +kernel

/-! src/version.rs:101-137 -/

example : [Version.http0_9, .http1_0, .http1_1, .http2_0, .http3_0].map Version.asStr =
    [s!!"HTTP/0.9", s!!"HTTP/1.0", s!!"HTTP/1.1", s!!"HTTP/2", s!!"HTTP/3"] := by decide +kernel
example : Version.cmp .http3_0 .http2_0 = .gt ∧ Version.cmp .http2_0 .http1_1 = .gt ∧ Version.cmp .http1_1 .http1_0 = .gt ∧
    Version.cmp .http1_0 .http0_9 = .gt := by decide +kernel
example : Version.deserialize s!!"HTTP/1.1" = some .http1_1 := by decide +kernel

/-! src/status_code.rs:722-731 -/

example : StatusCode.deserialize 202 = some .accepted ∧ StatusCode.serialize .accepted = 202 := by decide +kernel

end HT.Conform
