import Verif.Model.Headers
import Verif.Model.Date
import Verif.Core.Round

/-!
Model of the one-value typed headers: `src/headers/header.rs`, `src/content/content_length.rs`,
`src/other/{expect,retry_after,date}.rs`, `src/cache/{age,expires}.rs`,
`src/conditional/{last_modified,if_modified_since,if_unmodified_since}.rs`.
-/

namespace HT

/-- `std::time::Duration`. -/
structure Duration where
  secs : Nat
  nanos : Nat
  deriving DecidableEq, Repr

/-- `Header::apply_header`, src/headers/header.rs:15-22: computes the value (which may panic) and
inserts it; inserting a `HeaderValue` cannot fail, `unwrap` panics otherwise. -/
def applyHeader (h : Headers) (name : HeaderName) (value : Res HeaderValue) : Res Headers :=
  value.bind fun v =>
    match h.insert name (.value v) with
    | (h', .ok _) => .ok h'
    | _ => .panic

/-- The common opening of `from_headers`: absent header gives `Ok(None)`, otherwise the last value
(`headers.iter().last().unwrap()` or `headers.last()`) is handed on. -/
def readLast {α : Type} (h : Headers) (name : HeaderName) (f : HeaderValue → Res α) :
    Res (Option α) :=
  match h.get name with
  | none => .ok none
  | some vs => (HeaderValues.last vs).bind fun v => (f v).map some

/-! ### Content-Length -/
namespace ContentLength

/-- `CONTENT_LENGTH`, src/headers/constants.rs:8. -/
def name : HeaderName := s!!"content-length"

/-- `ContentLength::from_headers`, src/content/content_length.rs:41-52. -/
def fromHeaders (h : Headers) : Res (Option Nat) :=
  readLast h name fun v => (Res.ofOption 500 (parseUInt u64Max1 (trim v))).status 400

/-- `ContentLength::header_value`, src/content/content_length.rs:68-73. -/
def value (n : Nat) : Res HeaderValue := .ok (dec n)

end ContentLength

/-! ### Expect -/
namespace Expect

/-- `EXPECT`, src/headers/constants.rs. -/
def name : HeaderName := s!!"expect"

/-- `Expect::from_headers`, src/other/expect.rs:44-56. -/
def fromHeaders (h : Headers) : Res (Option Unit) :=
  readLast h name fun v => if v = s!!"100-continue" then .ok () else .err 400

/-- `Expect::header_value`, src/other/expect.rs:63-67. -/
def value : Res HeaderValue := .ok s!!"100-continue"

end Expect

/-! ### Age -/
namespace Age

/-- `AGE`, src/headers/constants.rs. -/
def name : HeaderName := s!!"age"

/-- `Duration::from_secs_f64(num as f64)`, src/cache/age.rs:66: the integer is rounded to a double;
`from_secs_f64` is exact on integers below 2^64 and panics from there on (std since Rust 1.63; older
versions multiply by 10^9 in floating point first). -/
def secsF64 (n : Nat) : Res Duration :=
  if natToF64 n < 2 ^ 64 then .ok ⟨natToF64 n, 0⟩ else .panic

/-- `Age::from_headers`, src/cache/age.rs:55-69. -/
def fromHeaders (h : Headers) : Res (Option Duration) :=
  readLast h name fun v =>
    ((Res.ofOption 500 (parseUInt u64Max1 v)).status 400).bind secsF64

/-- `Age::header_value`, src/cache/age.rs:77-82. -/
def value (d : Duration) : Res HeaderValue := .ok (dec d.secs)

end Age

/-! ### Retry-After -/

/-- `RetryDirective`, src/other/retry_after.rs:120-123. -/
inductive RetryAfter where
  | dur (d : Duration)
  | at (t : SysTime)
  deriving DecidableEq, Repr

namespace RetryAfter

/-- `RETRY_AFTER`, src/headers/constants.rs. -/
def name : HeaderName := s!!"retry-after"

/-- `RetryAfter::from_headers`, src/other/retry_after.rs:61-75. -/
def fromHeaders (h : Headers) : Res (Option RetryAfter) :=
  readLast h name fun v =>
    match parseUInt u64Max1 v with
    | some n => .ok (.dur ⟨n, 0⟩)
    | none => (parseHttpDate v).map .at

/-- `RetryAfter::header_value`, src/other/retry_after.rs:97-104. -/
def value : RetryAfter → Res HeaderValue
  | .dur d => .ok (dec d.secs)
  | .at t => fmtHttpDate t

end RetryAfter

/-! ### Headers that carry one date -/

/-- The five headers whose value is one HTTP date. -/
inductive DateHeader where
  | date | expires | lastModified | ifModifiedSince | ifUnmodifiedSince
  deriving DecidableEq, Repr

namespace DateHeader

/-- `DATE`, `EXPIRES`, `LAST_MODIFIED`, `IF_MODIFIED_SINCE`, `IF_UNMODIFIED_SINCE`,
src/headers/constants.rs. -/
def name : DateHeader → HeaderName
  | date => s!!"date"
  | expires => s!!"expires"
  | lastModified => s!!"last-modified"
  | ifModifiedSince => s!!"if-modified-since"
  | ifUnmodifiedSince => s!!"if-unmodified-since"

/-- How each header reads its text: `Date` (src/other/date.rs:62-71) trims, parses an `HttpDate`,
sets status 400 and converts to a time outside the fallible part; the other four
(src/cache/expires.rs:67-70, src/conditional/last_modified.rs:62-65, if_modified_since.rs:63-66,
if_unmodified_since.rs:63-66) call `parse_http_date`. -/
def read : DateHeader → HeaderValue → Res SysTime
  | date, v => ((HttpDate.fromStr (trim v)).status 400).bind HttpDate.toTime
  | _, v => parseHttpDate v

/-- `from_headers` of the five types: src/other/date.rs:54-73, src/cache/expires.rs:59-71,
src/conditional/last_modified.rs:54-66, if_modified_since.rs:55-67, if_unmodified_since.rs:55-67. -/
def fromHeaders (d : DateHeader) (h : Headers) : Res (Option SysTime) := readLast h d.name d.read

/-- `header_value` of the five types: src/other/date.rs:81-87 (`HttpDate` from the time, displayed),
src/cache/expires.rs:78-83, src/conditional/last_modified.rs:73-78, if_modified_since.rs:74-79,
if_unmodified_since.rs:74-79 (`fmt_http_date`). -/
def value : DateHeader → SysTime → Res HeaderValue
  | date, t => (HttpDate.ofTime t).bind HttpDate.display
  | _, t => fmtHttpDate t

end DateHeader

end HT
