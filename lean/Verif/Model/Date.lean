import Verif.Core.Num

/-! Model of `src/utils/date.rs`. -/

namespace HT

/-- `SystemTime`, as seconds (rounded down) and nanoseconds relative to the Unix epoch. -/
structure SysTime where
  secs : Int
  nanos : Nat
  deriving DecidableEq, Repr

/-- `HttpDate`, src/utils/date.rs:19-34 (`u8`/`u16` fields as `Nat`). -/
structure HttpDate where
  second : Nat
  minute : Nat
  hour : Nat
  day : Nat
  month : Nat
  year : Nat
  weekDay : Nat
  deriving DecidableEq, Repr

namespace HttpDate

/-- `&s[a..b]` when `b ≤ s.len()` (always checked before in this file). -/
def slice (s : Str) (a b : Nat) : Str := (s.drop a).take (b - a)

/-- `HttpDate::is_valid`, src/utils/date.rs:57-69. -/
def isValid (d : HttpDate) : Bool :=
  d.second < 60 && d.minute < 60 && d.hour < 24 && d.day > 0 && d.day < 32 && d.month > 0
    && d.month ≤ 12 && d.year ≥ 1970 && d.year ≤ 9999 && d.weekDay ≥ 1 && d.weekDay < 8

/-- `from_utf8(..)?.parse::<u8>()?` on ASCII text; any failure becomes status 500. -/
def parseU8 (s : Str) : Res Nat := Res.ofOption 500 (parseUInt u8Max1 s)

/-- `from_utf8(..)?.parse::<u16>()?` on ASCII text. -/
def parseU16 (s : Str) : Res Nat := Res.ofOption 500 (parseUInt u16Max1 s)

/-- The `match &s[7..12]` of src/utils/date.rs:87-101. -/
def imfMonth (s : Str) : Res Nat :=
  if s = s!!" Jan " then .ok 1 else if s = s!!" Feb " then .ok 2
  else if s = s!!" Mar " then .ok 3 else if s = s!!" Apr " then .ok 4
  else if s = s!!" May " then .ok 5 else if s = s!!" Jun " then .ok 6
  else if s = s!!" Jul " then .ok 7 else if s = s!!" Aug " then .ok 8
  else if s = s!!" Sep " then .ok 9 else if s = s!!" Oct " then .ok 10
  else if s = s!!" Nov " then .ok 11 else if s = s!!" Dec " then .ok 12
  else .err 500

/-- The `match &s[..5]` of src/utils/date.rs:103-112. -/
def imfDay (s : Str) : Res Nat :=
  if s = s!!"Mon, " then .ok 1 else if s = s!!"Tue, " then .ok 2
  else if s = s!!"Wed, " then .ok 3 else if s = s!!"Thu, " then .ok 4
  else if s = s!!"Fri, " then .ok 5 else if s = s!!"Sat, " then .ok 6
  else if s = s!!"Sun, " then .ok 7 else .err 500

/-- `parse_imf_fixdate`, src/utils/date.rs:72-114. -/
def parseImf (s : Str) : Res HttpDate :=
  if s.length ≠ 29 ∨ slice s 25 29 ≠ s!!" GMT" ∨ s[16]? ≠ some ' ' ∨ s[19]? ≠ some ':'
      ∨ s[22]? ≠ some ':' then .err 500
  else
    (parseU8 (slice s 23 25)).bind fun second =>
    (parseU8 (slice s 20 22)).bind fun minute =>
    (parseU8 (slice s 17 19)).bind fun hour =>
    (parseU8 (slice s 5 7)).bind fun day =>
    (imfMonth (slice s 7 12)).bind fun month =>
    (parseU16 (slice s 12 16)).bind fun year =>
    (imfDay (slice s 0 5)).bind fun weekDay =>
    .ok ⟨second, minute, hour, day, month, year, weekDay⟩

/-- The local `week_day` of src/utils/date.rs:123-128. -/
def rfcWeekDay (s : Str) (wd : Nat) (name : Str) : Option (Nat × Str) :=
  if slice s 0 name.length = name then some (wd, s.drop name.length) else none

/-- The chain of `or_else` of src/utils/date.rs:129-136. -/
def rfcDay (s : Str) : Res (Nat × Str) :=
  Res.ofOption 500 (
    (rfcWeekDay s 1 s!!"Monday, ").or ((rfcWeekDay s 2 s!!"Tuesday, ").or
    ((rfcWeekDay s 3 s!!"Wednesday, ").or ((rfcWeekDay s 4 s!!"Thursday, ").or
    ((rfcWeekDay s 5 s!!"Friday, ").or ((rfcWeekDay s 6 s!!"Saturday, ").or
    (rfcWeekDay s 7 s!!"Sunday, ")))))))

/-- The `match &s[2..7]` of src/utils/date.rs:151-165. -/
def rfcMonth (s : Str) : Res Nat :=
  if s = s!!"-Jan-" then .ok 1 else if s = s!!"-Feb-" then .ok 2
  else if s = s!!"-Mar-" then .ok 3 else if s = s!!"-Apr-" then .ok 4
  else if s = s!!"-May-" then .ok 5 else if s = s!!"-Jun-" then .ok 6
  else if s = s!!"-Jul-" then .ok 7 else if s = s!!"-Aug-" then .ok 8
  else if s = s!!"-Sep-" then .ok 9 else if s = s!!"-Oct-" then .ok 10
  else if s = s!!"-Nov-" then .ok 11 else if s = s!!"-Dec-" then .ok 12
  else .err 500

/-- `parse_rfc850_date`, src/utils/date.rs:116-169. -/
def parseRfc850 (s : Str) : Res HttpDate :=
  if s.length < 23 then .err 500
  else
    (rfcDay s).bind fun (weekDay, s) =>
    if s.length ≠ 22 ∨ s[12]? ≠ some ':' ∨ s[15]? ≠ some ':' ∨ slice s 18 22 ≠ s!!" GMT" then .err 500
    else
      (parseU16 (slice s 7 9)).bind fun year =>
      let year := if year < 70 then year + 2000 else year + 1900
      (parseU8 (slice s 16 18)).bind fun second =>
      (parseU8 (slice s 13 15)).bind fun minute =>
      (parseU8 (slice s 10 12)).bind fun hour =>
      (parseU8 (slice s 0 2)).bind fun day =>
      (rfcMonth (slice s 2 7)).bind fun month =>
      .ok ⟨second, minute, hour, day, month, year, weekDay⟩

/-- The `match &s[4..8]` of src/utils/date.rs:185-199. -/
def ascMonth (s : Str) : Res Nat :=
  if s = s!!"Jan " then .ok 1 else if s = s!!"Feb " then .ok 2
  else if s = s!!"Mar " then .ok 3 else if s = s!!"Apr " then .ok 4
  else if s = s!!"May " then .ok 5 else if s = s!!"Jun " then .ok 6
  else if s = s!!"Jul " then .ok 7 else if s = s!!"Aug " then .ok 8
  else if s = s!!"Sep " then .ok 9 else if s = s!!"Oct " then .ok 10
  else if s = s!!"Nov " then .ok 11 else if s = s!!"Dec " then .ok 12
  else .err 500

/-- The `match &s[0..4]` of src/utils/date.rs:201-210. -/
def ascDay (s : Str) : Res Nat :=
  if s = s!!"Mon " then .ok 1 else if s = s!!"Tue " then .ok 2
  else if s = s!!"Wed " then .ok 3 else if s = s!!"Thu " then .ok 4
  else if s = s!!"Fri " then .ok 5 else if s = s!!"Sat " then .ok 6
  else if s = s!!"Sun " then .ok 7 else .err 500

/-- `parse_asctime`, src/utils/date.rs:171-212. -/
def parseAsctime (s : Str) : Res HttpDate :=
  if s.length ≠ 24 ∨ s[10]? ≠ some ' ' ∨ s[13]? ≠ some ':' ∨ s[16]? ≠ some ':'
      ∨ s[19]? ≠ some ' ' then .err 500
  else
    (parseU8 (slice s 17 19)).bind fun second =>
    (parseU8 (slice s 14 16)).bind fun minute =>
    (parseU8 (slice s 11 13)).bind fun hour =>
    (let x := slice s 8 10
     parseU8 (if x[0]? = some ' ' then slice x 1 2 else x)).bind fun day =>
    (ascMonth (slice s 4 8)).bind fun month =>
    (parseU16 (slice s 20 24)).bind fun year =>
    (ascDay (slice s 0 4)).bind fun weekDay =>
    .ok ⟨second, minute, hour, day, month, year, weekDay⟩

/-- `Result::or_else` on the alternatives. -/
def orElse (a : Res HttpDate) (b : Unit → Res HttpDate) : Res HttpDate :=
  match a with
  | .err _ => b ()
  | r => r

/-- `FromStr for HttpDate`, src/utils/date.rs:334-342. -/
def fromStr (s : Str) : Res HttpDate :=
  if isAscii s then
    let x := trim s
    (orElse (orElse (parseImf x) fun _ => parseRfc850 x) fun _ => parseAsctime x).bind fun date =>
    if date.isValid then .ok date else .err 500
  else .err 500

/-- `is_leap_year`, src/utils/date.rs:412-414. -/
def isLeapYear (y : Nat) : Bool := y % 4 == 0 && (y % 100 != 0 || y % 400 == 0)

/-- The month table of `From<HttpDate> for SystemTime`, src/utils/date.rs:301-315
(`unreachable!()` outside 1..12). -/
def ydaysOf : Nat → Res Nat
  | 1 => .ok 0 | 2 => .ok 31 | 3 => .ok 59 | 4 => .ok 90 | 5 => .ok 120 | 6 => .ok 151
  | 7 => .ok 181 | 8 => .ok 212 | 9 => .ok 243 | 10 => .ok 273 | 11 => .ok 304 | 12 => .ok 334
  | _ => .panic

/-- `From<HttpDate> for SystemTime`, src/utils/date.rs:297-329, for years at least 1970 and days at
least 1 (no underflow; guaranteed by `is_valid`, the only callers outside tests). -/
def toTime (d : HttpDate) : Res SysTime :=
  let leapYears := ((d.year - 1) - 1968) / 4 - ((d.year - 1) - 1900) / 100
    + ((d.year - 1) - 1600) / 400
  (ydaysOf d.month).bind fun table =>
  let ydays := table + d.day - 1
  let ydays := if isLeapYear d.year ∧ d.month > 2 then ydays + 1 else ydays
  let days := (d.year - 1970) * 365 + leapYears + ydays
  .ok ⟨((d.second + d.minute * 60 + d.hour * 3600 + days * 86400 : Nat) : Int), 0⟩

/-- The `for month_len in months.iter()` loop of src/utils/date.rs:263-269: returns the final
`(month, remdays)`. -/
def monthLoop : List Int → Int → Int → Int × Int
  | [], month, remdays => (month, remdays)
  | len :: rest, month, remdays =>
    if remdays < len then (month + 1, remdays) else monthLoop rest (month + 1) (remdays - len)

/-- The civil-date part of `From<SystemTime> for HttpDate`, src/utils/date.rs:226-282: from the
number of days since the epoch to (year, month, day of month, weekday). Rust's `/` and `%` on `i64`
truncate. -/
def civil (epochDays : Int) : Int × Int × Int × Int :=
  let days := epochDays - 11017
  let qc := days.tdiv 146097
  let rem := days.tmod 146097
  let (qc, rem) := if rem < 0 then (qc - 1, rem + 146097) else (qc, rem)
  let c := rem.tdiv 36524
  let c := if c = 4 then c - 1 else c
  let rem := rem - c * 36524
  let q := rem.tdiv 1461
  let q := if q = 25 then q - 1 else q
  let rem := rem - q * 1461
  let ry := rem.tdiv 365
  let ry := if ry = 4 then ry - 1 else ry
  let rem := rem - ry * 365
  let year := 2000 + ry + 4 * q + 100 * c + 400 * qc
  let (month, rem) := monthLoop [31, 30, 31, 30, 31, 31, 30, 31, 30, 31, 31, 29] 0 rem
  let mday := rem + 1
  let (year, month) := if month + 2 > 12 then (year + 1, month - 10) else (year, month + 2)
  let wd := (3 + days).tmod 7
  let wd := if wd ≤ 0 then wd + 7 else wd
  (year, month, mday, wd)

/-- `From<SystemTime> for HttpDate`, src/utils/date.rs:214-295: panics before the epoch and from
year 10000 on. -/
def ofTime (t : SysTime) : Res HttpDate :=
  if t.secs < 0 then .panic
  else if t.secs ≥ 253402300800 then .panic
  else
    let n := t.secs.toNat
    let secsOfDay := n % 86400
    let (year, month, mday, wd) := civil ((n / 86400 : Nat) : Int)
    .ok ⟨secsOfDay % 60, secsOfDay % 3600 / 60, secsOfDay / 3600, mday.toNat, month.toNat,
      year.toNat, wd.toNat⟩

/-- The weekday names of `Display`, src/utils/date.rs:347-356. -/
def dayName : Nat → Res Str
  | 1 => .ok s!!"Mon" | 2 => .ok s!!"Tue" | 3 => .ok s!!"Wed" | 4 => .ok s!!"Thu" | 5 => .ok s!!"Fri"
  | 6 => .ok s!!"Sat" | 7 => .ok s!!"Sun" | _ => .panic

/-- The month names of `Display`, src/utils/date.rs:357-371. -/
def monthName : Nat → Res Str
  | 1 => .ok s!!"Jan" | 2 => .ok s!!"Feb" | 3 => .ok s!!"Mar" | 4 => .ok s!!"Apr" | 5 => .ok s!!"May"
  | 6 => .ok s!!"Jun" | 7 => .ok s!!"Jul" | 8 => .ok s!!"Aug" | 9 => .ok s!!"Sep" | 10 => .ok s!!"Oct"
  | 11 => .ok s!!"Nov" | 12 => .ok s!!"Dec" | _ => .panic

/-- `b'0' + n as u8` as a character, for `n` below 10. -/
def dig (n : Nat) : Char := Char.ofNat (48 + n)

/-- `Display for HttpDate`, src/utils/date.rs:345-398: the 29-byte buffer, position by position. -/
def display (d : HttpDate) : Res Str :=
  (dayName d.weekDay).bind fun w =>
  (monthName d.month).bind fun m =>
  .ok (w ++ [',', ' ', dig (d.day / 10), dig (d.day % 10), ' '] ++ m ++
    [' ', dig (d.year / 1000), dig (d.year / 100 % 10), dig (d.year / 10 % 10), dig (d.year % 10),
     ' ', dig (d.hour / 10), dig (d.hour % 10), ':', dig (d.minute / 10), dig (d.minute % 10), ':',
     dig (d.second / 10), dig (d.second % 10), ' ', 'G', 'M', 'T'])

end HttpDate

/-- `parse_http_date`, src/utils/date.rs:42-47. -/
def parseHttpDate (s : Str) : Res SysTime :=
  ((HttpDate.fromStr s).bind HttpDate.toTime).status 400

/-- `fmt_http_date`, src/utils/date.rs:52-54. -/
def fmtHttpDate (t : SysTime) : Res Str := (HttpDate.ofTime t).bind HttpDate.display

end HT
