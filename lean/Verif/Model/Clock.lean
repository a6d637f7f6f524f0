import Verif.Model.Simple

/-!
What depends on the clock: `src/other/retry_after.rs`, `src/cache/expires.rs`, `src/other/date.rs`. The time
`SystemTime::now()` returns is an argument. Of std (Unix): a `SystemTime` has an `i64` of seconds and nanoseconds below
10^9; addition of a `Duration` panics on overflow of the seconds; subtraction compares first.
-/

namespace HT

namespace SysTime

/-- `SystemTime + Duration`, std: `checked_add` then `expect`. -/
def add (t : SysTime) (d : Duration) : Res SysTime :=
  let s := t.secs + d.secs
  if 2 ^ 63 ≤ s then .panic
  else
    let n := t.nanos + d.nanos
    if 1000000000 ≤ n then (if 2 ^ 63 ≤ s + 1 then .panic else .ok ⟨s + 1, n - 1000000000⟩) else .ok ⟨s, n⟩

/-- Order of `SystemTime`, std: seconds, then nanoseconds. -/
def le (a b : SysTime) : Bool := a.secs < b.secs || (a.secs == b.secs && a.nanos ≤ b.nanos)

/-- `SystemTime::duration_since`, std; `none` is the `SystemTimeError`. -/
def durationSince (t earlier : SysTime) : Option Duration :=
  if earlier.le t then
    if earlier.nanos ≤ t.nanos then some ⟨(t.secs - earlier.secs).toNat, t.nanos - earlier.nanos⟩
    else some ⟨(t.secs - earlier.secs - 1).toNat, t.nanos + 1000000000 - earlier.nanos⟩
  else none

end SysTime

namespace RetryAfter

/-- `From<RetryAfter> for SystemTime`, src/other/retry_after.rs:107-114. -/
def toTime (now : SysTime) : RetryAfter → Res SysTime
  | .dur d => now.add d
  | .at t => .ok t

/-- `RetryAfter::duration_since`, src/other/retry_after.rs:82-89. -/
def durationSince (now : SysTime) (r : RetryAfter) (earlier : SysTime) : Res (Option Duration) :=
  (match r with
    | .dur d => now.add d
    | .at t => .ok t).map fun t => SysTime.durationSince t earlier

end RetryAfter

/-- `Expires::new`, src/cache/expires.rs:43-46; `new_at` and `expiration`, 49-56, are the identity. -/
def Expires.new (now : SysTime) (d : Duration) : Res SysTime := now.add d

/-- `Date::now`, src/other/date.rs:47-51. -/
def Date.now (now : SysTime) : SysTime := now

end HT
