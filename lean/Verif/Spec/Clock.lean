import Verif.Model.Clock

/-! Specification of time arithmetic: everything counted in nanoseconds. -/

namespace HT.Spec

/-- A time in nanoseconds since the epoch. -/
def inst (t : SysTime) : Int := t.secs * 1000000000 + t.nanos

/-- A duration in nanoseconds. -/
def len (d : Duration) : Nat := d.secs * 1000000000 + d.nanos

/-- A legal time: less than a second of nanoseconds, and seconds of 64 bits. -/
def Time (t : SysTime) : Prop := t.nanos < 1000000000 ∧ -2 ^ 63 ≤ t.secs ∧ t.secs < 2 ^ 63

/-- The first time that cannot be represented. -/
def endOfTime : Int := 2 ^ 63 * 1000000000

/-- When to try again, as seen at the time `now`. -/
def retryAt (now : SysTime) : RetryAfter → Int
  | .dur d => inst now + len d
  | .at t => inst t

end HT.Spec
