import Verif.Spec.Clock

/-! A server tells a client when to come back, and the client waits as long as it was told. -/

namespace HT.Spec

/-- The times of one exchange, on one clock: the server says when to come back, the client asks how long to wait, the clock
is read to answer that, and the client starts to wait. -/
structure Clocks where
  said : SysTime
  asked : SysTime
  read : SysTime
  asleep : SysTime

/-- Time goes on, and none of the times is out of range. -/
structure Clocks.Ordered (c : Clocks) : Prop where
  said : Time c.said
  asked : Time c.asked
  read : Time c.read
  asleep : Time c.asleep
  first : inst c.said ≤ inst c.asked
  second : inst c.asked ≤ inst c.read
  third : inst c.read ≤ inst c.asleep

/-- When the client is back: it waits as long as the header that it reads tells it, and not at all if that is past or
nothing is said. -/
def comesBack (c : Clocks) (r : RetryAfter) (resp : Headers) : Res Int :=
  (applyHeader resp s!!"retry-after" r.value).bind fun h =>
    (RetryAfter.fromHeaders h).bind fun
      | none => .ok (inst c.asleep)
      | some r' => (r'.durationSince c.read c.asked).map fun
        | none => inst c.asleep
        | some d => inst c.asleep + len d

/-- A delay of the standard library, or a time whose year has four digits. -/
def Sayable : RetryAfter → Prop
  | .dur d => d.secs < 2 ^ 64 ∧ d.nanos < 1000000000
  | .at t => 0 ≤ t.secs ∧ t.secs ≤ 253402300799 ∧ t.nanos < 1000000000

/-- It is a whole number of seconds. -/
def WholeSeconds : RetryAfter → Prop
  | .dur d => d.nanos = 0
  | .at t => t.nanos = 0

end HT.Spec
