import Verif.Spec.Fresh

/-! A server says with `Expires` when its answer expires; caches use it until then, going by their own clock, or by how long the
answer was valid when it was made and how old it is. -/

namespace HT.Spec

/-- The server makes an answer at the time `now` that expires at the time `till`. -/
def expiring (now till : SysTime) (resp : Headers) : Res Headers :=
  (applyHeader resp s!!"date" (DateHeader.date.value now)).bind fun r => applyHeader r s!!"expires" (DateHeader.expires.value till)

/-- A date that cannot be read is none. -/
def readable {α : Type} : Res (Option α) → Res (Option α)
  | .err _ => .ok none
  | r => r

/-- Whether a cache whose clock shows `clock` uses the answer, when it compares with `Expires`. An answer from which no date can
be read is not used. -/
def usesByClock (resp : Headers) (clock : SysTime) : Res Bool :=
  (readable (DateHeader.expires.fromHeaders resp)).map fun e =>
    match e with
    | some e => decide (inst clock < inst e)
    | none => false

/-- Whether a cache that got the answer a time `stay` ago uses it, when it takes the time from `Date` to `Expires` for its
lifetime. -/
def usesByAge (resp : Headers) (stay : Duration) : Res Bool :=
  (readable (DateHeader.expires.fromHeaders resp)).bind fun e =>
    match e with
    | none => .ok false
    | some e => (readable (DateHeader.date.fromHeaders resp)).bind fun d =>
      match d with
      | none => .ok false
      | some d => (readable (Age.fromHeaders resp)).map fun age =>
        decide ((len (age.getD ⟨0, 0⟩) + len stay : Nat) < inst e - inst d)

/-- A time from 1970 to 9999. -/
def Dateable (t : SysTime) : Prop := 0 ≤ t.secs ∧ t.secs ≤ 253402300799 ∧ t.nanos < 1000000000

end HT.Spec
