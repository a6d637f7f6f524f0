import Verif.Spec.WrittenPrefs
import Verif.Spec.Timings

/-!
What other implementations read from a Server-Timing header (W3C Server Timing): durations are double precision numbers
of milliseconds.
-/

namespace HT.Spec

/-- What is read of a metric; the duration in units of 2^-1074 milliseconds. -/
structure ReadMetric where
  name : Str
  dur : Option Nat
  desc : Option Str

/-- A metric as written and what is read of it: of each parameter name the first one counts. -/
def MetricText (t : Str) (x : ReadMetric) : Prop :=
  ∃ r ps, t = x.name ++ r ∧ Token x.name ∧ TimingArgs r ps ∧
    (match ps.find? fun p => p.name = s!!"dur" with
      | none => x.dur = none
      | some p => ∃ a k m, MillisText p.value a k ∧ NearestFloat f64Format false a (10 ^ k) (.fin false m) ∧ x.dur = some m) ∧
    x.desc = (ps.find? fun p => p.name = s!!"desc").map TimingArg.value

/-- The nanoseconds of a duration. -/
def Duration.all (d : Duration) : Nat := d.secs * 1000000000 + d.nanos

/-- `q` units of 2^-1074 milliseconds are the duration, up to one part in 2^50. -/
def CloseTo (d : Duration) (q : Nat) : Prop :=
  2 ^ 50 * gap (q * 1000000) (2 ^ 1074 * Duration.all d) ≤ 2 ^ 1074 * Duration.all d

/-- What others shall read of a metric. -/
def SameMetric (m : Metric) (x : ReadMetric) : Prop :=
  x.name = m.name ∧ x.desc = m.desc ∧ match m.dur with
    | none => x.dur = none
    | some d => ∃ q, x.dur = some q ∧ CloseTo d q

/-- The name is a token, the description can be quoted as it is. -/
def QuotableMetric (m : Metric) : Prop :=
  Token m.name ∧ ∀ t, m.desc = some t → ∀ c ∈ t, QuotedChar c ∧ c ≠ '"' ∧ c ≠ '\\'

end HT.Spec
