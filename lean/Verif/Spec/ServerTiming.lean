import Verif.Model.ServerTiming
import Verif.Spec.Float
import Verif.Spec.Headers
import Verif.Spec.Lists
import Verif.Spec.Typed

/-! What a Server-Timing header says. -/

namespace HT.Spec

/-- A parameter `key = value`: blanks around the key and before the value are ignored, and so is everything
from a second equals sign on. -/
def Shape (p k v : Str) : Prop :=
  ∃ w w' w'' rest, p = w ++ k ++ w' ++ '=' :: (w'' ++ v ++ rest) ∧
    (∀ c ∈ w, isWs c = true) ∧ (∀ c ∈ w', isWs c = true) ∧ (∀ c ∈ w'', isWs c = true) ∧
    '=' ∉ k ∧ '=' ∉ v ∧ (rest = [] ∨ rest.head? = some '=') ∧
    (∀ c, k.head? = some c → isWs c = false) ∧ (∀ c, k.getLast? = some c → isWs c = false) ∧
    (∀ c, v.head? = some c → isWs c = false)

/-- `r` is the whole number nearest to `a / b`, the even one of two. -/
def NearestWhole (a b r : Nat) : Prop := 2 * gap a (b * r) ≤ b ∧ (2 * gap a (b * r) = b → r % 2 = 0)

/-- The nanoseconds of a number of milliseconds: rounded to the nearest picosecond, then down. -/
def MillisAre : Fl → Duration → Prop
  | .fin neg m, d => (neg = false ∨ m = 0) ∧ m < 2 ^ 64 * 2 ^ 1074 ∧ d.nanos < 1000000000 ∧
      ∃ r, NearestWhole (m * 1000000000) (2 ^ 1074) r ∧ d.secs * 1000000000 + d.nanos = r / 1000
  | _, _ => False

/-- Not a number of milliseconds a duration can have. -/
def NotMillis : Fl → Prop
  | .fin neg m => (neg = true ∧ m ≠ 0) ∨ 2 ^ 64 * 2 ^ 1074 ≤ m
  | _ => True

/-- What a parameter says. -/
inductive Said where
  | dur (d : Duration)
  | desc (t : Str)
  | other
  deriving DecidableEq

/-- The meaning of a parameter. -/
def TimingParam (p : Str) (s : Said) : Prop :=
  ∃ k v, Shape p k v ∧
    ((k = s!!"dur" ∧ ∃ x d, NumberText f64Format v x ∧ MillisAre x d ∧ s = .dur d) ∨
     (k = s!!"desc" ∧ ∃ t, s = .desc t ∧
        (v = s!!"\"" ++ t ++ s!!"\"" ∨ (v = t ∧ t.head? ≠ some '"' ∧ t.getLast? ≠ some '"'))) ∨
     (k ≠ s!!"dur" ∧ k ≠ s!!"desc" ∧ s = .other))

/-- A duration parameter with a number that is no duration. -/
def BadDur (p : Str) : Prop :=
  ∃ v x, Shape p s!!"dur" v ∧ NumberText f64Format v x ∧ NotMillis x

/-- The last duration and the last description count. -/
def lastDur (ss : List Said) : Option Duration :=
  (ss.filterMap fun s => match s with | .dur d => some d | _ => none).getLast?
def lastDesc (ss : List Said) : Option Str :=
  (ss.filterMap fun s => match s with | .desc t => some t | _ => none).getLast?

/-- The meaning of one entry (without surrounding blanks). -/
def EntryText (e : Str) (m : Metric) : Prop :=
  ∃ n ps ss, split ';' e = n :: ps ∧ List.Forall₂ TimingParam ps ss ∧ m.name = trimEnd n ∧
    m.dur = lastDur ss ∧ m.desc = lastDesc ss

/-- An entry whose first unreadable parameter is a duration that is none. -/
def EntryPanics (e : Str) : Prop :=
  ∃ n ps p qs, split ';' e = n :: (ps ++ p :: qs) ∧ (∀ q ∈ ps, ∃ s, TimingParam q s) ∧ BadDur p

/-- The name has no separators and no blanks around it, the description has no separators. -/
def PlainMetric (m : Metric) : Prop :=
  (',' ∉ m.name ∧ ';' ∉ m.name ∧ (∀ c, m.name.head? = some c → isWs c = false) ∧
    (∀ c, m.name.getLast? = some c → isWs c = false)) ∧
  ∀ t, m.desc = some t → ',' ∉ t ∧ ';' ∉ t ∧ '=' ∉ t

/-- The texts of a metric are ASCII and its duration is one. -/
def MetricOk (m : Metric) : Prop :=
  Ascii m.name ∧ (∀ t, m.desc = some t → Ascii t) ∧ ∀ d, m.dur = some d → d.secs < 2 ^ 64 ∧ d.nanos < 1000000000

/-- The duration comes back exactly when it is written with nothing else. -/
def Survives (d : Duration) : Prop :=
  RoundTrips s!!"server-timing" (ServerTiming.value [⟨s!!"a", some d, none⟩]) ServerTiming.fromHeaders
    [⟨s!!"a", some d, none⟩]

end HT.Spec
