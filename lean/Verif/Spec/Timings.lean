import Verif.Spec.Listed
import Verif.Spec.ServerTiming

/-! Server-Timing by its W3C specification, the grammar of which is quoted in src/trace/server_timing/parse.rs. -/

namespace HT.Spec

/-- A parameter: its name, its value, the value as written, and whether a blank follows it. -/
structure TimingArg where
  name : Str
  value : Str
  raw : Str
  spaced : Bool

/-- Whether something other than a semicolon comes next. -/
def blankNext : Str → Bool
  | [] => false
  | c :: _ => c != ';'

/-- `*( OWS ";" OWS token OWS "=" OWS ( token / quoted-string ) )`. -/
inductive TimingArgs : Str → List TimingArg → Prop where
  | nil : TimingArgs [] []
  | cons {a b n c d raw v rest ps} : Ows a → Ows b → Token n → Ows c → Ows d → ValueText raw v → TimingArgs rest ps →
      TimingArgs (a ++ ';' :: (b ++ (n ++ (c ++ '=' :: (d ++ (raw ++ rest))))))
        (⟨n, v, raw, blankNext rest⟩ :: ps)

/-- `1*DIGIT [ "." 1*DIGIT ]`: the number `a / 10^k`. -/
inductive MillisText : Str → Nat → Nat → Prop where
  | whole {i} : i ≠ [] → Digits i → MillisText i (decValue i) 0
  | point {i f} : i ≠ [] → f ≠ [] → Digits i → Digits f → MillisText (i ++ '.' :: f) (decValue (i ++ f)) f.length

/-- The duration of `a / 10^k` milliseconds, in whole nanoseconds. -/
def durationOf (a k : Nat) : Duration :=
  ⟨a * 1000000 / 10 ^ k / 1000000000, a * 1000000 / 10 ^ k % 1000000000⟩

/-- What the parameters of a metric mean: of each name the first one counts. -/
structure TimingMeans (ps : List TimingArg) (m : Metric) : Prop where
  dur : match ps.find? fun p => p.name = s!!"dur" with
    | none => m.dur = none
    | some p => ∃ a k, MillisText p.value a k ∧ m.dur = some (durationOf a k)
  desc : m.desc = (ps.find? fun p => p.name = s!!"desc").map TimingArg.value

/-- A metric as written, its parameters and its meaning. -/
def TimingText (t : Str) (x : List TimingArg × Metric) : Prop :=
  ∃ r, t = x.2.name ++ r ∧ Token x.2.name ∧ TimingArgs r x.1 ∧ TimingMeans x.1 x.2

/-- No separator is quoted; `dur` and `desc` are given once and no blank follows them; a description has no equals sign
and no escape; a duration is not quoted, is below 2^23 milliseconds and has at most nine decimals. -/
structure PlainArgs (ps : List TimingArg) : Prop where
  once : ps.Pairwise fun p q => p.name = q.name → p.name ≠ s!!"dur" ∧ p.name ≠ s!!"desc"
  seps : ∀ p ∈ ps, ',' ∉ p.raw ∧ ';' ∉ p.raw
  desc : ∀ p ∈ ps, p.name = s!!"desc" → p.spaced = false ∧ '=' ∉ p.raw ∧ '\\' ∉ p.raw
  dur : ∀ p ∈ ps, p.name = s!!"dur" → p.spaced = false ∧ p.raw = p.value ∧
    ∃ a k, MillisText p.value a k ∧ a < 2 ^ 23 * 10 ^ k ∧ k ≤ 9

end HT.Spec
