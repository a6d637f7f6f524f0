import Verif.Spec.Clock
import Verif.Spec.Lists
import Verif.Spec.Typed

/-! An answer goes through caches, each of which adds to `Age` how long it kept the answer; a cache uses the answer again as long
as it is younger than the server allows. -/

namespace HT.Spec

/-- Two durations together. -/
def plus (a b : Duration) : Duration := ⟨(len a + len b) / 1000000000, (len a + len b) % 1000000000⟩

/-- A cache passes an answer on after it kept it for `stay`. -/
def keptFor (stay : Duration) (resp : Headers) : Res Headers :=
  (Age.fromHeaders resp).bind fun age => applyHeader resp s!!"age" (Age.value (plus (age.getD ⟨0, 0⟩) stay))

/-- Caches one after another. -/
def throughCaches : List Duration → Headers → Res Headers
  | [], resp => .ok resp
  | stay :: stays, resp => (keptFor stay resp).bind (throughCaches stays)

/-- The duration of an `s-maxage`. -/
def sharedAge : CacheDirective → Option Duration
  | .sMaxAge d => some d
  | _ => none

/-- The duration of a `max-age`. -/
def ownAge : CacheDirective → Option Duration
  | .maxAge d => some d
  | _ => none

/-- How long a shared cache may use an answer: as `s-maxage` says, otherwise as `max-age` says. -/
def lifetime (ds : List CacheDirective) : Option Duration :=
  (ds.findSome? sharedAge).or (ds.findSome? ownAge)

/-- Whether a cache that got the answer `resp` a time `stay` ago still uses it. -/
def stillUses (resp : Headers) (stay : Duration) : Res Bool :=
  (CacheControl.fromHeaders resp).bind fun ds => (Age.fromHeaders resp).map fun age =>
    match lifetime (ds.getD []) with
    | some m => decide (len (age.getD ⟨0, 0⟩) + len stay < len m)
    | none => false

/-- How long all the caches kept the answer, in nanoseconds. -/
def elapsed (stays : List Duration) : Nat := (stays.map len).sum

/-- A server lets its answer be cached as `ds` says; it goes through caches that keep it for `stays`, to one that got it a time
`last` ago. Whether that one still uses it. -/
def usedAfter (ds : List CacheDirective) (resp : Headers) (stays : List Duration) (last : Duration) : Res Bool :=
  (applyHeader resp s!!"cache-control" (CacheControl.value ds)).bind fun resp =>
    (throughCaches stays resp).bind fun resp => stillUses resp last

end HT.Spec
