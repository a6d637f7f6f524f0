import Verif.Model.Simple
import Verif.Model.Compare

/-! Clients keep a document with the date of its last change. They ask for it with `If-Modified-Since` and change it with
`If-Unmodified-Since`; the server gives the date of the present version in `Last-Modified`. -/

namespace HT.Spec

/-- Whether the document, changed last at the first time, counts as unchanged since the second. -/
abbrev Unchanged := SysTime → SysTime → Bool

/-- Compare the times as they are. -/
def exactly : Unchanged := fun m since => m.cmp since != .gt

/-- Compare them by the second. -/
def bySecond : Unchanged := fun m since => decide (m.secs ≤ since.secs)

/-- Under which name a date is sent. -/
def dateField : DateHeader → Str
  | .date => s!!"date"
  | .expires => s!!"expires"
  | .lastModified => s!!"last-modified"
  | .ifModifiedSince => s!!"if-modified-since"
  | .ifUnmodifiedSince => s!!"if-unmodified-since"

/-- The date that is read at the other end, if any, when `t` is sent among the headers `h`. -/
def carry (d : DateHeader) (t : SysTime) (h : Headers) : Option SysTime :=
  match (applyHeader h (dateField d) (d.value t)).bind d.fromHeaders with
  | .ok x => x
  | _ => none

/-- A client asks for the document, or changes it (`req` and `resp` are the other headers of the request and of the
response); or it is changed in another way. -/
inductive Turn where
  | fetch (client : Nat) (req resp : Headers)
  | put (client : Nat) (req : Headers)
  | other

/-- The version of the document; for each client the date that it read last and the version it has for it. For every request
for the document, `shown` has the version that the client showed, the version there was, and whether the document was sent;
for every accepted change, `accepted` has the version that the client had and the one that was replaced. -/
structure Dated where
  version : Nat
  held : Nat → Option (SysTime × Nat)
  shown : List (Nat × Nat × Bool)
  accepted : List (Nat × Nat)

def Dated.new : Dated := ⟨0, fun _ => none, [], []⟩

/-- The document is sent, with the date. -/
def Dated.send (time : Nat → SysTime) (d : Dated) (k : Nat) (resp : Headers) : Dated :=
  { d with
    held := fun i => if i = k then (carry .lastModified (time d.version) resp).map (·, d.version) else d.held i
    shown := d.shown ++ [(d.version, d.version, true)] }

/-- One step. `time` gives the time at which each version was made. A client without a date asks without condition, and
changes nothing; a request whose date cannot be read gets the document, and changes nothing. -/
def Dated.step (unchanged : Unchanged) (time : Nat → SysTime) (d : Dated) : Turn → Dated
  | .fetch k req resp =>
    match d.held k with
    | none => d.send time k resp
    | some (t, v) =>
      match carry .ifModifiedSince t req with
      | none => d.send time k resp
      | some since =>
        if unchanged (time d.version) since then { d with shown := d.shown ++ [(v, d.version, false)] }
        else d.send time k resp
  | .put k req =>
    match d.held k with
    | none => d
    | some (t, v) =>
      match carry .ifUnmodifiedSince t req with
      | none => d
      | some since =>
        if unchanged (time d.version) since then
          { d with version := d.version + 1, accepted := d.accepted ++ [(v, d.version)] }
        else d
  | .other => { d with version := d.version + 1 }

def Dated.run (unchanged : Unchanged) (time : Nat → SysTime) (turns : List Turn) : Dated :=
  turns.foldl (Dated.step unchanged time) .new

/-- Clients always show the document as it is, up to version `last`. -/
def ShowsPresent (unchanged : Unchanged) (time : Nat → SysTime) (last : Nat) : Prop :=
  ∀ turns, ∀ p ∈ (Dated.run unchanged time turns).shown, p.2.1 ≤ last → p.1 = p.2.1

/-- Only clients that have the version that they replace change the document, up to version `last`. -/
def LosesNothing (unchanged : Unchanged) (time : Nat → SysTime) (last : Nat) : Prop :=
  ∀ turns, ∀ p ∈ (Dated.run unchanged time turns).accepted, p.2 ≤ last → p.1 = p.2

/-- The versions up to `last` are made one after the other, between 1970 and 9999. -/
structure Calendar (time : Nat → SysTime) (last : Nat) : Prop where
  nanos : ∀ n, n ≤ last → (time n).nanos < 1000000000
  from1970 : ∀ n, n ≤ last → 0 ≤ (time n).secs
  to9999 : ∀ n, n ≤ last → (time n).secs ≤ 253402300799
  order : ∀ n, n < last → (time n).secs < (time (n + 1)).secs ∨
    (time n).secs = (time (n + 1)).secs ∧ (time n).nanos ≤ (time (n + 1)).nanos

end HT.Spec
