import Verif.Spec.Validators

/-! Several clients change one document. The server gives the tag of the present version with every response, and
accepts a change only if the request's `If-Match` names the tag of the present version. -/

namespace HT.Spec

/-- What happens at the server: a client reads the document (`resp` are the headers the response has besides the tag); a
client sends a change with the tag it learned last (`req` are the other headers of the request); or the document is
changed in some other way. -/
inductive Act where
  | read (client : Nat) (resp : Headers)
  | change (client : Nat) (req : Headers)
  | other
deriving DecidableEq

/-- The version of the document, the tag that each client learned last, the version it belonged to, and the changes
that were accepted: for each the version that its client had read, and the version that it replaced. -/
structure Document where
  version : Nat
  held : Nat → Option ETag
  base : Nat → Option Nat
  accepted : List (Option Nat × Nat)

def Document.new : Document := ⟨0, fun _ => none, fun _ => none, []⟩

/-- Write one value into a function. -/
def setAt {α : Type} (f : Nat → α) (k : Nat) (a : α) : Nat → α := fun i => if i = k then a else f i

/-- The server reads the `If-Match` of a request in which the client named the tag `e`, and compares it with `current`. A
request from which it cannot read the header is refused. -/
def lets (current e : ETag) (req : Headers) : Bool :=
  match (applyHeader req s!!"if-match" (IfMatch.value ⟨[e], false⟩)).bind IfMatch.fromHeaders with
  | .ok (some l) => l.wildcard || l.entries.contains current
  | _ => false

/-- One step. `tag` gives the tag of each version. -/
def Document.step (tag : Nat → ETag) (d : Document) : Act → Document
  | .read k resp =>
    match learnTag (tag d.version) resp with
    | .ok (some e) => { d with held := setAt d.held k (some e), base := setAt d.base k (some d.version) }
    | _ => d
  | .change k req =>
    match d.held k with
    | none => d
    | some e =>
      if lets (tag d.version) e req then
        { d with version := d.version + 1, accepted := d.accepted ++ [(d.base k, d.version)] }
      else d
  | .other => { d with version := d.version + 1 }

/-- What has happened after the acts. -/
def Document.run (tag : Nat → ETag) (acts : List Act) : Document := acts.foldl (Document.step tag) .new

/-- No change is lost: every accepted change was made by a client that had read the version which it replaced. -/
def NothingLost (d : Document) : Prop := ∀ p ∈ d.accepted, p.1 = some p.2

/-- A tag that makes the way to the client and back. -/
def RoundTag (e : ETag) : Prop := EtagLegal e ∧ ',' ∉ etagBody e

end HT.Spec
