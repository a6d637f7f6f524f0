import Verif.Spec.Lists
import Verif.Model.Simple

/-! A server gives out validators with its responses, and a client sends them back to ask whether they still hold. -/

namespace HT.Spec

/-- What the client learns from a response with the headers `resp` into which the server wrote the tag `e`. -/
def learnTag (e : ETag) (resp : Headers) : Res (Option ETag) :=
  (applyHeader resp s!!"etag" (ETag.value e)).bind ETag.fromHeaders

/-- The client sends the tags it learned from the responses `given`, in order, in `If-None-Match` (or `If-Match`); what the
server reads. -/
def sendTags (none : Bool) (given : List (ETag × Headers)) (req : Headers) : Res (Option (StarList ETag)) :=
  (Res.mapM (fun p => learnTag p.1 p.2) given).bind fun os =>
    (applyHeader req (if none then s!!"if-none-match" else s!!"if-match")
      (IfMatch.value ⟨os.filterMap id, false⟩)).bind
        (if none then IfMatch.noneFromHeaders else IfMatch.fromHeaders)

/-- The client sends the time that it learned from `Last-Modified` in the header `d`; what the server reads. -/
def sendDate (d : DateHeader) (t : SysTime) (resp req : Headers) : Res (Option SysTime) :=
  (applyHeader resp s!!"last-modified" (DateHeader.value .lastModified t)).bind fun h =>
    (DateHeader.fromHeaders .lastModified h).bind fun
      | none => .ok none
      | some t' => (applyHeader req d.name (d.value t')).bind d.fromHeaders

/-- The time is before the other. -/
def Before (a b : SysTime) : Prop := a.secs < b.secs ∨ (a.secs = b.secs ∧ a.nanos < b.nanos)

end HT.Spec
