import Verif.Spec.Validators

/-! A client keeps the versions of a document that it got, with their tags, and sends all the tags in `If-None-Match` when it
wants to see the document again. The server sends the document only if none of them is the present one. -/

namespace HT.Spec

/-- The client asks for the document (`req` and `resp` are the other headers of the request and of the response), or the
document is changed. -/
inductive Visit where
  | fetch (req resp : Headers)
  | change
deriving DecidableEq

/-- The version of the document, and what the client keeps: versions and their tags. For every time that it asked, `seen`
has the version that it showed, the version there was, and whether the document was sent. -/
structure Site where
  version : Nat
  cache : List (ETag × Nat)
  seen : List (Option Nat × Nat × Bool)
deriving DecidableEq

def Site.new : Site := ⟨0, [], []⟩

/-- Whether the server finds the tag of the present version among those in the request. A request with a header that it
cannot read is answered like one without. -/
def unchanged (current : ETag) (tags : List ETag) (req : Headers) : Bool :=
  match (applyHeader req s!!"if-none-match" (IfMatch.value ⟨tags, false⟩)).bind IfMatch.noneFromHeaders with
  | .ok (some l) => l.entries.contains current
  | _ => false

/-- The version that the client has for a tag. -/
def kept (cache : List (ETag × Nat)) (e : ETag) : Option Nat := (cache.find? fun p => p.1 = e).map Prod.snd

/-- One step. The tag is in every response. If the document is not sent, the client shows the version that it has for the
tag of the response. If it is sent, the client shows it, and keeps it if it can read the tag. -/
def Site.step (tag : Nat → ETag) (s : Site) : Visit → Site
  | .change => { s with version := s.version + 1 }
  | .fetch req resp =>
    let learned := match learnTag (tag s.version) resp with
      | .ok (some e) => some e
      | _ => none
    if s.cache ≠ [] ∧ unchanged (tag s.version) (s.cache.map Prod.fst) req = true then
      { s with seen := s.seen ++ [(learned.bind (kept s.cache), s.version, false)] }
    else
      { s with
        cache := s.cache ++ (learned.map fun e => (e, s.version)).toList
        seen := s.seen ++ [(some s.version, s.version, true)] }

def Site.run (tag : Nat → ETag) (visits : List Visit) : Site := visits.foldl (Site.step tag) .new

/-- The client always showed the document as it was. -/
def AlwaysRight (s : Site) : Prop := ∀ p ∈ s.seen, p.1 = some p.2.1

end HT.Spec
