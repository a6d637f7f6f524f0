import Verif.Spec.Typed
import Verif.Spec.Lists
import Verif.Model.Build

/-! A server says in `Vary` on which fields of the request its answer depends, and a cache in between answers a later
request with the stored answer if these fields are the same. -/

namespace HT.Spec

/-- What can be looked up in the headers of a request, by names in any spelling. -/
abbrev Lookups := Str → Res (Option (List Str))

/-- What the server makes of a request depends on the fields in `deps` only. -/
def DependsOn {α : Type} (deps : List Str) (page : Lookups → α) : Prop :=
  ∀ f g : Lookups, (∀ d ∈ deps, f d = g d) → page f = page g

/-- The names pushed one after another to a list. -/
def pushAll : List Str → StarList HeaderName → Res (StarList HeaderName)
  | [], l => .ok l
  | d :: ds, l => (Vary.pushStr l d).bind (pushAll ds)

/-- The response headers `resp` with a `Vary` that names the fields in `deps`, and the wildcard if `star`. -/
def varying (deps : List Str) (star : Bool) (resp : Headers) : Res Headers :=
  (pushAll deps StarList.new).bind fun l => applyHeader resp s!!"vary" (Vary.value (l.step (.setWildcard star)))

/-- Whether the cache answers the request `req` with the response `resp` that it has stored for the request `old`: not if it
varies with everything, and otherwise if the two requests have the same values for each name. -/
def reuses (resp old req : Headers) : Res Bool :=
  (Vary.fromHeaders resp).map fun
    | none => true
    | some l => !l.wildcard && l.entries.all fun n => decide (old.get n = req.get n)

/-- Every later request that is answered from the cache gets what the server would have made of it. -/
def CacheRight (deps : List Str) (star : Bool) (resp : Headers) : Prop :=
  ∃ resp', varying deps star resp = .ok resp' ∧
    ∀ (α : Type) (page : Lookups → α), DependsOn deps page → ∀ old req : Headers,
      reuses resp' old req = .ok true → page old.getStr = page req.getStr

end HT.Spec
