import Verif.Model.Lists

/-! A browser that clears what it keeps for a site when the site asks for it with Clear-Site-Data. -/

namespace HT.Spec

/-- The browser keeps something of some kind for the site, or the site sends a response. -/
inductive SiteEvent (α : Type) where
  | keeps (k : ClearDirective) (x : α)
  | response (h : Headers)

/-- One event: the header of a response is read with its type, and what it names is removed. -/
def siteStep {α : Type} (st : List (ClearDirective × α)) : SiteEvent α → Res (List (ClearDirective × α))
  | .keeps k x => .ok (st ++ [(k, x)])
  | .response h =>
    match ClearSiteData.fromHeaders h with
    | .ok (some l) => .ok (st.filter fun y => !(l.wildcard || l.entries.contains y.1))
    | .ok none => .ok st
    | .err _ => .ok st
    | .panic => .panic

/-- What the browser has after the events. -/
def browse {α : Type} (es : List (SiteEvent α)) : Res (List (ClearDirective × α)) :=
  es.foldl (fun r e => r.bind fun st => siteStep st e) (.ok [])

/-- How the kinds of data are named in the header. -/
def kindText : ClearDirective → Str
  | .cache => s!!"\"cache\""
  | .cookies => s!!"\"cookies\""
  | .storage => s!!"\"storage\""
  | .executionContexts => s!!"\"executionContexts\""

/-- The response asks to clear this kind of data: an element of the list, on any line, names it or is the wildcard. -/
def AsksFor (h : Headers) (k : ClearDirective) : Prop :=
  ∃ vs v t, h.get s!!"clear-site-data" = some vs ∧ v ∈ vs ∧ t ∈ split ',' v ∧ (trim t = s!!"\"*\"" ∨ trim t = kindText k)

/-- Every element of the list is the wildcard or names a kind of data. -/
def NamesKnown (h : Headers) : Prop :=
  ∀ vs v t, h.get s!!"clear-site-data" = some vs → v ∈ vs → t ∈ split ',' v →
    trim t = s!!"\"*\"" ∨ ∃ k, trim t = kindText k

/-- It was kept, and no response since asked to clear its kind. -/
def StillThere {α : Type} (es : List (SiteEvent α)) (k : ClearDirective) (x : α) : Prop :=
  ∃ before after, es = before ++ .keeps k x :: after ∧ ∀ h, .response h ∈ after → ¬ AsksFor h k

end HT.Spec
