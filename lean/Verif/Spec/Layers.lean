import Verif.Spec.Typed
import Verif.Model.Build

/-! Layers of an application that take a list header out of a message one after another, change it and put it back. -/

namespace HT.Spec

variable {L : Type}

/-- Each layer reads the header, or starts with an empty list if there is none, changes the list and writes it. -/
def layered (name : HeaderName) (value : L → Res HeaderValue) (read : Headers → Res (Option L)) (empty : L) :
    Headers → List (L → L) → Res Headers
  | h, [] => .ok h
  | h, f :: fs => (read h).bind fun o => (applyHeader h name (value (f (o.getD empty)))).bind fun h' =>
      layered name value read empty h' fs

/-- `P` holds of the list after every one of the layers, as if nothing was written in between. -/
def EachLeaves (P : L → Prop) : L → List (L → L) → Prop
  | _, [] => True
  | l, f :: fs => P (f l) ∧ EachLeaves P (f l) fs

/-- Whatever the layers do, as long as each leaves a list as described by `P`: nothing fails, the next reader gets the list
that the changes give one after another, and the other headers are as before. -/
def Collects (name : HeaderName) (value : L → Res HeaderValue) (read : Headers → Res (Option L)) (empty : L)
    (P : L → Prop) : Prop :=
  ∀ (h : Headers) (o : Option L) (fs : List (L → L)), read h = .ok o → EachLeaves P (o.getD empty) fs →
    ∃ h', layered name value read empty h fs = .ok h' ∧ (∀ n, n ≠ name → h'.get n = h.get n) ∧
      (fs ≠ [] → read h' = .ok (some (fs.foldl (fun l f => f l) (o.getD empty))))

/-- The list has a member or the wildcard. -/
def HasItem {α : Type} (l : StarList α) : Prop := l.entries ≠ [] ∨ l.wildcard = true

/-- Layers that each push the items of a list. -/
def pushing {α : Type} (xss : List (List α)) : List (StarList α → StarList α) :=
  xss.map fun xs l => l.run (xs.map fun x => .list (.push x))

end HT.Spec
