import Verif.Model.Headers

/-! A list header sent in several field lines or in one (RFC 7230 section 3.2.2). -/

namespace HT.Spec

/-- `Joined vs v`: `v` is the field values `vs` in one line, each comma followed by any whitespace. -/
inductive Joined : List Str → Str → Prop where
  | one (v : Str) : Joined [v] v
  | cons {v w rest : Str} {vs : List Str} : (∀ c ∈ w, isWs c = true) → Joined vs rest →
      Joined (v :: vs) (v ++ ',' :: (w ++ rest))

/-- Two collections hold the field `n` in several lines and in one. -/
def SameList (n : HeaderName) (h h' : Headers) : Prop :=
  ∃ vs v, Joined vs v ∧ h.get n = some vs ∧ h'.get n = some [v]

end HT.Spec
