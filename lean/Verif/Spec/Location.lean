import Verif.Model.Location

/-! What the headers with one URL should mean. -/

namespace HT.Spec
variable {Url : Type}

/-- `v` is `t` with blanks around it, and `t` neither begins nor ends with a blank. -/
def Around (v t : Str) : Prop :=
  ∃ w w', v = w ++ t ++ w' ∧ (∀ c ∈ w, isWs c = true) ∧ (∀ c ∈ w', isWs c = true) ∧
    (∀ c, t.head? = some c → isWs c = false) ∧ (∀ c, t.getLast? = some c → isWs c = false)

/-- The reference `v`, resolved against the base. -/
def RefersTo (L : UrlLib Url) (base : Option Url) (v : Str) (u : Url) : Prop :=
  ∃ b t, base = some b ∧ Around v t ∧ L.join b t = some u

/-- A URL that is printed in ASCII without blanks at the ends and that the library reads back from its text, both
by itself and as a reference against any base. -/
structure Printable (L : UrlLib Url) (u : Url) : Prop where
  ascii : ∀ c ∈ L.display u, c.toNat < 128
  trimmed : Around (L.display u) (L.display u)
  parse : L.parse (L.display u) = some u
  join : ∀ b, L.join b (L.display u) = some u

end HT.Spec
