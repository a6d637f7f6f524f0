import Verif.Spec.Typed
import Verif.Spec.Lists
import Verif.Spec.Float
import Verif.Model.Content

/-! What weights, orders and negotiation mean. -/

namespace HT.Spec

/-- A weight between 0 and 1 (one unit is 2^-149). -/
def UnitWeight (x : Fl) : Prop := ∃ m, m ≤ 2 ^ 149 ∧ x = .fin false m

/-- The proposal has no weight or one between 0 and 1. -/
def WeightOk {α : Type} (p : Proposal α) : Prop := ∀ x, p.weight = some x → UnitWeight x

/-- How much a weight counts: none counts least, then 0 and up. -/
def worth : Option Fl → Nat
  | some (.fin false m) => m + 1
  | _ => 0

/-- Position `i` goes before position `j`: more weight, or the same weight and given later. -/
def Outranks {α : Type} (ps : List (Proposal α)) (i j : Nat) : Prop :=
  ∃ p q, ps[i]? = some p ∧ ps[j]? = some q ∧
    (worth q.weight < worth p.weight ∨ worth q.weight = worth p.weight ∧ j < i)

/-- `out` lists `ps` in the order of the positions `order`. -/
def Arranges {α : Type} (ps : List (Proposal α)) (order : List Nat) (out : List (Proposal α)) : Prop :=
  order.Perm (List.range ps.length) ∧ out.map some = order.map (ps[·]?)

/-- Position `i` holds `p`, which satisfies `ok` and outranks every other position that does. -/
def Best {α : Type} (ps : List (Proposal α)) (ok : α → Prop) (i : Nat) (p : Proposal α) : Prop :=
  ps[i]? = some p ∧ ok p.item ∧
    ∀ j q, ps[j]? = some q → ok q.item → j = i ∨ Outranks ps i j

/-- The 32-bit float of the decimal fraction `k / 1000`. -/
def thousandths (k : Nat) : Fl := Fl.round f32Format false k 1000

/-- A weight with at most three decimals, or none. -/
def ThreeDecimals (w : Option Fl) : Prop := ∀ x, w = some x → ∃ k, k ≤ 1000 ∧ x = thousandths k

/-- `p'` is `p` with its weight rounded to three decimals: off by at most half a thousandth, before rounding
to a float. -/
def Rounded {α : Type} (p p' : Proposal α) : Prop :=
  p'.item = p.item ∧
    (p.weight = none ∧ p'.weight = none ∨
      ∃ m k, p.weight = some (.fin false m) ∧ k ≤ 1000 ∧ p'.weight = some (thousandths k) ∧
        2 * gap (m * 1000) (2 ^ 149 * k) ≤ 2 ^ 149)

/-- The text of a weight parameter: `q=NUMBER`, anything after a second `=` being ignored. -/
def WeightText (s : Str) (x : Fl) : Prop :=
  ∃ t rest, split '=' s = s!!"q" :: t :: rest ∧ NumberText f32Format t x

/-- `m` is the first of the list that the pattern `pat` covers. -/
def FirstCovered (available : List Mime) (pat m : Mime) : Prop :=
  ∃ before after, available = before ++ m :: after ∧ m.subsetEq pat = true ∧ ∀ x ∈ before, x.subsetEq pat = false

/-- The proposal has a weight above 0. -/
def Positive {α : Type} (p : Proposal α) : Prop := ∃ m, 0 < m ∧ p.weight = some (.fin false m)

/-- All proposals count differently. -/
def DistinctWorth {α : Type} (ps : List (Proposal α)) : Prop := (ps.map fun p => worth p.weight).Nodup

end HT.Spec
