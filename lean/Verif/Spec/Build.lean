import Verif.Model.Build

/-! Specification of headers built by method calls. -/

namespace HT.Spec

/-- `v` is what the last call that gives a value gave, or `init` when no call does. `sets` tells what each
call gives. -/
def LastSet {ω β : Type} (sets : ω → Option β) (init : β) (ops : List ω) (v : β) : Prop :=
  (∃ pre op post, ops = pre ++ op :: post ∧ sets op = some v ∧ ∀ o ∈ post, sets o = none) ∨
  (∀ o ∈ ops, sets o = none) ∧ v = init

/-- The items pushed, in order. -/
def pushes {α : Type} : List (ListOp α) → List α
  | [] => []
  | .push a :: ops => a :: pushes ops
  | .edit _ _ :: ops => pushes ops

/-- The calls that concern the items. -/
def listCalls {α : Type} : List (StarOp α) → List (ListOp α)
  | [] => []
  | .list op :: ops => op :: listCalls ops
  | .setWildcard _ :: ops => listCalls ops

/-- The wildcard flag a call gives. -/
def givesWildcard {α : Type} : StarOp α → Option Bool
  | .setWildcard b => some b
  | .list _ => none

/-- The items after a sequence of calls on `init`: as many as there were and were pushed, each one the last
value written to its place, or what was there or was pushed if none was written since. -/
def Built {α : Type} (init : List α) (ops : List (ListOp α)) (xs : List α) : Prop :=
  xs.length = init.length + (pushes ops).length ∧
  ∀ i, (∃ pre a post, ops = pre ++ .edit i a :: post ∧ i < init.length + (pushes pre).length ∧
      (∀ b, .edit i b ∉ post) ∧ xs[i]? = some a) ∨
    (∀ pre a post, ops = pre ++ .edit i a :: post → init.length + (pushes pre).length ≤ i) ∧
      xs[i]? = (init ++ pushes ops)[i]?

/-- The proposals pushed, in order. -/
def proposals {α : Type} (ops : List (AcceptOp α)) : List (Proposal α) :=
  ops.filterMap fun | .push p => some p | _ => none

/-- The wildcard flag a call gives. -/
def acceptWildcard {α : Type} : AcceptOp α → Option Bool
  | .setWildcard b => some b
  | _ => none

/-- The weights of the proposals pushed, in order. -/
def pushedWeights {α : Type} (ops : List (AcceptEdit α)) : List (Option Fl) :=
  ops.filterMap fun | .call (.push p) => some p.weight | _ => none

/-- The proposals given as a whole. -/
def given {α : Type} (ops : List (AcceptEdit α)) : List (Proposal α) :=
  ops.filterMap fun | .call (.push p) => some p | .whole _ p => some p | _ => none

/-- The wildcard flag a call gives. -/
def editWildcard {α : Type} : AcceptEdit α → Option Bool
  | .call op => acceptWildcard op
  | _ => none

end HT.Spec
