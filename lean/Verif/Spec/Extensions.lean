import Verif.Model.Extensions

/-! Specification of extensions: a slot per type, independent of all others. -/

namespace HT.Spec

variable {κ : Type} [DecidableEq κ] {T : κ → Type}

/-- Effect of a call on the slot of type `k`. -/
def slotStep (k : κ) (s : Option (T k)) : EOp T → Option (T k)
  | .insert k' v => if h : k' = k then some (h ▸ v) else s
  | .modify k' f => if h : k' = k then s.map (fun x => h ▸ f (h.symm ▸ x)) else s
  | .remove k' => if k' = k then none else s
  | .clear => none

/-- The slot of type `k` after a sequence of calls. -/
def slot (k : κ) (ops : List (EOp T)) : Option (T k) := ops.foldl (slotStep k) none

/-- The call is about type `k`. -/
def concerns (k : κ) : EOp T → Bool
  | .insert k' _ | .modify k' _ | .remove k' => decide (k' = k)
  | .clear => true

end HT.Spec
