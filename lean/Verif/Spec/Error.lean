import Verif.Model.Error

/-! Specification of errors and of the early-return macros. -/

namespace HT.Spec
variable {W : ErrTypes}

/-- The layers, outermost first, hold a value of type `t` and `v` is the outermost one. -/
def FirstOf (t : W.Ty) (v : W.Val t) (l : List (ErrVal W)) : Prop :=
  ∃ pre post, l = pre ++ ⟨t, v⟩ :: post ∧ ∀ x ∈ pre, x.1 ≠ t

/-- No layer has type `t`. -/
def Lacks (t : W.Ty) (l : List (ErrVal W)) : Prop := ∀ x ∈ l, x.1 ≠ t

/-- The status code an argument stands for: itself, or the code with that number. -/
def Denotes : StatusArg → StatusCode → Prop
  | .code d, c => d = c
  | .num n, c => c.toNat = n

/-- A call that gives the error the status `c`. -/
def GivesStatus (c : StatusCode) : ErrOp W → Prop
  | .setStatus s => Denotes s c
  | .writeStatus d => d = c
  | _ => False

/-- A call that writes a value of type `t`. -/
def WritesType (t : W.Ty) : ErrOp W → Prop
  | .write u _ => u = t
  | _ => False

/-- What Rust says about the two text types: they are different, show as themselves, and are not called
`anyhow::Error`. -/
structure Lawful (W : ErrTypes) : Prop where
  show_str : ∀ s, W.display W.str (W.ofStr s) = s
  show_string : ∀ s, W.display W.string (W.ofString s) = s
  differ : W.str ≠ W.string
  name_string : W.typeName W.string ≠ s!!"anyhow::Error"

end HT.Spec
