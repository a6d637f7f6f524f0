import Verif.Model.File
import Verif.Spec.Body

/-! Specification of bodies from files. -/

namespace HT.Spec

/-- The path names the file `name` in the directory `dir`. -/
def PathNames (path dir name : Str) : Prop :=
  path = dir ++ name ∧ (dir = [] ∨ ∃ d, dir = d ++ s!!"/") ∧ '/' ∉ name ∧ name ≠ [] ∧ name ≠ s!!"." ∧ name ≠ s!!".."

/-- The name of a file has this extension. -/
def HasExt (name ext : Str) : Prop := ∃ base, base ≠ [] ∧ name = base ++ s!!"." ++ ext ∧ '.' ∉ ext

/-- What is recognised in a beginning of at most 300 bytes, shown with zeros behind it. -/
def Recognised (infer : List Byte → Option Str) (start : List Byte) (m : Mime) : Prop :=
  ∃ t, infer (start ++ List.replicate (300 - start.length) 0) = some t ∧ Mime.parse t = .ok m

/-- The media type by content, then by extension, then the default. -/
def Typed (infer : List Byte → Option Str) (start : List Byte) (path : Str) (m : Mime) : Prop :=
  Recognised infer start m ∨ (∀ m, ¬ Recognised infer start m) ∧
    (guessExt path = some m ∨ guessExt path = none ∧ m = Mime.BYTE_STREAM)

end HT.Spec
