import Verif.Model.Headers

/-!
Specification of header names and header collections, independent of the model's helpers: names
are compared letter by letter up to ASCII case, and a collection is described by what the history
of calls says about each name.
-/

namespace HT.Spec

/-- Every character is ASCII. -/
def Ascii (s : Str) : Prop := ∀ c ∈ s, c.toNat < 128

instance (s : Str) : Decidable (Ascii s) :=
  inferInstanceAs (Decidable (∀ c ∈ s, c.toNat < 128))

/-- Two ASCII characters are the same letter up to case (or the same character). -/
def sameChar (a b : Char) : Bool :=
  a.toNat < 128 && b.toNat < 128 &&
    (a == b
      || ('A' ≤ a && a ≤ 'Z' && b.toNat == a.toNat + 32)
      || ('A' ≤ b && b ≤ 'Z' && a.toNat == b.toNat + 32))

/-- Both strings are ASCII and agree up to the case of letters. -/
def sameName : Str → Str → Bool
  | [], [] => true
  | a :: s, b :: t => sameChar a b && sameName s t
  | _, _ => false

/-- No capital ASCII letter. -/
def NoUpper (s : Str) : Prop := ∀ c ∈ s, ¬ ('A' ≤ c ∧ c ≤ 'Z')

/-- The values a write brings, `none` if the write must be rejected. -/
def writeValues : HvArg → Option (List Str)
  | .str s => if s.all (fun c => c.toNat < 128) then some [s] else none
  | .value v => some [v]
  | .slice vs => some vs
  | .values vs => some vs

/-- What a name maps to after a history, newest call first. -/
def lookup : List HOp → Str → Option (List Str)
  | [], _ => none
  | .insert k a :: h, n =>
    match sameName k n, writeValues a with
    | true, some vs => some vs
    | _, _ => lookup h n
  | .append k a :: h, n =>
    match sameName k n, writeValues a with
    | true, some vs => some ((lookup h n).getD [] ++ vs)
    | _, _ => lookup h n
  | .remove k :: h, n => if sameName k n then none else lookup h n
  | .extend k vs :: h, n =>
    if sameName k n then (lookup h n).map (· ++ vs) else lookup h n
  | .setAt k i v :: h, n =>
    if sameName k n then (lookup h n).map (fun l => l.set i v) else lookup h n
  | .drain k _ :: h, n =>
    if sameName k n then (lookup h n).map (fun _ => []) else lookup h n

/-- The name a call is about. -/
def opName : HOp → Str
  | .insert n _ | .append n _ | .remove n | .extend n _ | .setAt n _ _ | .drain n _ => n

/-- The values an append call adds to name `n` (nothing for other names or rejected writes). -/
def appended (n : Str) : HOp → List Str
  | .append k a => if sameName k n then (writeValues a).getD [] else []
  | .extend k vs => if sameName k n then vs else []
  | _ => []

/-- The call neither inserts, removes nor overwrites values of `n`. -/
def keeps (n : Str) : HOp → Bool
  | .append _ _ => true
  | .extend _ _ => true
  | op => !sameName (opName op) n

/-- The arguments of the call are values made by the checked constructors. -/
def CheckedArg : HvArg → Prop
  | .str _ => True
  | .value v => ∃ bs, HeaderValue.fromBytes bs = .ok v
  | .slice vs => ∀ v ∈ vs, ∃ bs, HeaderValue.fromBytes bs = .ok v
  | .values vs => ∀ v ∈ vs, ∃ bs, HeaderValue.fromBytes bs = .ok v

def CheckedOp : HOp → Prop
  | .insert _ a => CheckedArg a
  | .append _ a => CheckedArg a
  | .remove _ => True
  | .extend _ vs => ∀ v ∈ vs, ∃ bs, HeaderValue.fromBytes bs = .ok v
  | .setAt _ _ v => ∃ bs, HeaderValue.fromBytes bs = .ok v
  | .drain _ _ => True

/-- The call does not write an empty list of values. -/
def NonemptyArg : HvArg → Prop
  | .slice vs => vs ≠ []
  | .values vs => vs ≠ []
  | _ => True

/-- The call neither writes an empty list nor moves all values away. -/
def NonemptyOp : HOp → Prop
  | .insert _ a => NonemptyArg a
  | .append _ a => NonemptyArg a
  | .drain _ _ => False
  | _ => True

end HT.Spec
