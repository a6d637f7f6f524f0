import Verif.Model.Headers

/-!
Extensions: one value per type. `κ` stands for the types (`TypeId`), `T k` for the values of type `k`; a boxed
`dyn Any` is a type together with a value of it.
-/

namespace HT

/-- `Box<dyn Any>`. -/
abbrev AnyBox {κ : Type} (T : κ → Type) := (k : κ) × T k

/-- `Box<dyn Any>::downcast` (std): the value if the type is the one asked for. -/
def AnyBox.downcast {κ : Type} [DecidableEq κ] {T : κ → Type} (b : AnyBox T) (k : κ) : Option (T k) :=
  if h : b.1 = k then some (h ▸ b.2) else none

/-- `Extensions`, src/extensions.rs:17-19. -/
structure Extensions {κ : Type} (T : κ → Type) where
  map : Option (FMap κ (AnyBox T))

namespace Extensions

variable {κ : Type} [DecidableEq κ] {T : κ → Type}

/-- `Extensions::new`, src/extensions.rs:24-26. -/
def new : Extensions T := ⟨none⟩

/-- `insert`, src/extensions.rs:31-36. -/
def insert (e : Extensions T) (k : κ) (v : T k) : Option (T k) × Extensions T :=
  let m := e.map.getD []
  ((FMap.get m k).bind (·.downcast k), ⟨some (FMap.set m k ⟨k, v⟩)⟩)

/-- `contains`, src/extensions.rs:39-44. -/
def contains (e : Extensions T) (k : κ) : Bool := (e.map.bind fun m => FMap.get m k).isSome

/-- `get`, src/extensions.rs:47-52. -/
def get (e : Extensions T) (k : κ) : Option (T k) :=
  (e.map.bind fun m => FMap.get m k).bind (·.downcast k)

/-- `get_mut`, src/extensions.rs:55-60, followed by a change `f` through the reference. -/
def modify (e : Extensions T) (k : κ) (f : T k → T k) : Option (T k) × Extensions T :=
  match e.map with
  | none => (none, e)
  | some m =>
    match (FMap.get m k).bind (·.downcast k) with
    | none => (none, e)
    | some v => (some v, ⟨some (FMap.set m k ⟨k, f v⟩)⟩)

/-- `remove`, src/extensions.rs:65-70. -/
def remove (e : Extensions T) (k : κ) : Option (T k) × Extensions T :=
  match e.map with
  | none => (none, e)
  | some m => ((FMap.get m k).bind (·.downcast k), ⟨some (FMap.erase m k)⟩)

/-- `clear`, src/extensions.rs:74-76. -/
def clear (_e : Extensions T) : Extensions T := ⟨none⟩

end Extensions

/-- The changing calls. -/
inductive EOp {κ : Type} (T : κ → Type) where
  | insert (k : κ) (v : T k)
  | modify (k : κ) (f : T k → T k)
  | remove (k : κ)
  | clear

/-- One call. -/
def EOp.step {κ : Type} [DecidableEq κ] {T : κ → Type} (e : Extensions T) : EOp T → Extensions T
  | .insert k v => (e.insert k v).2
  | .modify k f => (e.modify k f).2
  | .remove k => (e.remove k).2
  | .clear => e.clear

/-- A sequence of calls on a new container. -/
def Extensions.run {κ : Type} [DecidableEq κ] {T : κ → Type} (ops : List (EOp T)) : Extensions T :=
  ops.foldl EOp.step Extensions.new

end HT
