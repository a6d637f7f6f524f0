import Mathlib.Data.List.Forall2

/-!
Outcomes of modelled Rust code.

`http_types::Result<T>` (src/error.rs:13) is `std::result::Result<T, Error>`. Of an `Error`
(src/error.rs:16-20) only the HTTP status is kept; the message, the boxed `anyhow::Error` and
the type name are not modelled here (`Model/Error.lean` models them abstractly). A Rust panic
is the explicit third outcome.
-/

namespace HT

/-- Outcome of a fallible Rust function: success, an `Error` with its status, or a panic. -/
inductive Res (α : Type u) where
  | ok (a : α)
  | err (status : Nat)
  | panic
  deriving Repr, DecidableEq

namespace Res

/-- The `?` operator: stop at the first error or panic. -/
def bind {α : Type u} {β : Type v} (r : Res α) (f : α → Res β) : Res β :=
  match r with
  | ok a => f a
  | err s => err s
  | panic => panic

def map {α : Type u} {β : Type v} (f : α → β) (r : Res α) : Res β :=
  match r with
  | ok a => ok (f a)
  | err s => err s
  | panic => panic

instance : Monad Res where
  pure := ok
  bind := bind

/-- `.status(s)` on a `Result` (src/status.rs:37-48, 83-92) with a valid literal `s`. -/
def status {α : Type u} (r : Res α) (s : Nat) : Res α :=
  match r with
  | ok a => ok a
  | err _ => err s
  | panic => panic

/-- `.status(s)` / `ok_or` on an `Option` (src/status.rs:125-136) with a valid literal `s`. -/
def ofOption {α : Type u} (s : Nat) (o : Option α) : Res α :=
  match o with
  | some a => ok a
  | none => err s

/-- `.unwrap()` / `.expect(..)` on an `Option`. -/
def unwrap {α : Type u} (o : Option α) : Res α :=
  match o with
  | some a => ok a
  | none => panic

/-- Collect the results of a fallible function over a list (`for` with `?`, or `collect`). -/
def mapM {α : Type u} {β : Type v} (f : α → Res β) : List α → Res (List β)
  | [] => ok []
  | a :: as => (f a).bind fun b => (mapM f as).bind fun bs => ok (b :: bs)

@[simp] theorem bind_ok {α : Type u} {β : Type v} (a : α) (f : α → Res β) :
    (ok a).bind f = f a := rfl
@[simp] theorem bind_err {α : Type u} {β : Type v} (s : Nat) (f : α → Res β) :
    (err s : Res α).bind f = err s := rfl
@[simp] theorem bind_panic {α : Type u} {β : Type v} (f : α → Res β) :
    (panic : Res α).bind f = panic := rfl
@[simp] theorem map_ok {α : Type u} {β : Type v} (a : α) (f : α → β) :
    (ok a).map f = ok (f a) := rfl
@[simp] theorem map_err {α : Type u} {β : Type v} (s : Nat) (f : α → β) :
    (err s : Res α).map f = err s := rfl
@[simp] theorem map_panic {α : Type u} {β : Type v} (f : α → β) :
    (panic : Res α).map f = panic := rfl
@[simp] theorem status_ok {α : Type u} (a : α) (s : Nat) : (ok a).status s = ok a := rfl
@[simp] theorem status_err {α : Type u} (t s : Nat) : (err t : Res α).status s = err s := rfl
@[simp] theorem status_panic {α : Type u} (s : Nat) : (panic : Res α).status s = panic := rfl
@[simp] theorem ofOption_some {α : Type u} (a : α) (s : Nat) : ofOption s (some a) = ok a := rfl
@[simp] theorem ofOption_none {α : Type u} (s : Nat) : (ofOption s none : Res α) = err s := rfl
@[simp] theorem unwrap_some {α : Type u} (a : α) : unwrap (some a) = ok a := rfl
@[simp] theorem unwrap_none {α : Type u} : (unwrap none : Res α) = panic := rfl
@[simp] theorem pure_eq {α : Type u} (a : α) : (pure a : Res α) = ok a := rfl
@[simp] theorem bind_eq {α β : Type u} (r : Res α) (f : α → Res β) : (r >>= f) = r.bind f := rfl
@[simp] theorem mapM_nil {α : Type u} {β : Type v} (f : α → Res β) : mapM f [] = ok [] := rfl
@[simp] theorem mapM_cons {α : Type u} {β : Type v} (f : α → Res β) (a : α) (as : List α) :
    mapM f (a :: as) = (f a).bind fun b => (mapM f as).bind fun bs => ok (b :: bs) := rfl

theorem bind_eq_ok_iff {α : Type u} {β : Type v} {r : Res α} {f : α → Res β} {b : β} :
    r.bind f = ok b ↔ ∃ a, r = ok a ∧ f a = ok b := by
  cases r <;> simp [bind]

theorem bind_eq_panic_iff {α : Type u} {β : Type v} {r : Res α} {f : α → Res β} :
    r.bind f = panic ↔ r = panic ∨ ∃ a, r = ok a ∧ f a = panic := by
  cases r <;> simp [bind]

theorem bind_eq_err_iff {α : Type u} {β : Type v} {r : Res α} {f : α → Res β} {s : Nat} :
    r.bind f = err s ↔ r = err s ∨ ∃ a, r = ok a ∧ f a = err s := by
  cases r <;> simp [bind]

theorem ofOption_eq_ok_iff {α : Type u} {s : Nat} {o : Option α} {a : α} :
    ofOption s o = ok a ↔ o = some a := by
  cases o <;> simp [ofOption]

theorem status_eq_ok_iff {α : Type u} {s : Nat} {r : Res α} {a : α} :
    r.status s = ok a ↔ r = ok a := by
  cases r <;> simp [status]

/-- The outcome is not a panic and, if an error, has the given status. -/
def Clean {α : Type u} (s : Nat) (r : Res α) : Prop :=
  (∃ a, r = ok a) ∨ r = err s

theorem mapM_ok_of_forall {α : Type u} {β : Type v} {f : α → Res β} {g : α → β} {l : List α}
    (h : ∀ a ∈ l, f a = ok (g a)) : mapM f l = ok (l.map g) := by
  induction l with
  | nil => rfl
  | cons a as ih =>
    simp [h a (by simp), ih (fun b hb => h b (by simp [hb]))]

theorem mapM_clean {α : Type u} {β : Type v} {f : α → Res β} {s : Nat} {l : List α}
    (h : ∀ a ∈ l, Clean s (f a)) : Clean s (mapM f l) := by
  induction l with
  | nil => exact .inl ⟨[], rfl⟩
  | cons a as ih =>
    rcases h a (by simp) with ⟨b, hb⟩ | hb
    · rcases ih (fun b hb => h b (by simp [hb])) with ⟨bs, hbs⟩ | hbs
      · exact .inl ⟨b :: bs, by simp [hb, hbs]⟩
      · exact .inr (by simp [hb, hbs])
    · exact .inr (by simp [hb])

theorem mapM_eq_ok_iff {α : Type u} {β : Type v} {f : α → Res β} {l : List α} {bs : List β} :
    mapM f l = ok bs ↔ List.Forall₂ (fun a b => f a = ok b) l bs := by
  induction l generalizing bs with
  | nil => cases bs <;> simp
  | cons a as ih =>
    cases bs with
    | nil =>
      simp only [mapM_cons]
      cases f a <;> simp
      cases mapM f as <;> simp
    | cons b bs =>
      simp only [mapM_cons, List.forall₂_cons]
      cases hfa : f a <;> simp
      rw [← ih]
      cases mapM f as <;> simp

end Res
end HT
