import Verif.Spec.Extensions
import Verif.Lemmas.FMap
import Mathlib.Data.List.Induction

/-! Extensions: C15. -/

namespace HT
open Spec

variable {κ : Type} [DecidableEq κ] {T : κ → Type}

namespace Extensions

/-- Every entry is stored under its own type, and no type twice. -/
def Inv (e : Extensions T) : Prop :=
  ∀ m, e.map = some m → FMap.WF m ∧ ∀ k b, FMap.get m k = some b → b.1 = k

theorem downcast_self (k : κ) (v : T k) : AnyBox.downcast (⟨k, v⟩ : AnyBox T) k = some v := by
  simp [AnyBox.downcast]

theorem inv_set {m : FMap κ (AnyBox T)} (hw : FMap.WF m) (hk : ∀ k b, FMap.get m k = some b → b.1 = k) (k : κ)
    (v : T k) : Inv (⟨some (FMap.set m k ⟨k, v⟩)⟩ : Extensions T) := by
  intro m' hm'
  cases hm'
  refine ⟨FMap.wf_set hw k _, ?_⟩
  intro k' b hb
  rw [FMap.get_set] at hb
  by_cases h : k = k'
  · rw [if_pos h] at hb
    cases hb
    exact h
  · rw [if_neg h] at hb
    exact hk k' b hb

theorem inv_step (e : Extensions T) (he : Inv e) (o : EOp T) : Inv (o.step e) := by
  cases o with
  | insert k v =>
    show Inv (⟨some (FMap.set (e.map.getD []) k ⟨k, v⟩)⟩ : Extensions T)
    cases hm : e.map with
    | none => exact inv_set (by simp [FMap.WF, FMap.keys]) (by intro k b h; cases h) k v
    | some m => exact inv_set (he m hm).1 (he m hm).2 k v
  | modify k f =>
    show Inv (e.modify k f).2
    unfold modify
    cases hm : e.map with
    | none => exact he
    | some m =>
      simp only
      cases (FMap.get m k).bind (·.downcast k) with
      | none => exact he
      | some v => exact inv_set (he m hm).1 (he m hm).2 k _
  | remove k =>
    show Inv (e.remove k).2
    unfold remove
    cases hm : e.map with
    | none => exact he
    | some m =>
      intro m' hm'
      cases hm'
      refine ⟨FMap.wf_erase (he m hm).1 k, ?_⟩
      intro k' b hb
      rw [FMap.get_erase (he m hm).1] at hb
      by_cases h : k = k'
      · rw [if_pos h] at hb; cases hb
      · rw [if_neg h] at hb
        exact (he m hm).2 k' b hb
  | clear => intro m hm; cases hm

theorem inv_run (ops : List (EOp T)) : Inv (run ops) := by
  unfold run
  have : ∀ e : Extensions T, Inv e → Inv (ops.foldl EOp.step e) := by
    induction ops with
    | nil => exact fun e h => h
    | cons o ops ih => exact fun e h => ih _ (inv_step e h o)
  exact this _ (by intro m hm; cases hm)

theorem get_insert (e : Extensions T) (k k' : κ) (v : T k) :
    (e.insert k v).2.get k' = if h : k = k' then some (h ▸ v) else e.get k' := by
  unfold insert get
  simp only [Option.bind_some]
  rw [FMap.get_set]
  by_cases h : k = k'
  · subst h
    simp [downcast_self]
  · rw [if_neg h, dif_neg h]
    cases e.map <;> rfl

theorem get_step (e : Extensions T) (he : Inv e) (k : κ) (o : EOp T) :
    (o.step e).get k = slotStep k (e.get k) o := by
  cases o with
  | insert k' v => exact get_insert e k' k v
  | modify k' f =>
    show (e.modify k' f).2.get k = _
    unfold modify slotStep
    cases hm : e.map with
    | none =>
      have : e.get k = none := by unfold get; rw [hm]; rfl
      simp only [this]
      by_cases h : k' = k <;> simp [h]
    | some m =>
      simp only
      have hk : e.get k' = (FMap.get m k').bind (·.downcast k') := by unfold get; rw [hm]; rfl
      cases hg : (FMap.get m k').bind (·.downcast k') with
      | none =>
        simp only
        by_cases h : k' = k
        · subst h; rw [dif_pos rfl, hk, hg]; rfl
        · rw [dif_neg h]
      | some v =>
        have := get_insert e k' k (f v)
        unfold insert at this
        rw [hm] at this
        simp only [Option.getD_some] at this
        simp only
        rw [this]
        by_cases h : k' = k
        · subst h; rw [dif_pos rfl, dif_pos rfl, hk, hg]; rfl
        · rw [dif_neg h, dif_neg h]
  | remove k' =>
    show (e.remove k').2.get k = if k' = k then none else e.get k
    unfold remove
    cases hm : e.map with
    | none =>
      have : e.get k = none := by unfold get; rw [hm]; rfl
      simp [this]
    | some m =>
      unfold get
      simp only [Option.bind_some, hm]
      rw [FMap.get_erase (he m hm).1]
      by_cases h : k' = k <;> simp [h]
  | clear => rfl

end Extensions

open Extensions

/-- Numbers and texts as two types. -/
def exampleT : Bool → Type
  | true => Nat
  | false => Str

/-- After any sequence of calls, getting a type returns what its own slot holds: the last value inserted since its
last removal or clear, with the changes made through `get_mut`. -/
theorem C15_get (ops : List (EOp T)) (k : κ) : (run ops).get k = slot k ops := by
  induction ops using List.reverseRecOn with
  | nil => rfl
  | append_singleton ops o ih =>
    have hr : run (ops ++ [o]) = o.step (run ops) := by unfold run; rw [List.foldl_append]; rfl
    rw [hr, get_step _ (inv_run ops), ih]
    unfold slot
    rw [List.foldl_append]
    rfl

example : slot true ([.insert true (3 : Nat), .insert false s!!"x", .modify true (fun n : Nat => n + 1), .remove false] :
    List (EOp exampleT)) = some (4 : Nat) := rfl

/-- Inserting and removing return the previous value of that type; `get_mut` gives access to the current one. -/
theorem C15_returns (ops : List (EOp T)) (k : κ) (v : T k) (f : T k → T k) :
    ((run ops).insert k v).1 = slot k ops ∧ ((run ops).remove k).1 = slot k ops ∧
      ((run ops).modify k f).1 = slot k ops := by
  rw [← C15_get]
  unfold Extensions.insert Extensions.remove Extensions.modify Extensions.get
  cases (run ops).map with
  | none => exact ⟨rfl, rfl, rfl⟩
  | some m =>
    refine ⟨rfl, rfl, ?_⟩
    simp only [Option.bind_some]
    cases (FMap.get m k).bind (·.downcast k) <;> rfl

example : ((run ([.insert true (3 : Nat)] : List (EOp exampleT))).insert true (5 : Nat)).1 = some (3 : Nat) := rfl

/-- `contains` agrees with `get`. -/
theorem C15_contains (ops : List (EOp T)) (k : κ) : (run ops).contains k = (slot k ops).isSome := by
  rw [← C15_get]
  have hi := inv_run ops
  unfold contains Extensions.get
  cases hm : (run ops).map with
  | none => rfl
  | some m =>
    simp only [Option.bind_some]
    cases hg : FMap.get m k with
    | none => rfl
    | some b =>
      have := (hi m hm).2 k b hg
      simp [AnyBox.downcast, this]

example : (run ([.insert true (3 : Nat), .clear, .insert false s!!"a"] : List (EOp exampleT))).contains true = false := rfl

/-- Calls on other types change nothing for this one. -/
theorem C15_frame (ops ops' : List (EOp T)) (k : κ) (h : ∀ o ∈ ops', concerns k o = false) :
    (run (ops ++ ops')).get k = (run ops).get k := by
  rw [C15_get, C15_get]
  unfold slot
  rw [List.foldl_append]
  generalize List.foldl (slotStep k) none ops = s
  induction ops' generalizing s with
  | nil => rfl
  | cons o ops' ih =>
    rw [List.foldl_cons]
    have ho : slotStep k s o = s := by
      have := h o (by simp)
      cases o with
      | insert k' v => exact dif_neg (by simpa [concerns] using this)
      | modify k' f => exact dif_neg (by simpa [concerns] using this)
      | remove k' => exact if_neg (by simpa [concerns] using this)
      | clear => cases this
    rw [ho]
    exact ih (fun o ho => h o (by simp [ho])) s

example : ∀ o ∈ ([.insert false s!!"a", .remove false] : List (EOp exampleT)), concerns true o = false := by
  simp [concerns]

/-- The last insertion wins. -/
theorem C15_last_insert (ops ops' : List (EOp T)) (k : κ) (v : T k) (h : ∀ o ∈ ops', concerns k o = false) :
    (run (ops ++ .insert k v :: ops')).get k = some v := by
  have := C15_frame (ops ++ [.insert k v]) ops' k h
  rw [List.append_assoc] at this
  rw [show ops ++ .insert k v :: ops' = ops ++ ([.insert k v] ++ ops') from rfl, this, C15_get]
  unfold slot
  rw [List.foldl_append]
  exact dif_pos rfl

example : (run ([.insert true (3 : Nat), .insert false s!!"a", .modify true (fun n : Nat => n + 4), .remove false] :
    List (EOp exampleT))).get true = some (7 : Nat) := rfl
example : ((run ([.insert true (3 : Nat), .insert true (4 : Nat)] : List (EOp exampleT))).remove true).1 =
    some (4 : Nat) := rfl

end HT
