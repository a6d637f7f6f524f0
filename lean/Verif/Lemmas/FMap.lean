import Verif.Model.Headers
import Mathlib.Data.List.Perm.Basic
import Mathlib.Data.List.Nodup

/-! Finite-map laws of `FMap`. -/

namespace HT.FMap
variable {κ ν : Type} [DecidableEq κ]

/-- Distinct keys: what makes a list of entries a map. -/
def WF (m : FMap κ ν) : Prop := (keys m).Nodup

@[simp] theorem get_nil (k : κ) : get ([] : FMap κ ν) k = none := rfl

theorem get_set (m : FMap κ ν) (k k' : κ) (v : ν) :
    get (set m k v) k' = if k = k' then some v else get m k' := by
  induction m with
  | nil => simp [set, get]
  | cons e m ih =>
    obtain ⟨a, b⟩ := e
    simp only [set]
    by_cases h : a = k
    · subst h
      simp only [if_true, get]
      split <;> rfl
    · rw [if_neg h]
      simp only [get, ih]
      by_cases h2 : a = k'
      · subst h2; simp [Ne.symm h]
      · simp [h2]

theorem get_eq_none_iff (m : FMap κ ν) (k : κ) : get m k = none ↔ k ∉ keys m := by
  induction m with
  | nil => simp [keys]
  | cons e m ih =>
    obtain ⟨a, b⟩ := e
    simp only [get, keys, List.map_cons, List.mem_cons, not_or]
    by_cases h : a = k
    · subst h; simp
    · rw [if_neg h, ih]; simp [keys, Ne.symm h]

theorem get_isSome_iff (m : FMap κ ν) (k : κ) : (get m k).isSome ↔ k ∈ keys m := by
  have := get_eq_none_iff m k
  cases h : get m k with
  | none => simp_all
  | some v => simp [h] at this ⊢; exact this

theorem keys_set (m : FMap κ ν) (k : κ) (v : ν) :
    keys (set m k v) = if k ∈ keys m then keys m else keys m ++ [k] := by
  induction m with
  | nil => simp [set, keys]
  | cons e m ih =>
    obtain ⟨a, b⟩ := e
    simp only [set]
    by_cases h : a = k
    · subst h; simp [keys]
    · rw [if_neg h]
      simp only [keys, List.map_cons, List.mem_cons] at ih ⊢
      rw [ih]
      have hk : ¬ k = a := Ne.symm h
      by_cases h2 : k ∈ List.map Prod.fst m <;> simp [hk, h2]

theorem wf_set {m : FMap κ ν} (hm : WF m) (k : κ) (v : ν) : WF (set m k v) := by
  unfold WF at *
  rw [keys_set]
  split
  · exact hm
  · rename_i h
    rw [List.nodup_append]
    refine ⟨hm, by simp, ?_⟩
    intro a ha b hb
    simp at hb
    subst hb
    intro e; subst e; exact h ha

theorem keys_erase_sublist (m : FMap κ ν) (k : κ) : (keys (erase m k)).Sublist (keys m) := by
  induction m with
  | nil => simp [erase]
  | cons e m ih =>
    obtain ⟨a, b⟩ := e
    simp only [erase]
    split
    · exact List.sublist_cons_self _ _
    · exact ih.cons_cons a

theorem wf_erase {m : FMap κ ν} (hm : WF m) (k : κ) : WF (erase m k) :=
  List.Nodup.sublist (keys_erase_sublist m k) hm

theorem get_erase {m : FMap κ ν} (hm : WF m) (k k' : κ) :
    get (erase m k) k' = if k = k' then none else get m k' := by
  induction m with
  | nil => simp [erase]
  | cons e m ih =>
    obtain ⟨a, b⟩ := e
    simp only [WF, keys, List.map_cons, List.nodup_cons] at hm
    simp only [erase]
    by_cases h : a = k
    · subst h
      simp only [if_true, get]
      split
      · rename_i h2; subst h2
        rw [get_eq_none_iff]; exact hm.1
      · rfl
    · rw [if_neg h]
      simp only [get]
      rw [ih hm.2]
      by_cases h2 : a = k'
      · subst h2; simp [Ne.symm h]
      · simp [h2]

theorem get_eq_some_iff {m : FMap κ ν} (hm : WF m) (k : κ) (v : ν) :
    get m k = some v ↔ (k, v) ∈ m := by
  induction m with
  | nil => simp
  | cons e m ih =>
    obtain ⟨a, b⟩ := e
    simp only [WF, keys, List.map_cons, List.nodup_cons] at hm
    simp only [get, List.mem_cons, Prod.mk.injEq]
    by_cases h : a = k
    · subst h
      simp only [if_true, Option.some.injEq, true_and]
      constructor
      · rintro rfl; exact .inl rfl
      · rintro (rfl | h)
        · rfl
        · exact absurd (List.mem_map_of_mem (f := Prod.fst) h) hm.1
    · rw [if_neg h, ih hm.2]
      simp [Ne.symm h]

theorem mem_of_get {m : FMap κ ν} {k : κ} {v : ν} (h : get m k = some v) : (k, v) ∈ m := by
  induction m with
  | nil => simp at h
  | cons e m ih =>
    obtain ⟨a, b⟩ := e
    simp only [get] at h
    split at h
    · rename_i e; subst e; simp at h; simp [h]
    · exact List.mem_cons_of_mem _ (ih h)

omit [DecidableEq κ] in
theorem WF.perm {m m' : FMap κ ν} (hm : WF m) (hp : m.Perm m') : WF m' :=
  (hp.map Prod.fst).nodup_iff.mp hm

/-- Lookup does not depend on the visiting order. -/
theorem get_perm {m m' : FMap κ ν} (hm : WF m) (hp : m.Perm m') (k : κ) : get m' k = get m k := by
  apply Option.ext
  intro v
  have h1 := get_eq_some_iff hm k v
  have h2 := get_eq_some_iff (hm.perm hp) k v
  rw [h1, h2, hp.mem_iff]

theorem mem_set {m : FMap κ ν} {k : κ} {v : ν} {e : κ × ν} (h : e ∈ set m k v) :
    e = (k, v) ∨ e ∈ m := by
  induction m with
  | nil => simp [set] at h; exact .inl h
  | cons f m ih =>
    obtain ⟨a, b⟩ := f
    simp only [set] at h
    split at h
    · rcases List.mem_cons.mp h with h | h
      · exact .inl h
      · exact .inr (List.mem_cons_of_mem _ h)
    · rcases List.mem_cons.mp h with h | h
      · exact .inr (by simp [h])
      · rcases ih h with h | h
        · exact .inl h
        · exact .inr (List.mem_cons_of_mem _ h)

theorem mem_erase {m : FMap κ ν} {k : κ} {e : κ × ν} (h : e ∈ erase m k) : e ∈ m := by
  induction m with
  | nil => simp [erase] at h
  | cons f m ih =>
    obtain ⟨a, b⟩ := f
    simp only [erase] at h
    split at h
    · exact List.mem_cons_of_mem _ h
    · rcases List.mem_cons.mp h with h | h
      · simp [h]
      · exact List.mem_cons_of_mem _ (ih h)

/-- Two maps with the same lookups have the same entries up to order. -/
theorem perm_of_get {m m' : FMap κ ν} (hm : WF m) (hm' : WF m') (h : ∀ k, get m k = get m' k) :
    m.Perm m' := by
  have n1 : m.Nodup := List.Nodup.of_map Prod.fst hm
  have n2 : m'.Nodup := List.Nodup.of_map Prod.fst hm'
  rw [List.perm_ext_iff_of_nodup n1 n2]
  rintro ⟨k, v⟩
  rw [← get_eq_some_iff hm, ← get_eq_some_iff hm', h]

end HT.FMap
