import Verif.Spec.JsonPaths
import Verif.Props.JsonGrammar

/-! C141: what is read holds what was written. -/

namespace HT
open Spec

theorem keepL_get {l m : List Json} (h : jsonKeepL l = some m) : m.length = l.length ∧ ∀ i : Nat, l[i]?.bind jsonKeep = m[i]? := by
  induction l generalizing m with
  | nil => cases h; simp
  | cons v l ih =>
    rw [jsonKeepL, Option.bind_eq_some_iff] at h
    obtain ⟨w, h1, h2⟩ := h
    obtain ⟨m', h3, rfl⟩ := Option.map_eq_some_iff.1 h2
    obtain ⟨e1, e2⟩ := ih h3
    refine ⟨by simp [e1], fun i => ?_⟩
    cases i with
    | zero => simpa using h1
    | succ i => simpa using e2 i

theorem sorted_last {m : List (Str × Json)} (h : m.Pairwise fun p q => p.1 < q.1) (k : Str) (w : Json) :
    ((m.filter (·.1 = k)).getLast?).map (·.2) = some w ↔ (k, w) ∈ m := by
  induction m with
  | nil => simp
  | cons p m ih =>
    obtain ⟨a, v⟩ := p
    rw [List.pairwise_cons] at h
    by_cases ha : a = k
    · subst ha
      have e : m.filter (·.1 = a) = [] := by
        rw [List.filter_eq_nil_iff]
        intro q hq hqa
        have := h.1 q hq
        simp only [decide_eq_true_eq] at hqa
        rw [hqa] at this
        exact List.lt_irrefl _ this
      rw [List.filter_cons_of_pos (by simp), e]
      simp only [List.getLast?_singleton, Option.map_some, Option.some.injEq, List.mem_cons, Prod.mk.injEq, true_and]
      constructor
      · rintro rfl; exact .inl rfl
      · rintro (rfl | hm)
        · rfl
        · exact absurd (h.1 _ hm) (List.lt_irrefl _)
    · rw [List.filter_cons_of_neg (by simpa using ha), ih h.2]
      simp [Ne.symm ha]

theorem keep_shape {j v : Json} (h : jsonKeep j = some v) : v.shape = j.shape := by
  cases j with
  | int n =>
    rw [jsonKeep] at h
    split at h
    · cases h; rfl
    · cases h
  | arr l =>
    rw [jsonKeep, Option.map_eq_some_iff] at h
    obtain ⟨m, hm, rfl⟩ := h
    simp [Json.shape, (keepL_get hm).1]
  | obj l =>
    rw [jsonKeep, Option.map_eq_some_iff] at h
    obtain ⟨m, hm, rfl⟩ := h
    rfl
  | _ => cases h; rfl

theorem keep_into {j v : Json} (h : jsonKeep j = some v) (s : JsonStep) :
    (j.into s = none ∧ v.into s = none) ∨ ∃ a b, j.into s = some a ∧ v.into s = some b ∧ jsonKeep a = some b := by
  cases j with
  | int n =>
    rw [jsonKeep] at h
    split at h
    · cases h; exact .inl ⟨rfl, rfl⟩
    · cases h
  | arr l =>
    have hf := (keep_some _).mp ⟨v, h⟩
    rw [jsonKeep, Option.map_eq_some_iff] at h
    obtain ⟨m, hm, rfl⟩ := h
    cases s with
    | name k => exact .inl ⟨rfl, rfl⟩
    | index i =>
      have e := (keepL_get hm).2 i
      simp only [Json.into]
      cases hl : l[i]? with
      | none => rw [hl] at e; exact .inl ⟨rfl, e.symm⟩
      | some a =>
        rw [hl] at e
        cases hf with
        | arr hf =>
          obtain ⟨b, hb⟩ := (keep_some a).mpr (hf a (List.mem_of_getElem? hl))
          exact .inr ⟨a, b, rfl, by rw [← e, Option.bind_some, hb], hb⟩
  | obj l =>
    have hs := keep_value _ _ h
    have hf := (keep_some _).mp ⟨v, h⟩
    rw [jsonKeep, Option.map_eq_some_iff] at h
    obtain ⟨m, hm, rfl⟩ := h
    rw [IsValue] at hs
    cases s with
    | index i => exact .inl ⟨rfl, rfl⟩
    | name k =>
      have e := keepM_iff l [] m (by simp) hm k
      simp only [Json.into]
      cases hl : (l.filter (·.1 = k)).getLast? with
      | none =>
        refine .inl ⟨rfl, Option.eq_none_iff_forall_ne_some.mpr fun w hw => ?_⟩
        have := (e w).mp ((sorted_last hs.1 k w).mp hw)
        rw [hl] at this
        simp at this
      | some p =>
        cases hf with
        | obj hf =>
          obtain ⟨b, hb⟩ := (keep_some p.2).mpr (hf p (List.mem_of_mem_filter (List.mem_of_getLast? hl)))
          refine .inr ⟨p.2, b, rfl, (sorted_last hs.1 k b).mpr ((e b).mpr ?_), hb⟩
          rw [hl]
          exact hb
  | _ => cases h; exact .inl ⟨rfl, rfl⟩

theorem keep_look {j v : Json} (h : jsonKeep j = some v) (p : List JsonStep) : v.look p = j.look p := by
  induction p generalizing j v with
  | nil => simp only [Json.look, keep_shape h]
  | cons s p ih =>
    simp only [Json.look]
    rcases keep_into h s with ⟨h1, h2⟩ | ⟨a, b, h1, h2, h3⟩
    · rw [h1, h2]
    · rw [h1, h2, Option.bind_some, Option.bind_some, ih h3]

/-- Along every path, what is read from a text holds what the text says. -/
theorem C141_holds (t : Str) (j v : Json) (h : IsJsonText t j) (hv : jsonFromSlice (utf8Encode t) = some v) (p : List JsonStep) :
    v.look p = j.look p := by
  rw [fromSlice_of h] at hv
  split at hv
  · exact keep_look hv p
  · cases hv

example : (jsonFromSlice (utf8Encode s!!"{\"b\":[1,{\"a\":2,\"a\":\"x\"}],\"a\":null}")).bind
      (fun v => v.look [.name s!!"b", .index 1, .name s!!"a"]) = some (.str s!!"x") := by decide +kernel

/-- So it is known which value is read: of those that a program can hold there is only one with the same along all paths. -/
theorem C141_only (v w : Json) (hv : IsValue v) (hw : IsValue w) (h : ∀ p, v.look p = w.look p) : v = w := by
  induction v using Spec.Json.ind generalizing w with
  | null => have := h []; cases w <;> simp_all [Json.look, Json.shape]
  | bool b => have := h []; cases w <;> simp_all [Json.look, Json.shape]
  | int n => have := h []; cases w <;> simp_all [Json.look, Json.shape]
  | str s => have := h []; cases w <;> simp_all [Json.look, Json.shape]
  | arr l ih =>
    have h0 := h []
    cases w with
    | arr m =>
      simp only [Json.look, Json.shape, Option.some.injEq, JsonShape.arr.injEq] at h0
      rw [IsValue, areValues_iff] at hv hw
      congr 1
      refine List.ext_getElem h0 fun i h1 h2 => ih _ (List.getElem_mem h1) _ (hv _ (List.getElem_mem h1)) (hw _ (List.getElem_mem h2)) fun p => ?_
      have := h (.index i :: p)
      simpa [Json.look, Json.into, h1, h2] using this
    | _ => simp [Json.look, Json.shape] at h0
  | obj l ih =>
    have h0 := h []
    cases w with
    | obj m =>
      rw [IsValue, areMembers_iff] at hv hw
      congr 1
      have key : ∀ k a, (k, a) ∈ l → (k, a) ∈ m := by
        intro k a ha
        have hl := (sorted_last hv.1 k a).mpr ha
        cases hm : (Json.obj m).into (.name k) with
        | none =>
          have := h [.name k]
          simp only [Json.look, hm] at this
          rw [show (Json.obj l).into (.name k) = some a from hl] at this
          cases this
        | some b =>
          have hb : (k, b) ∈ m := (sorted_last hw.1 k b).mp hm
          have : a = b := by
            refine ih (k, a) ha b (hv.2 _ ha) (hw.2 _ hb) fun p => ?_
            have := h (.name k :: p)
            simp only [Json.look, hm] at this
            rwa [show (Json.obj l).into (.name k) = some a from hl] at this
          rw [this]
          exact hb
      have key2 : ∀ k b, (k, b) ∈ m → (k, b) ∈ l := by
        intro k b hb
        have hm := (sorted_last hw.1 k b).mpr hb
        cases hl : (Json.obj l).into (.name k) with
        | none =>
          have := h [.name k]
          simp only [Json.look, hl] at this
          rw [show (Json.obj m).into (.name k) = some b from hm] at this
          cases this
        | some a =>
          have ha : (k, a) ∈ l := (sorted_last hv.1 k a).mp hl
          have h1 : (k, a) ∈ m := key k a ha
          have h2 := (sorted_last hw.1 k a).mpr h1
          rw [hm] at h2
          cases h2
          exact ha
      have irr : ∀ p : Str × Json, ¬ p.1 < p.1 := fun p => List.lt_irrefl _
      have nd : ∀ {m : List (Str × Json)}, (m.Pairwise fun p q => p.1 < q.1) → m.Nodup := fun h =>
        List.Pairwise.imp (S := fun a b => a ≠ b) (fun {a b} hab e => irr a (by rw [← e] at hab; exact hab)) h
      exact ((List.perm_ext_iff_of_nodup (nd hv.1) (nd hw.1)).mpr fun p => ⟨key p.1 p.2, key2 p.1 p.2⟩).eq_of_pairwise
        (fun a b _ _ h1 h2 => absurd (List.lt_trans h1 h2) (irr a)) hv.1 hw.1
    | _ => simp [Json.look, Json.shape] at h0

example : IsValue (.obj [(s!!"a", .int 1), (s!!"b", .null)]) ∧ ¬ IsValue (.obj [(s!!"b", .null), (s!!"a", .int 1)]) ∧
    (Json.obj [(s!!"b", .null), (s!!"a", .int 1)]).look [.name s!!"a"] = some (.int 1) := by
  refine ⟨?_, ?_, by decide +kernel⟩
  · simp only [IsValue, AreMembers, IsMember]
    exact ⟨by decide, by omega, trivial, trivial⟩
  · rw [IsValue]
    exact fun h => absurd h.1 (by decide)

end HT
