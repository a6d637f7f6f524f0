import Verif.Lemmas.Lists
import Verif.Lemmas.Headers

/-! Lemmas about cache directives. -/

namespace HT
open Spec

theorem split_cases (c : Char) (s : Str) :
    (c ∉ s ∧ split c s = [s]) ∨ ∃ a r, c ∉ a ∧ s = a ++ c :: r ∧ split c s = a :: split c r := by
  by_cases h : c ∈ s
  · right
    obtain ⟨a, r, rfl, ha⟩ := List.eq_append_cons_of_mem h
    exact ⟨a, r, ha, rfl, split_append_sep ha r⟩
  · exact .inl ⟨h, split_of_not_mem h⟩

theorem lowerC_eq_iff {c d : Char} (h : ¬ (97 ≤ d.toNat ∧ d.toNat ≤ 122)) (h' : ¬ (65 ≤ d.toNat ∧ d.toNat ≤ 90)) :
    lowerC c = d ↔ c = d := by
  constructor
  · intro e
    have h1 := lowerC_toNat c
    rw [e] at h1
    apply char_eq_of_toNat
    split at h1 <;> omega
  · rintro rfl
    unfold lowerC
    rw [if_neg h']

theorem mem_lower {c : Char} (h : ¬ (97 ≤ c.toNat ∧ c.toNat ≤ 122)) (h' : ¬ (65 ≤ c.toNat ∧ c.toNat ≤ 90)) {s : Str} :
    c ∈ lower s ↔ c ∈ s := by
  unfold lower
  rw [List.mem_map]
  constructor
  · rintro ⟨d, hd, e⟩; rw [lowerC_eq_iff h h'] at e; rwa [← e]
  · intro hc; exact ⟨c, hc, (lowerC_eq_iff h h').mpr rfl⟩

@[simp] theorem lower_append (a b : Str) : lower (a ++ b) = lower a ++ lower b := List.map_append ..
@[simp] theorem lower_cons (c : Char) (s : Str) : lower (c :: s) = lowerC c :: lower s := rfl
@[simp] theorem lower_nil : lower [] = [] := rfl

theorem split_lower {c : Char} (h : ¬ (97 ≤ c.toNat ∧ c.toNat ≤ 122)) (h' : ¬ (65 ≤ c.toNat ∧ c.toNat ≤ 90)) (s : Str) :
    split c (lower s) = (split c s).map lower := by
  induction hn : s.length using Nat.strongRecOn generalizing s with
  | ind n ih =>
    rcases split_cases c s with ⟨h1, h2⟩ | ⟨a, r, h1, rfl, h2⟩
    · rw [h2, split_of_not_mem (by rwa [mem_lower h h'])]; rfl
    · rw [h2, lower_append, lower_cons, (lowerC_eq_iff h h').mpr rfl, split_append_sep (by rwa [mem_lower h h'])]
      rw [ih r.length (by subst hn; simp; omega) r rfl]
      rfl

theorem lower_eq_self_of_digits {s : Str} (h : ∀ c ∈ s, c.toNat ≤ 57) : lower s = s := by
  induction s with
  | nil => rfl
  | cons c s ih =>
    rw [lower_cons, ih (fun c hc => h c (by simp [hc]))]
    unfold lowerC
    rw [if_neg (by have := h c (by simp); omega)]

theorem digit_le {c : Char} (h : '0' ≤ c ∧ c ≤ '9') : c.toNat ≤ 57 := by
  have := h.2
  rw [Char.le_def, UInt32.le_iff_toNat_le] at this
  exact this

theorem numeral_lower {v : Str} {k : Nat} : Numeral (lower v) k ↔ Numeral v k := by
  have key : ∀ ds v : Str, (∀ c ∈ ds, c.toNat ≤ 57) → (lower v = ds ↔ v = ds) := by
    intro ds v hd
    constructor
    · rintro rfl
      induction v with
      | nil => rfl
      | cons c v ih =>
        rw [lower_cons, ← ih (fun c hc => hd c (by simp [hc]))]
        congr 1
        have h1 := hd (lowerC c) (by simp)
        have h2 := lowerC_toNat c
        apply char_eq_of_toNat
        split at h2 <;> omega
    · rintro rfl
      exact lower_eq_self_of_digits hd
  unfold Numeral
  constructor
  · rintro ⟨ds, h1, h2, h3, h4⟩
    refine ⟨ds, h1, ?_, h3, h4⟩
    rw [key ds v (fun c hc => digit_le (h3 c hc)), key ('+' :: ds) v (by
      intro c hc
      rcases List.mem_cons.mp hc with rfl | hc
      · decide
      · exact digit_le (h3 c hc))] at h2
    exact h2
  · rintro ⟨ds, h1, h2, h3, h4⟩
    refine ⟨ds, h1, ?_, h3, h4⟩
    rw [key ds v (fun c hc => digit_le (h3 c hc)), key ('+' :: ds) v (by
      intro c hc
      rcases List.mem_cons.mp hc with rfl | hc
      · decide
      · exact digit_le (h3 c hc))]
    exact h2

theorem parseDur_lower (v : Str) : CacheDirective.parseDur (lower v) = CacheDirective.parseDur v := by
  unfold CacheDirective.parseDur
  have : parseUInt u64Max1 (lower v) = parseUInt u64Max1 v := by
    cases h : parseUInt u64Max1 v with
    | some k =>
      rw [parseUInt_iff] at h ⊢
      rwa [numeral_lower]
    | none =>
      cases h' : parseUInt u64Max1 (lower v) with
      | none => rfl
      | some k =>
        rw [parseUInt_iff, numeral_lower, ← parseUInt_iff, h] at h'
        cases h'
  rw [this]

theorem parseDur_ok {v : Str} {d : Duration} :
    CacheDirective.parseDur v = .ok d ↔ ∃ k, Numeral v k ∧ k < 2 ^ 64 ∧ d = ⟨k, 0⟩ := by
  unfold CacheDirective.parseDur
  cases h : parseUInt u64Max1 v with
  | none =>
    simp only [Res.ofOption, Res.status, Res.map, reduceCtorEq, false_iff, not_exists, not_and]
    intro k hk hl
    rw [parseUInt_iff.mpr ⟨hk, show k < u64Max1 from hl⟩] at h
    cases h
  | some n =>
    obtain ⟨h1, h2⟩ := parseUInt_iff.mp h
    simp only [Res.ofOption, Res.status, Res.map, Res.ok.injEq]
    constructor
    · rintro rfl; exact ⟨n, h1, h2, rfl⟩
    · rintro ⟨k, h3, -, rfl⟩; rw [numeral_unique h1 h3]

theorem parseDur_clean (v : Str) : (CacheDirective.parseDur v).Clean 400 := by
  unfold CacheDirective.parseDur
  cases parseUInt u64Max1 v with
  | none => exact .inr rfl
  | some n => exact .inl ⟨_, rfl⟩

namespace CacheDirective

/-- The choice by name inside `fromStr`. -/
def named (next : Str) (parts : List Str) : Res (Option CacheDirective) :=
  match cacheFlags.lookup next with
  | some d => .ok (some d)
  | none =>
    match cacheTimed.lookup next with
    | some f =>
      match parts with
      | v :: _ => (parseDur v).map fun d => some (f d)
      | [] => if next = s!!"max-stale" then .ok (some (maxStale none)) else .err 400
    | none => .ok none

theorem fromStr_eq (p : Str) : ∃ next parts, split '=' (trim p) = next :: parts ∧
    fromStr p = if trim p = [] then .ok none else named (lower next) (parts.map lower) := by
  cases hs : split '=' (trim p) with
  | nil => exact absurd hs (split_ne_nil _ _)
  | cons next parts =>
    refine ⟨next, parts, rfl, ?_⟩
    unfold fromStr
    by_cases he : trim p = []
    · simp only [if_pos he]
    · simp only [if_neg he]
      rw [split_lower (by decide) (by decide), hs, List.map_cons]
      simp only
      generalize lower next = n
      generalize parts.map lower = ps
      unfold named getDur
      by_cases h1 : n = s!!"immutable"
      · subst h1; rfl
      rw [if_neg h1]
      by_cases h2 : n = s!!"no-cache"
      · subst h2; rfl
      rw [if_neg h2]
      by_cases h3 : n = s!!"no-store"
      · subst h3; rfl
      rw [if_neg h3]
      by_cases h4 : n = s!!"no-transform"
      · subst h4; rfl
      rw [if_neg h4]
      by_cases h5 : n = s!!"only-if-cached"
      · subst h5; rfl
      rw [if_neg h5]
      by_cases h6 : n = s!!"must-revalidate"
      · subst h6; rfl
      rw [if_neg h6]
      by_cases h7 : n = s!!"public"
      · subst h7; rfl
      rw [if_neg h7]
      by_cases h8 : n = s!!"private"
      · subst h8; rfl
      rw [if_neg h8]
      by_cases h9 : n = s!!"proxy-revalidate"
      · subst h9; rfl
      rw [if_neg h9]
      by_cases h10 : n = s!!"max-age"
      · subst h10; cases ps <;> rfl
      rw [if_neg h10]
      by_cases h11 : n = s!!"max-stale"
      · subst h11; cases ps <;> rfl
      rw [if_neg h11]
      by_cases h12 : n = s!!"min-fresh"
      · subst h12; cases ps <;> rfl
      rw [if_neg h12]
      by_cases h13 : n = s!!"s-maxage"
      · subst h13; cases ps <;> rfl
      rw [if_neg h13]
      by_cases h14 : n = s!!"stale-if-error"
      · subst h14; cases ps <;> rfl
      rw [if_neg h14]
      by_cases h15 : n = s!!"stale-while-revalidate"
      · subst h15; cases ps <;> rfl
      rw [if_neg h15]
      have hf : cacheFlags.lookup n = none := by
        simp only [cacheFlags, List.lookup, beq_eq_false_iff_ne.mpr h1, beq_eq_false_iff_ne.mpr h2,
          beq_eq_false_iff_ne.mpr h3, beq_eq_false_iff_ne.mpr h4, beq_eq_false_iff_ne.mpr h5,
          beq_eq_false_iff_ne.mpr h6, beq_eq_false_iff_ne.mpr h7, beq_eq_false_iff_ne.mpr h8,
          beq_eq_false_iff_ne.mpr h9]
      have ht : cacheTimed.lookup n = none := by
        simp only [cacheTimed, List.lookup, beq_eq_false_iff_ne.mpr h10, beq_eq_false_iff_ne.mpr h11,
          beq_eq_false_iff_ne.mpr h12, beq_eq_false_iff_ne.mpr h13, beq_eq_false_iff_ne.mpr h14,
          beq_eq_false_iff_ne.mpr h15]
      rw [hf, ht]

end CacheDirective

end HT
