import Verif.Spec.Mime
import Verif.Lemmas.Cache
import Mathlib.Data.List.TakeWhile

/-! Lemmas about media types. -/

namespace HT
open Spec

namespace Mime

theorem char_le {a b : Char} : a ≤ b ↔ a.toNat ≤ b.toNat := by
  rw [Char.le_def, UInt32.le_iff_toNat_le]; rfl

theorem isToken_iff (c : Char) : isToken c = true ↔ TChar c := by
  unfold isToken TChar Char.isAlphanum Char.isAlpha Char.isUpper Char.isLower Char.isDigit
  simp only [Bool.or_eq_true, Bool.and_eq_true, decide_eq_true_eq, List.contains_iff_mem, ge_iff_le,
    Char.le_def]
  have e : ∀ (a : UInt32), a = a := fun _ => rfl
  constructor
  · rintro (((h | h) | h) | h)
    · exact .inr h
    · exact .inl (.inl (.inr h))
    · exact .inl (.inl (.inl h))
    · exact .inl (.inr h)
  · rintro (((h | h) | h) | h)
    · exact .inl (.inr h)
    · exact .inl (.inl (.inr h))
    · exact .inr h
    · exact .inl (.inl (.inl h))

theorem tchar_nat {c : Char} (h : TChar c) : 33 ≤ c.toNat ∧ c.toNat ≤ 126 := by
  have := (isToken_iff c).mpr h
  unfold isToken at this
  simp only [Bool.or_eq_true, Bool.and_eq_true, decide_eq_true_eq, List.contains_iff_mem, char_le] at this
  rcases this with ((h | h) | h) | h
  · have key : ∀ d ∈ s!!"!#$%&'*+-.^_`|~", 33 ≤ d.toNat ∧ d.toNat ≤ 126 := by decide
    exact key c h
  all_goals
    have a := h.1
    have b := h.2
    simp only [Char.reduceToNat] at a b
    omega

theorem isQuotable_iff (c : Char) : isQuotable c = true ↔ QuotedChar c := by
  unfold isQuotable QuotedChar
  simp only [Bool.or_eq_true, Bool.and_eq_true, decide_eq_true_eq, beq_iff_eq, char_le]
  simp only [Char.reduceToNat]
  constructor
  · rintro ((h | h) | h)
    · exact .inl h
    · exact .inr (by omega)
    · exact .inr (by omega)
  · rintro (h | h)
    · exact .inl (.inl h)
    · by_cases h' : c.toNat ≤ 126
      · exact .inl (.inr (by omega))
      · exact .inr (by omega)

theorem isHttpWs_iff (c : Char) : isHttpWs c = true ↔ (c = ' ' ∨ c = '\t' ∨ c = '\n' ∨ c = '\r') := by
  unfold isHttpWs
  simp only [Bool.or_eq_true, beq_iff_eq]
  tauto

theorem httpWs_iff {s : Str} : HttpWs s ↔ ∀ c ∈ s, isHttpWs c = true := by
  unfold HttpWs
  simp only [isHttpWs_iff]

theorem token_all {s : Str} (h : Token s) : s.all isToken = true := by
  rw [List.all_eq_true]
  exact fun c hc => (isToken_iff c).mpr (h.2 c hc)

theorem token_of {s : Str} (h1 : s ≠ []) (h2 : s.all isToken = true) : Token s := by
  rw [List.all_eq_true] at h2
  exact ⟨h1, fun c hc => (isToken_iff c).mp (h2 c hc)⟩

theorem isToken_not_ws {c : Char} (h : TChar c) : isHttpWs c = false := by
  have := tchar_nat h
  rw [← Bool.not_eq_true, isHttpWs_iff]
  rintro (rfl | rfl | rfl | rfl) <;> revert this <;> decide

theorem token_not_mem {s : Str} (h : Token s) {c : Char} (hc : isToken c = false) : c ∉ s := by
  intro hm
  have := (isToken_iff c).mpr (h.2 c hm)
  rw [hc] at this
  cases this

theorem isToken_lowerC (c : Char) : isToken (lowerC c) = isToken c := by
  by_cases hu : 65 ≤ c.toNat ∧ c.toNat ≤ 90
  · have h1 := lowerC_toNat c
    rw [if_pos hu] at h1
    have a : isToken c = true := by
      unfold isToken
      simp only [Bool.or_eq_true, Bool.and_eq_true, decide_eq_true_eq, char_le]
      simp only [Char.reduceToNat]
      exact .inl (.inr hu)
    have b : isToken (lowerC c) = true := by
      unfold isToken
      simp only [Bool.or_eq_true, Bool.and_eq_true, decide_eq_true_eq, char_le]
      simp only [Char.reduceToNat]
      exact .inl (.inl (.inr (by omega)))
    rw [a, b]
  · unfold lowerC
    rw [if_neg hu]

theorem token_lower {s : Str} (h : Token s) : Token (lower s) := by
  refine token_of ?_ ?_
  · intro e
    exact h.1 (List.map_eq_nil_iff.mp e)
  · have := token_all h
    rw [List.all_eq_true] at this ⊢
    intro c hc
    unfold lower at hc
    rw [List.mem_map] at hc
    obtain ⟨d, hd, rfl⟩ := hc
    rw [isToken_lowerC]
    exact this d hd

theorem token_ascii {s : Str} (h : Token s) : isAscii s = true := by
  unfold isAscii
  rw [List.all_eq_true]
  intro c hc
  have := tchar_nat (h.2 c hc)
  simp [isAsciiC]
  omega

theorem noUpper_lower (s : Str) : NoUpper (lower s) := by
  intro c hc
  unfold lower at hc
  rw [List.mem_map] at hc
  obtain ⟨d, hd, rfl⟩ := hc
  rw [char_le, char_le]
  have := lowerC_toNat d
  simp only [Char.reduceToNat]
  split at this <;> omega

theorem lower_of_noUpper {s : Str} (h : NoUpper s) : lower s = s := by
  induction s with
  | nil => rfl
  | cons c s ih =>
    rw [lower_cons, ih (fun c hc => h c (by simp [hc]))]
    unfold lowerC
    rw [if_neg]
    have := h c (by simp)
    rw [char_le, char_le] at this
    exact this

/-! ### collect -/

theorem collect_found {d : List Char} {a : Str} {c : Char} {b : Str} (ha : ∀ x ∈ a, x ∉ d) (hc : c ∈ d) :
    collect d (a ++ c :: b) = (a, c :: b) := by
  unfold collect
  rw [List.takeWhile_append_of_pos, List.dropWhile_append_of_pos, List.takeWhile_cons_of_neg, List.dropWhile_cons_of_neg]
  · simp
  all_goals simp_all

theorem collect_end {d : List Char} {a : Str} (ha : ∀ x ∈ a, x ∉ d) : collect d a = (a, []) := by
  unfold collect
  rw [List.takeWhile_eq_self_iff.mpr, List.dropWhile_eq_nil_iff.mpr]
  all_goals simp_all

theorem collect_cases (d : List Char) (s : Str) :
    (collect d s = (s, []) ∧ ∀ x ∈ s, x ∉ d) ∨
    ∃ a c b, s = a ++ c :: b ∧ c ∈ d ∧ (∀ x ∈ a, x ∉ d) ∧ collect d s = (a, c :: b) := by
  induction s with
  | nil => exact .inl ⟨rfl, by simp⟩
  | cons x s ih =>
    by_cases hx : x ∈ d
    · right
      refine ⟨[], x, s, rfl, hx, by simp, ?_⟩
      exact collect_found (a := []) (by simp) hx
    · rcases ih with ⟨h1, h2⟩ | ⟨a, c, b, rfl, hc, ha, -⟩
      · left
        have : ∀ y ∈ x :: s, y ∉ d := by
          intro y hy
          rcases List.mem_cons.mp hy with rfl | hy
          · exact hx
          · exact h2 y hy
        exact ⟨collect_end this, this⟩
      · right
        have : ∀ y ∈ x :: a, y ∉ d := by
          intro y hy
          rcases List.mem_cons.mp hy with rfl | hy
          · exact hx
          · exact ha y hy
        exact ⟨x :: a, c, b, rfl, hc, this, collect_found (a := x :: a) this hc⟩

/-- What follows is the end or a semicolon. -/
def AtSemi (s : Str) : Prop := s = [] ∨ ∃ r, s = ';' :: r

theorem collect_semi {a rest : Str} (ha : ';' ∉ a) (hr : AtSemi rest) : collect [';'] (a ++ rest) = (a, rest) := by
  rcases hr with rfl | ⟨r, rfl⟩
  · rw [List.append_nil]
    exact collect_end (by intro x hx; simp; rintro rfl; exact ha hx)
  · exact collect_found (by intro x hx; simp; rintro rfl; exact ha hx) (by simp)

theorem collect_semi_atSemi (s : Str) : AtSemi (collect [';'] s).2 := by
  rcases collect_cases [';'] s with ⟨h, -⟩ | ⟨a, c, b, -, hc, -, h⟩
  · rw [h]; exact .inl rfl
  · rw [h]
    simp at hc
    subst hc
    exact .inr ⟨b, rfl⟩

theorem dropOne_ascii {c : Char} {s : Str} (h : isAsciiC c = true) : dropOne (c :: s) = .ok s := by
  rw [dropOne, if_pos h]

theorem startsWith_one {c : Char} {s : Str} : startsWith [c] s = true ↔ ∃ r, s = c :: r := by
  rw [startsWith_iff]
  constructor
  · rintro ⟨r, rfl⟩; exact ⟨r, rfl⟩
  · rintro ⟨r, rfl⟩; exact ⟨r, rfl⟩

/-! ### whitespace trimming -/

theorem dropWhile_ws {w s : Str} (hw : HttpWs w) (hs : ∀ c ∈ s.head?, isHttpWs c = false) :
    (w ++ s).dropWhile isHttpWs = s := by
  rw [List.dropWhile_append_of_pos (httpWs_iff.mp hw)]
  cases s with
  | nil => rfl
  | cons c s => rw [List.dropWhile_cons_of_neg (by simp [hs c rfl])]

theorem trimEndWs_append_ws {w : Str} (hw : HttpWs w) (s : Str) : trimEndWs (s ++ w) = trimEndWs s := by
  unfold trimEndWs
  rw [List.reverse_append, List.dropWhile_append_of_pos]
  intro c hc
  exact httpWs_iff.mp hw c (List.mem_reverse.mp hc)

theorem trimEndWs_self {s : Str} (h : ∀ c ∈ s.getLast?, isHttpWs c = false) : trimEndWs s = s := by
  unfold trimEndWs
  cases hr : s.reverse with
  | nil => rw [List.reverse_eq_nil_iff] at hr; subst hr; rfl
  | cons c r =>
    have : s = r.reverse ++ [c] := by
      rw [← List.reverse_reverse s, hr]; simp
    rw [List.dropWhile_cons_of_neg]
    · rw [← hr, List.reverse_reverse]
    · have := h c (by rw [this]; simp)
      simp [this]

theorem token_trimEnd {s : Str} (h : Token s) : trimEndWs s = s := by
  apply trimEndWs_self
  intro c hc
  exact isToken_not_ws (h.2 c (List.mem_of_getLast? hc))

theorem trimEndWs_append {a b : Str} (h : ∃ c ∈ b, isHttpWs c = false) : trimEndWs (a ++ b) = a ++ trimEndWs b := by
  unfold trimEndWs
  rw [List.reverse_append]
  have : ∃ c ∈ b.reverse, isHttpWs c = false := by
    obtain ⟨c, h1, h2⟩ := h
    exact ⟨c, by simpa using h1, h2⟩
  generalize b.reverse = r at this
  have : (r ++ a.reverse).dropWhile isHttpWs = r.dropWhile isHttpWs ++ a.reverse := by
    induction r with
    | nil => obtain ⟨c, h1, -⟩ := this; cases h1
    | cons x r ih =>
      by_cases hx : isHttpWs x = true
      · rw [List.cons_append, List.dropWhile_cons_of_pos hx, List.dropWhile_cons_of_pos hx]
        apply ih
        obtain ⟨c, h1, h2⟩ := this
        rcases List.mem_cons.mp h1 with rfl | h1
        · rw [hx] at h2; cases h2
        · exact ⟨c, h1, h2⟩
      · rw [List.cons_append, List.dropWhile_cons_of_neg hx, List.dropWhile_cons_of_neg hx]
        rfl
  rw [this]
  simp

/-! ### quoted strings -/

theorem quotedFrom_cons (start : Str) (c : Char) (s : Str) : quotedFrom start (c :: s) =
    if c = '"' then ([], s)
    else if c = '\\' then
      match s with
      | [] => (['\\'], [])
      | d :: s => ((d :: (quotedTail s).1), (quotedTail s).2)
    else ((c :: (quotedFrom start s).1), (quotedFrom start s).2) := by
  rw [quotedFrom.eq_def]
  rfl

theorem quotedFrom_escaped {e v : Str} (h : Escaped e v) (start r : Str) : quotedFrom start (e ++ '"' :: r) = (v, r) := by
  induction h generalizing start with
  | nil => rw [List.nil_append, quotedFrom_cons, if_pos rfl]
  | plain h1 h2 _ ih =>
    rw [List.cons_append, quotedFrom_cons, if_neg h1, if_neg h2, ih]
  | pair _ ih =>
    rw [List.cons_append, List.cons_append, quotedFrom_cons, if_neg (by decide), if_pos rfl]
    simp only [quotedTail, ih]

theorem quotedTail_escaped {e v : Str} (h : Escaped e v) (r : Str) : quotedTail (e ++ '"' :: r) = (v, r) :=
  quotedFrom_escaped h _ r

theorem escaped_escape (v : Str) : Escaped (escape v) v := by
  induction v with
  | nil => exact .nil
  | cons c v ih =>
    unfold escape at ih ⊢
    rw [List.flatMap_cons]
    by_cases hc : c = '"' ∨ c = '\\'
    · rw [if_pos hc]
      exact .pair ih
    · rw [if_neg hc]
      exact .plain (fun h => hc (.inl h)) (fun h => hc (.inr h)) ih

/-! ### the loop -/

theorem paramLoop_nil (acc : List (Str × Str) × Bool) : paramLoop [] acc = .ok acc := by
  rw [paramLoop, if_pos rfl]

theorem paramLoop_break {input : Str} {acc : List (Str × Str) × Bool} (h : paramStep input = .ok none) :
    paramLoop input acc = .ok acc := by
  rw [paramLoop]
  split
  · rfl
  · split <;> rename_i h' <;> rw [h] at h' <;> cases h'

theorem paramLoop_next {input rest : Str} {acc : List (Str × Str) × Bool} {p : Option (Str × Str)}
    (h : paramStep input = .ok (some (p, rest))) :
    paramLoop input acc = paramLoop rest (match p with | some p => addParam acc p | none => acc) := by
  rw [paramLoop]
  have hne : input ≠ [] := by
    rintro rfl
    cases h
  rw [if_neg hne]
  split <;> rename_i h' <;> rw [h] at h' <;> cases h'
  rfl

/-- One pass on input that begins with a semicolon never fails, and stops again at a semicolon. -/
theorem paramStep_semi (r : Str) :
    ∃ o, paramStep (';' :: r) = .ok o ∧
      ∀ p rest, o = some (p, rest) → AtSemi rest ∧ ∀ n v, p = some (n, v) → ∃ n', n = lower n' := by
  unfold paramStep
  rw [dropOne_ascii (by decide)]
  simp only [Res.bind_ok]
  generalize r.dropWhile isHttpWs = j
  rcases collect_cases [';', '='] j with ⟨h, -⟩ | ⟨a, c, b, -, hc, -, h⟩
  · rw [h]
    simp only [if_true]
    exact ⟨none, rfl, by intro p rest h; cases h⟩
  · rw [h]
    simp only [List.cons_ne_nil, if_false]
    by_cases hs : startsWith s!!";" (c :: b) = true
    · rw [if_pos hs]
      refine ⟨_, rfl, ?_⟩
      intro p rest h
      cases h
      refine ⟨?_, by intro n v h; cases h⟩
      obtain ⟨r', hr'⟩ := startsWith_one.mp hs
      exact .inr ⟨r', hr'⟩
    · rw [if_neg hs]
      have hasc : isAsciiC c = true := by
        simp only [List.mem_cons, List.not_mem_nil, or_false] at hc
        rcases hc with rfl | rfl <;> decide
      rw [dropOne_ascii hasc]
      simp only [Res.bind_ok]
      by_cases hq : startsWith s!!"\"" b = true
      · rw [if_pos hq]
        obtain ⟨r', rfl⟩ := startsWith_one.mp hq
        unfold collectQuoted
        rw [dropOne_ascii (by decide)]
        refine ⟨_, rfl, ?_⟩
        intro p rest h
        cases h
        exact ⟨collect_semi_atSemi _, by intro n v h; cases h; exact ⟨a, rfl⟩⟩
      · rw [if_neg hq]
        split
        · refine ⟨_, rfl, ?_⟩
          intro p rest h
          cases h
          exact ⟨collect_semi_atSemi _, by intro n v h; cases h⟩
        · refine ⟨_, rfl, ?_⟩
          intro p rest h
          cases h
          exact ⟨collect_semi_atSemi _, by intro n v h; cases h; exact ⟨a, rfl⟩⟩

/-- Invariant of the collected parameters. -/
structure AccOk (acc : List (Str × Str) × Bool) : Prop where
  names : ∀ e ∈ acc.1, Token e.1 ∧ NoUpper e.1
  nodup : (acc.1.map (·.1)).Nodup
  values : ∀ e ∈ acc.1, ∀ c ∈ e.2, QuotedChar c
  charset : (s!!"charset", s!!"utf-8") ∉ acc.1

theorem addParam_ok {acc : List (Str × Str) × Bool} {n v : Str} (h : AccOk acc) (hn : ∃ n', n = lower n') :
    AccOk (addParam acc (n, v)) := by
  unfold addParam
  by_cases h1 : n = s!!"charset" ∧ v = s!!"utf-8"
  · rw [if_pos h1]
    exact ⟨h.names, h.nodup, h.values, h.charset⟩
  · rw [if_neg h1]
    by_cases h2 : n ≠ [] ∧ n.all isToken = true ∧ v.all isQuotable = true
    · rw [if_pos h2]
      split
      · exact h
      · rename_i h3
        simp only [List.any_eq_true, beq_iff_eq, not_exists, not_and] at h3
        refine ⟨?_, ?_, ?_, ?_⟩
        · intro e he
          rcases List.mem_append.mp he with he | he
          · exact h.names e he
          · simp at he
            subst he
            obtain ⟨n', rfl⟩ := hn
            exact ⟨token_of h2.1 h2.2.1, noUpper_lower n'⟩
        · simp only [List.map_append, List.map_cons, List.map_nil]
          rw [List.nodup_append]
          refine ⟨h.nodup, by simp, ?_⟩
          intro a ha b hb
          simp at hb
          subst hb
          rw [List.mem_map] at ha
          obtain ⟨e, he, rfl⟩ := ha
          exact h3 e he
        · intro e he
          rcases List.mem_append.mp he with he | he
          · exact h.values e he
          · simp at he
            subst he
            have := h2.2.2
            rw [List.all_eq_true] at this
            exact fun c hc => (isQuotable_iff c).mp (this c hc)
        · intro he
          rcases List.mem_append.mp he with he | he
          · exact h.charset he
          · simp at he
            exact h1 ⟨he.1.symm, he.2.symm⟩
    · rw [if_neg h2]
      exact h

theorem paramLoop_ok {input : Str} {acc : List (Str × Str) × Bool} (hi : AtSemi input) (ha : AccOk acc) :
    ∃ acc', paramLoop input acc = .ok acc' ∧ AccOk acc' := by
  induction hn : input.length using Nat.strongRecOn generalizing input acc with
  | ind n ih =>
    subst hn
    rcases hi with rfl | ⟨r, rfl⟩
    · exact ⟨acc, paramLoop_nil acc, ha⟩
    · obtain ⟨o, h1, h2⟩ := paramStep_semi r
      cases o with
      | none => exact ⟨acc, paramLoop_break h1, ha⟩
      | some pr =>
        obtain ⟨p, rest⟩ := pr
        obtain ⟨h3, h4⟩ := h2 p rest rfl
        rw [paramLoop_next h1]
        apply ih rest.length (paramStep_length h1) h3 _ rfl
        cases p with
        | none => exact ha
        | some nv =>
          obtain ⟨n, v⟩ := nv
          exact addParam_ok ha (h4 n v rfl)

/-! ### input in the grammar -/

theorem paramsText_atSemi {t : Str} {ps : List (Str × Str)} (h : ParamsText t ps) : AtSemi t := by
  cases h with
  | nil => exact .inl rfl
  | cons => exact .inr ⟨_, rfl⟩

theorem ws_no_semi {w : Str} (h : HttpWs w) : ';' ∉ w := by
  intro hm
  have := httpWs_iff.mp h _ hm
  revert this
  decide

theorem paramStep_text {w1 n raw v w2 rest : Str} (h1 : HttpWs w1) (hn : Token n) (hv : ValueText raw v)
    (h2 : HttpWs w2) (hr : AtSemi rest) :
    paramStep (';' :: (w1 ++ (n ++ '=' :: (raw ++ (w2 ++ rest))))) = .ok (some (some (lower n, v), rest)) := by
  unfold paramStep
  rw [dropOne_ascii (by decide)]
  simp only [Res.bind_ok]
  rw [dropWhile_ws h1]
  · rw [collect_found (d := [';', '='])]
    · simp only [reduceCtorEq, if_false]
      rw [if_neg (by rw [startsWith_one]; rintro ⟨r, h⟩; cases h), dropOne_ascii (by decide)]
      simp only [Res.bind_ok]
      rcases hv with ⟨rfl, ht⟩ | ⟨e, rfl, he, -⟩
      · rw [if_neg]
        · rw [← List.append_assoc, collect_semi _ hr]
          · simp only
            rw [trimEndWs_append_ws h2, token_trimEnd ht, if_neg ht.1]
          · rw [List.mem_append]
            rintro (h | h)
            · exact token_not_mem ht (by decide) h
            · exact ws_no_semi h2 h
        · rw [startsWith_one]
          rintro ⟨r, h⟩
          cases hraw : raw with
          | nil => exact ht.1 hraw
          | cons c s =>
            rw [hraw] at h
            cases h
            exact token_not_mem ht (c := '"') (by decide) (by rw [hraw]; simp)
      · rw [if_pos (by rw [startsWith_one]; exact ⟨_, rfl⟩)]
        unfold collectQuoted
        rw [List.cons_append, dropOne_ascii (by decide)]
        simp only [Res.map_ok, List.append_assoc, List.cons_append, List.nil_append]
        rw [quotedTail_escaped he]
        simp only
        rw [collect_semi (ws_no_semi h2) hr]
    · intro x hx
      simp only [List.mem_cons, List.not_mem_nil, or_false]
      rintro (rfl | rfl)
      · exact token_not_mem hn (by decide) hx
      · exact token_not_mem hn (by decide) hx
    · simp
  · intro c hc
    cases n with
    | nil => exact absurd rfl hn.1
    | cons d n =>
      cases hc
      exact isToken_not_ws (hn.2 _ (by simp))

theorem paramLoop_text {t : Str} {ps : List (Str × Str)} (h : ParamsText t ps) (acc : List (Str × Str) × Bool) :
    paramLoop t acc = .ok ((ps.map fun e => (lower e.1, e.2)).foldl addParam acc) := by
  induction h generalizing acc with
  | nil => exact paramLoop_nil acc
  | cons h1 hn hv h2 hr ih =>
    rw [paramLoop_next (paramStep_text h1 hn hv h2 (paramsText_atSemi hr)), ih]
    rfl

theorem valueText_last {raw v : Str} (h : ValueText raw v) : ∃ r c, raw = r ++ [c] ∧ isHttpWs c = false := by
  rcases h with ⟨rfl, ht⟩ | ⟨e, rfl, -, -⟩
  · obtain ⟨r, c, rfl⟩ : ∃ r c, raw = r ++ [c] := by
      rcases List.eq_nil_or_concat raw with h | ⟨r, c, h⟩
      · exact absurd h ht.1
      · exact ⟨r, c, by simpa using h⟩
    exact ⟨r, c, rfl, isToken_not_ws (ht.2 c (by simp))⟩
  · exact ⟨'"' :: e, '"', by simp, by decide⟩

theorem paramsText_trim {t : Str} {ps : List (Str × Str)} (h : ParamsText t ps) : ParamsText (trimEndWs t) ps := by
  induction h with
  | nil => exact .nil
  | @cons w1 n raw v w2 rest ps h1 hn hv h2 hr ih =>
    obtain ⟨r, c, hraw, hc⟩ := valueText_last hv
    cases hrest : rest with
    | nil =>
      subst hrest
      have hps : ParamsText [] ps := hr
      have e : ';' :: (w1 ++ (n ++ '=' :: (raw ++ (w2 ++ [])))) =
          (';' :: (w1 ++ (n ++ '=' :: raw))) ++ w2 := by simp
      rw [e, trimEndWs_append_ws h2, trimEndWs_self]
      · have := ParamsText.cons (w2 := []) (rest := []) h1 hn hv (by intro c hc; cases hc) hps
        simpa using this
      · intro x hx
        have e2 : ';' :: (w1 ++ (n ++ '=' :: raw)) = (';' :: (w1 ++ (n ++ '=' :: r))) ++ [c] := by
          rw [hraw]; simp
        rw [e2, List.getLast?_append] at hx
        simp at hx
        subst hx
        exact hc
    | cons d rest' =>
      rw [← hrest]
      have hsemi := paramsText_atSemi hr
      rw [hrest] at hsemi
      have hd : d = ';' := by
        rcases hsemi with h | ⟨r, h⟩
        · cases h
        · cases h; rfl
      have e : ';' :: (w1 ++ (n ++ '=' :: (raw ++ (w2 ++ rest)))) =
          (';' :: (w1 ++ (n ++ '=' :: (raw ++ w2)))) ++ rest := by simp
      rw [e, trimEndWs_append ⟨';', by rw [hrest, hd]; simp, by decide⟩]
      have := ParamsText.cons h1 hn hv h2 ih
      simpa using this

theorem trimEndWs_ws {w : Str} (h : HttpWs w) : trimEndWs w = [] := by
  exact trimEndWs_append_ws h []

/-- A text in the grammar without the surrounding whitespace. -/
theorem trimWs_text {s base sub : Str} {ps : List (Str × Str)} (h : MediaText s base sub ps) :
    Token base ∧ Token sub ∧ ∃ w3 pt', HttpWs w3 ∧ ParamsText pt' ps ∧
      trimWs s = base ++ '/' :: (sub ++ (w3 ++ pt')) := by
  obtain ⟨w1, w2, pt, hw1, hw2, hb, hs, hp, rfl⟩ := h
  refine ⟨hb, hs, ?_⟩
  unfold trimWs
  rw [dropWhile_ws hw1]
  · cases hpt : pt with
    | nil =>
      rw [hpt] at hp
      refine ⟨[], [], (by intro c hc; cases hc), hp, ?_⟩
      have e : base ++ '/' :: (sub ++ (w2 ++ [])) = (base ++ '/' :: sub) ++ w2 := by simp
      rw [e, trimEndWs_append_ws hw2, trimEndWs_self]
      · simp
      · intro c hc
        obtain ⟨r, d, hd, hd2⟩ := valueText_last (raw := sub) (v := sub) (.inl ⟨rfl, hs⟩)
        rw [hd, show base ++ '/' :: (r ++ [d]) = (base ++ '/' :: r) ++ [d] by simp, List.getLast?_append] at hc
        simp at hc
        subst hc
        exact hd2
    | cons d pt' =>
      rw [← hpt]
      have hsemi := paramsText_atSemi hp
      rw [hpt] at hsemi
      have hd : d = ';' := by
        rcases hsemi with h | ⟨r, h⟩
        · cases h
        · cases h; rfl
      refine ⟨w2, trimEndWs pt, hw2, paramsText_trim hp, ?_⟩
      have e : base ++ '/' :: (sub ++ (w2 ++ pt)) = (base ++ '/' :: (sub ++ w2)) ++ pt := by simp
      rw [e, trimEndWs_append ⟨';', by rw [hpt, hd]; simp, by decide⟩]
      simp
  · intro c hc
    cases base with
    | nil => exact absurd rfl hb.1
    | cons d n =>
      cases hc
      exact isToken_not_ws (hb.2 _ (by simp))

/-- Parsing a text in the grammar. -/
theorem parse_text {s base sub : Str} {ps : List (Str × Str)} (h : MediaText s base sub ps) :
    parse s = .ok
      { essence := lower base ++ '/' :: lower sub
        basetype := lower base
        subtype := lower sub
        params := ((ps.map fun e => (lower e.1, e.2)).foldl addParam ([], false)).1
        isUtf8 := ((ps.map fun e => (lower e.1, e.2)).foldl addParam ([], false)).2 } := by
  obtain ⟨hb, hs, w3, pt', hw3, hp', he⟩ := trimWs_text h
  unfold parse
  simp only [he]
  rw [collect_found (d := ['/'])]
  · simp only [if_neg hb.1, token_all hb, Bool.not_true, Bool.false_eq_true, if_false, reduceCtorEq]
    rw [dropOne_ascii (by decide)]
    simp only [Res.bind_ok]
    rw [← List.append_assoc, collect_semi _ (paramsText_atSemi hp')]
    · simp only
      rw [trimEndWs_append_ws hw3, token_trimEnd hs]
      simp only [if_neg hs.1, token_all hs, Bool.not_true, Bool.false_eq_true, if_false]
      rw [paramLoop_text hp']
      simp
    · rw [List.mem_append]
      rintro (h | h)
      · exact token_not_mem hs (by decide) h
      · exact ws_no_semi hw3 h
  · intro x hx
    simp only [List.mem_cons, List.not_mem_nil, or_false]
    rintro rfl
    exact token_not_mem hb (by decide) hx
  · simp

/-- What collecting legal parameters gives. -/
theorem foldl_addParam (ps : List (Str × Str)) (acc : List (Str × Str)) (u : Bool)
    (h : ∀ e ∈ ps, Token e.1 ∧ ∀ c ∈ e.2, QuotedChar c) :
    ps.foldl addParam (acc, u) =
      (acc ++ (firstOf (ps.filter fun e => e ≠ (s!!"charset", s!!"utf-8"))).filter (fun e => acc.all fun a => a.1 ≠ e.1),
        u || ps.any fun e => e = (s!!"charset", s!!"utf-8")) := by
  induction ps generalizing acc u with
  | nil => simp [firstOf]
  | cons p ps ih =>
    obtain ⟨n, v⟩ := p
    have ih' := fun acc u => ih acc u (fun e he => h e (by simp [he]))
    obtain ⟨hn, hv⟩ := h (n, v) (by simp)
    rw [List.foldl_cons]
    by_cases h1 : n = s!!"charset" ∧ v = s!!"utf-8"
    · have : addParam (acc, u) (n, v) = (acc, true) := by unfold addParam; rw [if_pos h1]
      rw [this, ih']
      obtain ⟨rfl, rfl⟩ := h1
      simp
    · have hne : (n, v) ≠ (s!!"charset", s!!"utf-8") := fun e => h1 (by simpa using e)
      have hq : v.all isQuotable = true := by
        rw [List.all_eq_true]
        exact fun c hc => (isQuotable_iff c).mpr (hv c hc)
      rw [List.filter_cons_of_pos (by rw [decide_eq_true_eq]; exact hne), firstOf]
      rw [List.any_cons, show decide ((n, v) = (s!!"charset", s!!"utf-8")) = false by simpa using h1, Bool.false_or]
      by_cases h2 : acc.any (fun e => e.1 == n) = true
      · have : addParam (acc, u) (n, v) = (acc, u) := by
          unfold addParam
          rw [if_neg h1, if_pos ⟨hn.1, token_all hn, hq⟩]
          simp only
          rw [if_pos h2]
        rw [this, ih', List.filter_cons_of_neg]
        · rw [List.filter_filter]
          congr 2
          apply List.filter_congr
          intro e _
          rw [Bool.eq_iff_iff]
          simp only [Bool.and_eq_true, decide_eq_true_eq, List.all_eq_true]
          rw [List.any_eq_true] at h2
          obtain ⟨a, ha, ha2⟩ := h2
          simp only [beq_iff_eq] at ha2
          constructor
          · intro hall
            refine ⟨hall, ?_⟩
            intro e1
            exact hall a ha (by rw [ha2, e1])
          · exact fun h => h.1
        · rw [List.any_eq_true] at h2
          obtain ⟨a, ha, ha2⟩ := h2
          simp only [beq_iff_eq] at ha2
          simp only [List.all_eq_true, decide_eq_true_eq]
          intro hall
          exact hall a ha ha2
      · have : addParam (acc, u) (n, v) = (acc ++ [(n, v)], u) := by
          unfold addParam
          rw [if_neg h1, if_pos ⟨hn.1, token_all hn, hq⟩]
          simp only
          rw [if_neg h2]
        rw [this, ih', List.filter_cons_of_pos]
        · rw [List.filter_filter]
          simp only [List.append_assoc, List.cons_append, List.nil_append]
          congr 3
          apply List.filter_congr
          intro e _
          rw [Bool.eq_iff_iff]
          simp only [Bool.and_eq_true, decide_eq_true_eq, List.all_eq_true, List.mem_append, List.mem_cons,
            List.not_mem_nil, or_false]
          constructor
          · intro hall
            exact ⟨fun a ha => hall a (.inl ha), fun e1 => hall (n, v) (.inr rfl) e1.symm⟩
          · rintro ⟨h3, h4⟩ a (ha | rfl)
            · exact h3 a ha
            · exact fun e1 => h4 e1.symm
        · simp only [List.any_eq_true, beq_iff_eq, not_exists, not_and] at h2
          simp only [List.all_eq_true, decide_eq_true_eq]
          exact h2

end Mime

end HT
