import Verif.Spec.Whatwg
import Verif.Props.Mime

/-! Media types against the WHATWG standard: C96. -/

namespace HT
open Spec Mime

theorem whatwg_isWs (c : Char) : Whatwg.isWs c = isHttpWs c := by
  unfold Whatwg.isWs isHttpWs
  simp [Bool.decide_or, Bool.or_assoc, beq_eq_decide]

theorem whatwg_stripEnd (s : Str) : Whatwg.stripEnd s = trimEndWs s := by
  unfold Whatwg.stripEnd trimEndWs
  rw [show Whatwg.isWs = isHttpWs from funext whatwg_isWs]

/-- Collecting at a position and collecting from a text. -/
theorem whatwg_collect (cond : Char → Bool) (s : Str) (pos : Nat) :
    (Whatwg.collect cond s pos).1 = (s.drop pos).takeWhile cond ∧
      s.drop (Whatwg.collect cond s pos).2 = (s.drop pos).dropWhile cond := by
  refine ⟨rfl, ?_⟩
  unfold Whatwg.collect
  simp only
  rw [← List.drop_drop]
  conv_lhs => rw [← List.takeWhile_append_dropWhile (p := cond) (l := s.drop pos)]
  rw [List.takeWhile_append_dropWhile]
  conv_lhs => rw [← List.takeWhile_append_dropWhile (p := cond) (l := s.drop pos)]
  rw [List.takeWhile_append_dropWhile]
  generalize s.drop pos = t
  conv_lhs => arg 2; rw [← List.takeWhile_append_dropWhile (p := cond) (l := t)]
  rw [List.drop_left]

theorem whatwg_collect_delims (cond : Char → Bool) (ds : List Char) (h : ∀ c, cond c = !ds.contains c) (s : Str) (pos : Nat) :
    (Whatwg.collect cond s pos).1 = (Mime.collect ds (s.drop pos)).1 ∧
      s.drop (Whatwg.collect cond s pos).2 = (Mime.collect ds (s.drop pos)).2 := by
  obtain ⟨h1, h2⟩ := whatwg_collect cond s pos
  rw [h1, h2, show cond = fun c => !ds.contains c from funext h]
  exact ⟨rfl, rfl⟩

theorem getElem?_eq_head (s : Str) (p : Nat) : s[p]? = (s.drop p).head? := by
  rw [List.head?_drop]

theorem drop_succ_of {s : Str} {p : Nat} {c : Char} {r : Str} (h : s.drop p = c :: r) : s.drop (p + 1) = r := by
  rw [← List.drop_drop, h]
  rfl

/-- A run up to the next quote or backslash, then the rest. -/
theorem quotedFrom_run (start a r : Str) (ha : ∀ c ∈ a, c ≠ '"' ∧ c ≠ '\\') :
    quotedFrom start (a ++ r) = (a ++ (quotedFrom start r).1, (quotedFrom start r).2) := by
  induction a with
  | nil => rfl
  | cons c a ih =>
    obtain ⟨h1, h2⟩ := ha c (by simp)
    rw [List.cons_append, quotedFrom_cons, if_neg h1, if_neg h2, ih (fun d hd => ha d (by simp [hd]))]
    rfl

/-- No closing quote follows. -/
def unclosed : Str → Bool
  | [] => true
  | '"' :: _ => false
  | ['\\'] => false
  | '\\' :: _ :: s => unclosed s
  | _ :: s => unclosed s

theorem unclosed_plain {c : Char} (s : Str) (h1 : c ≠ '"') (h2 : c ≠ '\\') : unclosed (c :: s) = unclosed s := by
  rw [unclosed]
  · exact h1
  · exact fun h _ => h2 h
  · intro d s' h _
    exact h2 h

theorem unclosed_run (a r : Str) (ha : ∀ c ∈ a, c ≠ '"' ∧ c ≠ '\\') : unclosed (a ++ r) = unclosed r := by
  induction a with
  | nil => rfl
  | cons c a ih =>
    obtain ⟨h1, h2⟩ := ha c (by simp)
    rw [List.cons_append, unclosed_plain _ h1 h2, ih (fun d hd => ha d (by simp [hd]))]

theorem unclosed_escaped {e v : Str} (h : Escaped e v) (r : Str) : unclosed (e ++ '"' :: r) = false := by
  induction h with
  | nil => rfl
  | plain h1 h2 _ ih => rw [List.cons_append, unclosed_plain _ h1 h2, ih]
  | pair _ ih => exact ih

/-- The run of a quoted string up to the next quote or backslash. -/
abbrev qrun (s : Str) (pos : Nat) : Str × Nat := Whatwg.collect (fun c => decide (c ≠ '"' ∧ c ≠ '\\')) s pos

theorem quoted_end {s : Str} {pos : Nat} (value : Str) (h : s[(qrun s pos).2]? = none) :
    Whatwg.quoted s pos value = (value ++ (qrun s pos).1, (qrun s pos).2) ∧ Whatwg.lastRun s pos = some pos := by
  rw [Whatwg.quoted, Whatwg.lastRun]
  simp only
  constructor
  · split
    · rfl
    · rename_i h'; rw [h] at h'; cases h'
  · split
    · rfl
    · rename_i h'; rw [h] at h'; cases h'

theorem quoted_slash_end {s : Str} {pos : Nat} (value : Str) (h : s[(qrun s pos).2]? = some '\\')
    (h2 : s[(qrun s pos).2 + 1]? = none) :
    Whatwg.quoted s pos value = (value ++ (qrun s pos).1 ++ ['\\'], (qrun s pos).2 + 1) ∧ Whatwg.lastRun s pos = none := by
  rw [Whatwg.quoted, Whatwg.lastRun]
  simp only
  constructor
  · split
    · rename_i h'; rw [h] at h'; cases h'
    · rename_i h'; rw [h] at h'; cases h'
      rw [if_pos rfl]
      split
      · rfl
      · rename_i h'; rw [h2] at h'; cases h'
  · split
    · rename_i h'; rw [h] at h'; cases h'
    · rename_i h'; rw [h] at h'; cases h'
      rw [if_pos rfl]
      split
      · rfl
      · rename_i h'; rw [h2] at h'; cases h'

theorem quoted_slash {s : Str} {pos : Nat} {d : Char} (value : Str) (h : s[(qrun s pos).2]? = some '\\')
    (h2 : s[(qrun s pos).2 + 1]? = some d) :
    Whatwg.quoted s pos value = Whatwg.quoted s ((qrun s pos).2 + 2) (value ++ (qrun s pos).1 ++ [d]) ∧
      Whatwg.lastRun s pos = Whatwg.lastRun s ((qrun s pos).2 + 2) := by
  constructor
  · rw [Whatwg.quoted]
    simp only
    split
    · rename_i h'; rw [h] at h'; cases h'
    · rename_i h'; rw [h] at h'; cases h'
      rw [if_pos rfl]
      split
      · rename_i h'; rw [h2] at h'; cases h'
      · rename_i h'; rw [h2] at h'; cases h'; rfl
  · rw [Whatwg.lastRun]
    simp only
    split
    · rename_i h'; rw [h] at h'; cases h'
    · rename_i h'; rw [h] at h'; cases h'
      rw [if_pos rfl]
      split
      · rename_i h'; rw [h2] at h'; cases h'
      · rfl

theorem quoted_close {s : Str} {pos : Nat} {c : Char} (value : Str) (h : s[(qrun s pos).2]? = some c) (hc : c ≠ '\\') :
    Whatwg.quoted s pos value = (value ++ (qrun s pos).1, (qrun s pos).2 + 1) ∧ Whatwg.lastRun s pos = none := by
  rw [Whatwg.quoted, Whatwg.lastRun]
  simp only
  constructor
  · split
    · rename_i h'; rw [h] at h'; cases h'
    · rename_i h'; rw [h] at h'; cases h'
      rw [if_neg hc]
  · split
    · rename_i h'; rw [h] at h'; cases h'
    · rename_i h'; rw [h] at h'; cases h'
      rw [if_neg hc]

/-- What the code makes of a quoted string: the value of the standard; and the place of the standard, unless the string is not
closed: then the standard is at the end, and the code at the beginning of the last run. -/
theorem whatwg_quoted (s : Str) (pos : Nat) (value : Str) :
    (Whatwg.quoted s pos value).1 = value ++ (quotedTail (s.drop pos)).1 ∧
      (Whatwg.lastRun s pos = none → s.drop (Whatwg.quoted s pos value).2 = (quotedTail (s.drop pos)).2) ∧
      (Whatwg.lastRun s pos).isSome = unclosed (s.drop pos) ∧
      ∀ q, Whatwg.lastRun s pos = some q → s.drop q = (quotedTail (s.drop pos)).2 ∧
        s.length ≤ (Whatwg.quoted s pos value).2 ∧ pos ≤ q ∧ '"' ∉ s.drop q := by
  induction hn : s.length - pos using Nat.strongRecOn generalizing pos value with
  | ind n ih =>
    obtain ⟨h1, h2⟩ := whatwg_collect (fun c => decide (c ≠ '"' ∧ c ≠ '\\')) s pos
    have h0 : pos ≤ (qrun s pos).2 := Whatwg.collect_pos (fun c => decide (c ≠ '"' ∧ c ≠ '\\')) s pos
    have hall : ∀ c ∈ (qrun s pos).1, c ≠ '"' ∧ c ≠ '\\' := by
      intro c hc
      rw [h1] at hc
      have := List.all_eq_true.mp (List.all_takeWhile (p := fun c => decide (c ≠ '"' ∧ c ≠ '\\')) (l := s.drop pos)) c hc
      simpa using this
    have hs : s.drop pos = (qrun s pos).1 ++ s.drop (qrun s pos).2 := by
      rw [h1, h2, List.takeWhile_append_dropWhile]
    have hq : quotedTail (s.drop pos) = ((qrun s pos).1 ++ (quotedFrom (s.drop pos) (s.drop (qrun s pos).2)).1,
        (quotedFrom (s.drop pos) (s.drop (qrun s pos).2)).2) := by
      unfold quotedTail
      conv_lhs => arg 2; rw [hs]
      exact quotedFrom_run _ _ _ hall
    have hu : unclosed (s.drop pos) = unclosed (s.drop (qrun s pos).2) := by
      rw [hs]
      exact unclosed_run _ _ hall
    rw [hq, hu]
    have hhead : ∀ c r, s.drop (qrun s pos).2 = c :: r → c = '"' ∨ c = '\\' := by
      intro c r hr
      rw [h2] at hr
      have := List.head?_dropWhile_not (fun c => decide (c ≠ '"' ∧ c ≠ '\\')) (s.drop pos)
      rw [hr] at this
      simpa [or_iff_not_imp_left] using this
    cases h : s[(qrun s pos).2]? with
    | none =>
      have hl : s.length ≤ (qrun s pos).2 := List.getElem?_eq_none_iff.mp h
      obtain ⟨e1, e2⟩ := quoted_end value h
      rw [getElem?_eq_head, List.head?_eq_none_iff] at h
      rw [e1, e2, h]
      refine ⟨by simp [quotedFrom], fun e => (by cases e), rfl, fun q e => ?_⟩
      cases e
      refine ⟨by simp [quotedFrom], hl, Nat.le_refl _, ?_⟩
      rw [hs, h, List.append_nil]
      exact fun hm => (hall _ hm).1 rfl
    | some c =>
      have hg := h
      have hl := (List.getElem?_eq_some_iff.mp h).1
      rw [getElem?_eq_head] at h
      obtain ⟨r, hr⟩ : ∃ r, s.drop (qrun s pos).2 = c :: r := by
        cases hd : s.drop (qrun s pos).2 with
        | nil => rw [hd] at h; cases h
        | cons x r => rw [hd] at h; cases h; exact ⟨r, rfl⟩
      have hr1 := drop_succ_of hr
      rw [hr, quotedFrom_cons]
      by_cases hc : c = '\\'
      · subst hc
        rw [if_neg (by decide), if_pos rfl]
        cases h' : s[(qrun s pos).2 + 1]? with
        | none =>
          obtain ⟨e1, e2⟩ := quoted_slash_end value hg h'
          rw [getElem?_eq_head, List.head?_eq_none_iff, hr1] at h'
          subst h'
          rw [e1, e2]
          exact ⟨by simp, fun _ => hr1, rfl, fun q e => by cases e⟩
        | some d =>
          obtain ⟨e1, e2⟩ := quoted_slash value hg h'
          rw [getElem?_eq_head, hr1] at h'
          obtain ⟨r', rfl⟩ : ∃ r', r = d :: r' := by
            cases r with
            | nil => cases h'
            | cons x r => cases h'; exact ⟨r, rfl⟩
          obtain ⟨i1, i2, i4, i3⟩ := ih (s.length - ((qrun s pos).2 + 2)) (by omega) ((qrun s pos).2 + 2)
            (value ++ (qrun s pos).1 ++ [d]) rfl
          rw [e1, e2, i1]
          rw [show s.drop ((qrun s pos).2 + 2) = r' from drop_succ_of hr1] at i1 i2 i3 i4 ⊢
          refine ⟨by simp, i2, i4, fun q e => ?_⟩
          obtain ⟨j1, j2, j3, j4⟩ := i3 q e
          exact ⟨j1, j2, by omega, j4⟩
      · obtain ⟨e1, e2⟩ := quoted_close value hg hc
        have : c = '"' := (hhead c r hr).resolve_right hc
        subst this
        rw [e1, e2, if_pos rfl]
        exact ⟨by simp, fun _ => hr1, rfl, fun q e => by cases e⟩

theorem paramStep_cons (r : Str) : paramStep (';' :: r) =
    if (Mime.collect [';', '='] (r.dropWhile isHttpWs)).2 = [] then .ok none
    else if startsWith s!!";" (Mime.collect [';', '='] (r.dropWhile isHttpWs)).2 then
      .ok (some (none, (Mime.collect [';', '='] (r.dropWhile isHttpWs)).2))
    else (dropOne (Mime.collect [';', '='] (r.dropWhile isHttpWs)).2).bind fun input =>
      if startsWith s!!"\"" input then
        (collectQuoted input).map fun x =>
          some (some (lower (Mime.collect [';', '='] (r.dropWhile isHttpWs)).1, x.1), (Mime.collect [';'] x.2).2)
      else if trimEndWs (Mime.collect [';'] input).1 = [] then .ok (some (none, (Mime.collect [';'] input).2))
      else .ok (some (some (lower (Mime.collect [';', '='] (r.dropWhile isHttpWs)).1, trimEndWs (Mime.collect [';'] input).1),
        (Mime.collect [';'] input).2)) := by
  unfold paramStep
  rw [dropOne_ascii (by decide)]
  rfl

/-- The parameters met by the loop of the code, in order. -/
inductive Steps : Str → List (Str × Str) → Prop where
  | nil : Steps [] []
  | stop {i} : paramStep i = .ok none → Steps i []
  | skip {i r ps} : paramStep i = .ok (some (none, r)) → Steps r ps → Steps i ps
  | next {i r p ps} : paramStep i = .ok (some (some p, r)) → Steps r ps → Steps i (p :: ps)

theorem Steps.loop {i : Str} {ps : List (Str × Str)} (h : Steps i ps) (acc : List (Str × Str) × Bool) :
    paramLoop i acc = .ok (ps.foldl addParam acc) := by
  induction h generalizing acc with
  | nil => exact paramLoop_nil acc
  | stop h => exact paramLoop_break h
  | skip h _ ih => rw [paramLoop_next h]; exact ih acc
  | next h _ ih => rw [paramLoop_next h]; exact ih _

theorem paramStep_ne {i : Str} {o} (h : paramStep i = .ok o) : i ≠ [] := by
  rintro rfl
  cases h

theorem Steps.unique {i : Str} {ps qs : List (Str × Str)} (h : Steps i ps) (h' : Steps i qs) : ps = qs := by
  induction h generalizing qs with
  | nil =>
    cases h' with
    | nil => rfl
    | stop h => rfl
    | skip h _ => exact absurd rfl (paramStep_ne h)
    | next h _ => exact absurd rfl (paramStep_ne h)
  | stop h =>
    cases h' with
    | nil => rfl
    | stop _ => rfl
    | skip h2 _ => rw [h] at h2; cases h2
    | next h2 _ => rw [h] at h2; cases h2
  | skip h _ ih =>
    cases h' with
    | nil => exact absurd rfl (paramStep_ne h)
    | stop h2 => rw [h] at h2; cases h2
    | skip h2 h3 => rw [h] at h2; cases h2; exact ih h3
    | next h2 _ => rw [h] at h2; cases h2
  | next h _ ih =>
    cases h' with
    | nil => exact absurd rfl (paramStep_ne h)
    | stop h2 => rw [h] at h2; cases h2
    | skip h2 _ => rw [h] at h2; cases h2
    | next h2 h3 => rw [h] at h2; cases h2; rw [ih h3]

theorem steps_text {t : Str} {ps : List (Str × Str)} (h : ParamsText t ps) :
    Steps t (ps.map fun e => (lower e.1, e.2)) := by
  induction h with
  | nil => exact .nil
  | cons h1 hn hv h2 hr ih => exact .next (paramStep_text h1 hn hv h2 (paramsText_atSemi hr)) ih

/-- A quoted value that is not closed is met in the loop. -/
inductive Unclosed : Str → Prop where
  | here {r k} : (Mime.collect [';', '='] (r.dropWhile isHttpWs)).2 = '=' :: '"' :: k → unclosed k = true → Unclosed (';' :: r)
  | later {i o r} : paramStep i = .ok (some (o, r)) → Unclosed r → Unclosed i

theorem not_unclosed_text {t : Str} {ps : List (Str × Str)} (h : ParamsText t ps) : ¬ Unclosed t := by
  induction h with
  | nil => intro hu; cases hu with | later h _ => exact paramStep_ne h rfl
  | cons h1 hn hv h2 hr ih =>
    intro hu
    have hstep := paramStep_text h1 hn hv h2 (paramsText_atSemi hr)
    cases hu with
    | later h hu => rw [hstep] at h; cases h; exact ih hu
    | here hk hu =>
      rw [dropWhile_ws h1, collect_found (d := [';', '='])] at hk
      · rcases hv with ⟨rfl, ht⟩ | ⟨e, rfl, he, -⟩
        · rename_i raw _ _ _ _
          cases raw with
          | nil => exact ht.1 rfl
          | cons c s =>
            cases hk
            exact token_not_mem ht (c := '"') (by decide) (by simp)
        · simp only [List.cons_append, List.append_assoc, List.cons.injEq, true_and] at hk
          rw [← hk, unclosed_escaped he] at hu
          cases hu
      · intro x hx
        simp only [List.mem_cons, List.not_mem_nil, or_false]
        rintro (rfl | rfl)
        · exact token_not_mem hn (by decide) hx
        · exact token_not_mem hn (by decide) hx
      · simp
      · intro c hc
        rename_i n _ _ _ _ _ _
        cases n with
        | nil => exact absurd rfl hn.1
        | cons d n =>
          cases hc
          exact isToken_not_ws (hn.2 _ (by simp))

/-- Without quotes nothing is left open. -/
theorem dangling_no_quote (s : Str) (pos : Nat) (h : '"' ∉ s.drop pos) : Whatwg.dangling s pos = none := by
  induction hn : s.length - pos using Nat.strongRecOn generalizing pos with
  | ind n ih =>
    have hle : ∀ q, pos ≤ q → '"' ∉ s.drop q := by
      intro q hq hm
      apply h
      rw [show q = pos + (q - pos) by omega, ← List.drop_drop] at hm
      exact List.mem_of_mem_drop hm
    rw [Whatwg.dangling]
    split
    · rename_i hlt
      have wp := Whatwg.collect_pos Whatwg.isWs s (pos + 1)
      simp only
      generalize (Whatwg.collect Whatwg.isWs s (pos + 1)).2 = p at wp
      have np := Whatwg.collect_pos (fun c => decide (c ≠ ';' ∧ c ≠ '=')) s p
      generalize Whatwg.collect (fun c => decide (c ≠ ';' ∧ c ≠ '=')) s p = name at np
      split
      · rfl
      · rename_i c hc
        split
        · exact ih _ (by omega) _ (hle _ (by omega)) rfl
        · split
          · rfl
          · rename_i d hd
            have : d ≠ '"' := by
              rintro rfl
              rw [getElem?_eq_head] at hd
              exact hle _ (by omega) (List.mem_of_mem_head? hd)
            rw [if_neg this]
            have cp := Whatwg.collect_pos (fun c => decide (c ≠ ';')) s (name.2 + 1)
            exact ih _ (by omega) _ (hle _ (by omega)) rfl
    · rfl

/-- What is met after the standard is done. -/
def after (s : Str) : Option Nat → List (Str × Str)
  | none => []
  | some q => Whatwg.parameters s (Whatwg.collect (fun c => decide (c ≠ ';')) s q).2

theorem rereadFrom_eq (s : Str) (pos : Nat) : Whatwg.rereadFrom s pos = after s (Whatwg.dangling s pos) := by
  unfold Whatwg.rereadFrom after
  rfl

theorem steps_parameters (s : Str) (pos : Nat) (h : AtSemi (s.drop pos)) :
    Steps (s.drop pos) (Whatwg.parameters s pos ++ Whatwg.rereadFrom s pos) ∧
      (Whatwg.dangling s pos ≠ none → Unclosed (s.drop pos)) := by
  rw [rereadFrom_eq]
  induction hn : s.length - pos using Nat.strongRecOn generalizing pos with
  | ind n ih =>
    rcases h with h | ⟨r, h⟩
    · have hp : ¬ pos < s.length := by rw [List.drop_eq_nil_iff] at h; omega
      rw [h, Whatwg.parameters, dif_neg hp, Whatwg.dangling, dif_neg hp]
      exact ⟨.nil, fun h => absurd rfl h⟩
    · have hlt : pos < s.length := by
        by_contra hc
        rw [List.drop_eq_nil_iff.mpr (by omega)] at h
        cases h
      have hr := drop_succ_of h
      have w := whatwg_collect Whatwg.isWs s (pos + 1)
      have wp := Whatwg.collect_pos Whatwg.isWs s (pos + 1)
      rw [Whatwg.parameters, dif_pos hlt, Whatwg.dangling, dif_pos hlt]
      simp only
      generalize (Whatwg.collect Whatwg.isWs s (pos + 1)).2 = p at w wp
      have w2 := w.2
      rw [hr, show Whatwg.isWs = isHttpWs from funext whatwg_isWs] at w2
      obtain ⟨n1, n2⟩ := whatwg_collect_delims (fun c => decide (c ≠ ';' ∧ c ≠ '=')) [';', '='] (by intro c; simp) s p
      have np := Whatwg.collect_pos (fun c => decide (c ≠ ';' ∧ c ≠ '=')) s p
      generalize Whatwg.collect (fun c => decide (c ≠ ';' ∧ c ≠ '=')) s p = name at n1 n2 np
      rw [w2] at n1 n2
      have hstep := paramStep_cons r
      rw [getElem?_eq_head]
      rw [h]
      generalize hk : s.drop name.2 = k at n2
      simp only [← n1, ← n2] at hstep
      cases k with
      | nil =>
        rw [if_pos rfl] at hstep
        exact ⟨.stop hstep, fun h => absurd rfl h⟩
      | cons c k =>
        rw [if_neg (by simp)] at hstep
        simp only [List.head?_cons]
        have hcc : c = ';' ∨ c = '=' := by
          rcases collect_cases [';', '='] (r.dropWhile isHttpWs) with ⟨e, -⟩ | ⟨a, c', b, -, hc, -, e⟩
          · rw [e] at n2; cases n2
          · rw [e] at n2; cases n2; simpa using hc
        rcases hcc with rfl | rfl
        · rw [if_pos (startsWith_one.mpr ⟨k, rfl⟩)] at hstep
          simp only [if_true]
          rw [← hk] at hstep
          obtain ⟨i1, i2⟩ := ih _ (by omega) name.2 (by rw [hk]; exact .inr ⟨k, rfl⟩) rfl
          exact ⟨.skip hstep i1, fun h => .later hstep (i2 h)⟩
        · simp only [show ¬ ('=' : Char) = ';' by decide, if_false]
          rw [if_neg (by simp [startsWith_one]), dropOne_ascii (by decide)] at hstep
          rw [Res.bind_ok] at hstep
          have hk1 := drop_succ_of hk
          rw [getElem?_eq_head, hk1]
          cases k with
          | nil =>
            have : paramStep (';' :: r) = .ok (some (none, [])) := by
              rw [hstep]
              rfl
            exact ⟨.skip this .nil, fun h => absurd rfl h⟩
          | cons d k =>
            simp only [List.head?_cons]
            by_cases hd : d = '"'
            · subst hd
              rw [if_pos (startsWith_one.mpr ⟨k, rfl⟩), show collectQuoted ('"' :: k) = .ok (quotedTail k) by
                unfold collectQuoted; rw [dropOne_ascii (by decide)]; rfl] at hstep
              simp only [if_true]
              have hk2 := drop_succ_of hk1
              obtain ⟨q1, q2, q3, q4⟩ := whatwg_quoted s (name.2 + 2) []
              have qp := Whatwg.quoted_pos s (name.2 + 2) []
              rw [show s.drop (name.2 + 2) = k from hk2] at q1 q2 q3 q4
              generalize Whatwg.quoted s (name.2 + 2) [] = q at q1 q2 q4 qp
              rw [Res.map_ok] at hstep
              rw [List.nil_append] at q1
              cases hl : Whatwg.lastRun s (name.2 + 2) with
              | none =>
                obtain ⟨c1, c2⟩ := whatwg_collect_delims (fun c => decide (c ≠ ';')) [';'] (by intro c; simp) s q.2
                have cp := Whatwg.collect_pos (fun c => decide (c ≠ ';')) s q.2
                generalize Whatwg.collect (fun c => decide (c ≠ ';')) s q.2 = rest at c1 c2 cp
                rw [q2 hl] at c2
                have hsemi : AtSemi (s.drop rest.2) := by rw [c2]; exact collect_semi_atSemi _
                rw [← c2, ← q1] at hstep
                obtain ⟨i1, i2⟩ := ih _ (by omega) _ hsemi rfl
                exact ⟨.next hstep i1, fun h => .later hstep (i2 h)⟩
              | some z =>
                obtain ⟨z1, z2, z3, z4⟩ := q4 z hl
                have cp := Whatwg.collect_pos (fun c => decide (c ≠ ';')) s q.2
                rw [Whatwg.parameters, dif_neg (by omega)]
                obtain ⟨c1, c2⟩ := whatwg_collect_delims (fun c => decide (c ≠ ';')) [';'] (by intro c; simp) s z
                have zp := Whatwg.collect_pos (fun c => decide (c ≠ ';')) s z
                simp only [after]
                generalize Whatwg.collect (fun c => decide (c ≠ ';')) s z = rest at c1 c2 zp
                rw [z1] at c2
                have hsemi : AtSemi (s.drop rest.2) := by rw [c2]; exact collect_semi_atSemi _
                have hnone : Whatwg.dangling s rest.2 = none := by
                  apply dangling_no_quote
                  intro hm
                  apply z4
                  rw [show rest.2 = z + (rest.2 - z) by omega, ← List.drop_drop] at hm
                  exact List.mem_of_mem_drop hm
                rw [← c2, ← q1] at hstep
                obtain ⟨i1, -⟩ := ih _ (by omega) _ hsemi rfl
                rw [hnone] at i1
                simp only [after, List.append_nil] at i1
                refine ⟨.next hstep i1, fun _ => .here n2.symm ?_⟩
                rw [← q3, hl]
                rfl
            · rw [if_neg (by rw [startsWith_one]; rintro ⟨r', e⟩; cases e; exact hd rfl)] at hstep
              simp only [hd, if_false]
              obtain ⟨c1, c2⟩ := whatwg_collect_delims (fun c => decide (c ≠ ';')) [';'] (by intro c; simp) s (name.2 + 1)
              have cp := Whatwg.collect_pos (fun c => decide (c ≠ ';')) s (name.2 + 1)
              generalize Whatwg.collect (fun c => decide (c ≠ ';')) s (name.2 + 1) = v at c1 c2 cp
              rw [hk1] at c1 c2
              rw [← c1, ← c2] at hstep
              have hsemi : AtSemi (s.drop v.2) := by rw [c2]; exact collect_semi_atSemi _
              rw [whatwg_stripEnd]
              obtain ⟨i1, i2⟩ := ih _ (by omega) _ hsemi rfl
              by_cases hv : trimEndWs v.1 = []
              · rw [if_pos hv] at hstep
                rw [if_pos hv]
                exact ⟨.skip hstep i1, fun h => .later hstep (i2 h)⟩
              · rw [if_neg hv] at hstep
                rw [if_neg hv]
                exact ⟨.next hstep i1, fun h => .later hstep (i2 h)⟩

/-- The steps of the standard before the parameters, on suffixes of the trimmed text. -/
theorem parts_cases (s : Str) :
    (Whatwg.parts s = none ∧ Mime.parse s = .err 500) ∨
      ∃ b sub rest raw, Whatwg.parts s = some (lower b, lower sub, raw) ∧ Steps rest (raw ++ Whatwg.reread s) ∧
        (Whatwg.reread s ≠ [] → Unclosed rest) ∧
        b = (Mime.collect ['/'] (trimWs s)).1 ∧
        (∀ c r, (Mime.collect ['/'] (trimWs s)).2 = c :: r → sub = trimEndWs (Mime.collect [';'] r).1 ∧
          rest = (Mime.collect [';'] r).2) ∧
        Mime.parse s = (paramLoop rest ([], false)).map fun x =>
          { essence := lower b ++ s!!"/" ++ lower sub
            basetype := lower b
            subtype := lower sub
            isUtf8 := x.2
            params := x.1 } := by
  have hall : ∀ t : Str, (∀ c ∈ t, TChar c) ↔ t.all isToken = true := by
    intro t
    rw [List.all_eq_true]
    exact forall₂_congr fun c _ => (isToken_iff c).symm
  have htrim : Whatwg.stripEnd (s.dropWhile Whatwg.isWs) = trimWs s := by
    rw [whatwg_stripEnd, show Whatwg.isWs = isHttpWs from funext whatwg_isWs]
    rfl
  unfold Whatwg.parts Mime.parse Whatwg.reread
  simp only [htrim]
  generalize trimWs s = i
  obtain ⟨t1, t2⟩ := whatwg_collect_delims (fun c => decide (c ≠ '/')) ['/'] (by intro c; simp) i 0
  generalize Whatwg.collect (fun c => decide (c ≠ '/')) i 0 = type at t1 t2
  rw [List.drop_zero] at t1 t2
  rw [← t1, ← t2, whatwg_stripEnd]
  have hlen : i.length ≤ type.2 ↔ i.drop type.2 = [] := by rw [List.drop_eq_nil_iff]
  simp only [hlen, hall]
  generalize hr : i.drop type.2 = r at *
  by_cases h1 : type.1 = []
  · left
    rw [if_pos (Or.inl h1), if_pos h1]
    exact ⟨rfl, rfl⟩
  by_cases h2 : type.1.all isToken = true
  · have n1 : ¬ (type.1 = [] ∨ ¬ type.1.all isToken = true) := by
      rintro (h | h)
      · exact h1 h
      · exact h h2
    have n2 : ¬ (!type.1.all isToken) = true := by rw [h2]; decide
    rw [if_neg n1, if_neg h1, if_neg n2]
    cases r with
    | nil => left; exact ⟨rfl, rfl⟩
    | cons c r =>
      have hc : isAsciiC c = true := by
        rcases collect_cases ['/'] i with ⟨e, -⟩ | ⟨a, c', b, -, hc, -, e⟩
        · rw [e] at t2; cases t2
        · rw [e] at t2; cases t2; simp at hc; subst hc; decide
      have n3 : ¬ c :: r = [] := by simp
      rw [if_neg n3, if_neg n3, dropOne_ascii hc, Res.bind_ok]
      have hr1 := drop_succ_of hr
      obtain ⟨u1, u2⟩ := whatwg_collect_delims (fun c => decide (c ≠ ';')) [';'] (by intro c; simp) i (type.2 + 1)
      generalize Whatwg.collect (fun c => decide (c ≠ ';')) i (type.2 + 1) = v at u1 u2
      rw [hr1] at u1 u2
      rw [← u1, ← u2]
      by_cases h3 : trimEndWs v.1 = []
      · left
        rw [if_pos (Or.inl h3), if_pos h3]
        exact ⟨rfl, rfl⟩
      by_cases h4 : (trimEndWs v.1).all isToken = true
      · right
        have n4 : ¬ (trimEndWs v.1 = [] ∨ ¬ (trimEndWs v.1).all isToken = true) := by
          rintro (h | h)
          · exact h3 h
          · exact h h4
        have n5 : ¬ (!(trimEndWs v.1).all isToken) = true := by rw [h4]; decide
        rw [if_neg n4, if_neg h3, if_neg n5]
        obtain ⟨p1, p2⟩ := steps_parameters i v.2 (by rw [u2]; exact collect_semi_atSemi _)
        refine ⟨type.1, trimEndWs v.1, i.drop v.2, _, rfl, p1, fun hne => p2 fun h0 => hne ?_, rfl, ?_, rfl⟩
        · rw [rereadFrom_eq, h0]
          rfl
        intro c' r' e
        cases e
        rw [← u1, ← u2]
        exact ⟨rfl, rfl⟩
      · left
        rw [if_pos (Or.inr h4), if_neg h3, if_pos (by rw [Bool.not_eq_true] at h4; rw [h4]; rfl)]
        exact ⟨rfl, rfl⟩
  · left
    rw [if_pos (Or.inr h2), if_neg h1, if_pos (by rw [Bool.not_eq_true] at h2; rw [h2]; rfl)]
    exact ⟨rfl, rfl⟩

/-- The parameter that is kept as a flag. -/
abbrev utf8Param : Str × Str := (s!!"charset", s!!"utf-8")

theorem addParam_add {acc : List (Str × Str)} {u : Bool} {p : Str × Str} (h : p ≠ utf8Param) :
    addParam (acc, u) p = (Whatwg.addParameter acc p, u) := by
  have h' : ¬ (p.1 = s!!"charset" ∧ p.2 = s!!"utf-8") := fun e => h (Prod.ext e.1 e.2)
  have e1 : (∀ c ∈ p.1, TChar c) ↔ p.1.all isToken = true := by
    rw [List.all_eq_true]; exact forall₂_congr fun c _ => (isToken_iff c).symm
  have e2 : (∀ c ∈ p.2, QuotedChar c) ↔ p.2.all isQuotable = true := by
    rw [List.all_eq_true]; exact forall₂_congr fun c _ => (isQuotable_iff c).symm
  have e3 : p.1 ∉ acc.map (·.1) ↔ ¬ acc.any (fun e => e.1 == p.1) = true := by
    simp
  unfold addParam Whatwg.addParameter
  rw [if_neg h']
  simp only [e1, e2, e3]
  by_cases h1 : p.1 ≠ [] ∧ p.1.all isToken = true ∧ p.2.all isQuotable = true
  · rw [if_pos h1]
    by_cases h2 : acc.any (fun e => e.1 == p.1) = true
    · rw [if_pos h2, if_neg (fun h => h.2.2.2 h2)]
    · rw [if_neg h2, if_pos ⟨h1.1, h1.2.1, h1.2.2, h2⟩]
  · rw [if_neg h1, if_neg (fun h => h1 ⟨h.1, h.2.1, h.2.2.1⟩)]

theorem foldl_addParam_raw (raw acc : List (Str × Str)) (u : Bool) :
    raw.foldl addParam (acc, u) =
      ((raw.filter (· ≠ utf8Param)).foldl Whatwg.addParameter acc, u || decide (utf8Param ∈ raw)) := by
  induction raw generalizing acc u with
  | nil => simp
  | cons p raw ih =>
    rw [List.foldl_cons]
    by_cases h : p = utf8Param
    · subst h
      rw [show addParam (acc, u) utf8Param = (acc, true) from if_pos ⟨rfl, rfl⟩, ih,
        List.filter_cons_of_neg (by simp)]
      simp
    · rw [addParam_add h, ih, List.filter_cons_of_pos (by simpa using h), List.foldl_cons]
      simp [Ne.symm h]

/-- The parser of the code in terms of the steps of the standard: failure on the same texts, the same type and subtype, and
the same parameters met, except that parameters are looked for once more in the last run of a quoted value that is not closed;
what is then kept differs for `charset=utf-8`, which becomes a flag wherever it is met. -/
theorem C96_exact (s : Str) :
    Mime.parse s = match Whatwg.parts s with
      | none => .err 500
      | some (t, st, raw) => .ok
        { essence := t ++ s!!"/" ++ st
          basetype := t
          subtype := st
          isUtf8 := decide (utf8Param ∈ raw ++ Whatwg.reread s)
          params := ((raw ++ Whatwg.reread s).filter (· ≠ utf8Param)).foldl Whatwg.addParameter [] } := by
  rcases parts_cases s with ⟨h1, h2⟩ | ⟨b, sub, rest, raw, h1, h2, -, -, -, h3⟩
  · rw [h1, h2]
  · rw [h1, h3, h2.loop, foldl_addParam_raw]
    simp

example : Whatwg.parts s!!" Text/HTML ; Charset=utf-8; A=\"x\\\"y\" ;a=z;=q; b" =
    some (s!!"text", s!!"html", [(s!!"charset", s!!"utf-8"), (s!!"a", s!!"x\"y"), (s!!"a", s!!"z"), ([], s!!"q")]) := by
  decide +kernel

/-- Keeping the entries of some names before or after adding. -/
theorem filter_foldl_add (q : Str → Bool) (raw acc : List (Str × Str)) :
    (raw.foldl Whatwg.addParameter acc).filter (fun e => q e.1) =
      (raw.filter fun e => q e.1).foldl Whatwg.addParameter (acc.filter fun e => q e.1) := by
  induction raw generalizing acc with
  | nil => rfl
  | cons p raw ih =>
    rw [List.foldl_cons, ih]
    by_cases hq : q p.1 = true
    · rw [List.filter_cons_of_pos (p := fun e : Str × Str => q e.1) hq, List.foldl_cons]
      congr 1
      have hm : p.1 ∈ (acc.filter fun e => q e.1).map (·.1) ↔ p.1 ∈ acc.map (·.1) := by
        simp only [List.mem_map, List.mem_filter]
        constructor
        · rintro ⟨e, ⟨he, -⟩, h⟩; exact ⟨e, he, h⟩
        · rintro ⟨e, he, h⟩; exact ⟨e, ⟨he, by rw [h]; exact hq⟩, h⟩
      unfold Whatwg.addParameter
      simp only [hm]
      split
      · rw [List.filter_append, List.filter_cons_of_pos (p := fun e : Str × Str => q e.1) hq, List.filter_nil]
      · rfl
    · rw [List.filter_cons_of_neg (p := fun e : Str × Str => q e.1) hq]
      congr 1
      unfold Whatwg.addParameter
      split
      · rw [List.filter_append, List.filter_cons_of_neg (p := fun e : Str × Str => q e.1) hq, List.filter_nil, List.append_nil]
      · rfl

theorem lookup_append (a b : List (Str × Str)) (n : Str) :
    Whatwg.lookup (a ++ b) n = (Whatwg.lookup a n).or (Whatwg.lookup b n) := by
  unfold Whatwg.lookup
  rw [List.find?_append]
  cases a.find? fun e => decide (e.1 = n) <;> rfl

theorem lookup_none_iff (a : List (Str × Str)) (n : Str) : Whatwg.lookup a n = none ↔ n ∉ a.map (·.1) := by
  unfold Whatwg.lookup
  rw [Option.map_eq_none_iff, List.find?_eq_none, List.mem_map]
  constructor
  · rintro h ⟨e, he, hn⟩
    exact h e he (by simpa using hn)
  · intro h e he hn
    exact h ⟨e, he, by simpa using hn⟩

/-- The value of a parameter among those kept is that of the first valid one met. -/
theorem lookup_foldl_add (raw acc : List (Str × Str)) (n : Str) :
    Whatwg.lookup (raw.foldl Whatwg.addParameter acc) n =
      (Whatwg.lookup acc n).or (Whatwg.lookup (raw.filter fun e =>
        e.1 ≠ [] ∧ (∀ c ∈ e.1, TChar c) ∧ ∀ c ∈ e.2, QuotedChar c) n) := by
  induction raw generalizing acc with
  | nil => simp [Whatwg.lookup]
  | cons p raw ih =>
    rw [List.foldl_cons, ih]
    unfold Whatwg.addParameter
    by_cases hv : p.1 ≠ [] ∧ (∀ c ∈ p.1, TChar c) ∧ ∀ c ∈ p.2, QuotedChar c
    · rw [List.filter_cons_of_pos (by simpa using hv)]
      have hc : ∀ l, Whatwg.lookup (p :: l) n = (Whatwg.lookup [p] n).or (Whatwg.lookup l n) := fun l => lookup_append [p] l n
      rw [hc]
      by_cases hm : p.1 ∈ acc.map (·.1)
      · rw [if_neg (fun h => h.2.2.2 hm)]
        by_cases hn : p.1 = n
        · have : Whatwg.lookup acc n ≠ none := by
            rw [Ne, lookup_none_iff, ← hn]
            exact fun h => h hm
          obtain ⟨v, hv⟩ := Option.ne_none_iff_exists'.mp this
          rw [hv]
          rfl
        · rw [show Whatwg.lookup [p] n = none by rw [lookup_none_iff]; simpa using Ne.symm hn, Option.none_or]
      · rw [if_pos ⟨hv.1, hv.2.1, hv.2.2, hm⟩, lookup_append, Option.or_assoc]
    · rw [List.filter_cons_of_neg (by simpa using hv), if_neg (fun h => hv ⟨h.1, h.2.1, h.2.2.1⟩)]

theorem lookup_filter {a : List (Str × Str)} {q : Str → Bool} {n : Str} (h : q n = true) :
    Whatwg.lookup (a.filter fun e => q e.1) n = Whatwg.lookup a n := by
  unfold Whatwg.lookup
  rw [List.find?_filter]
  congr 1
  apply find?_congr_mem
  intro e _
  by_cases he : e.1 = n
  · simp [he, h]
  · simp [he]

theorem find?_eq_lookup (ps : List (Str × Str)) (n : Str) :
    (ps.find? fun e => e.1 == n).map (·.2) = Whatwg.lookup ps n := by
  unfold Whatwg.lookup
  congr 1
  apply find?_congr_mem
  intro e _
  rw [beq_eq_decide]

theorem param_eq_lookup (m : Mime) (n : Str) : m.param n = Whatwg.lookup (allParams m) n := by
  unfold Mime.param allParams
  rw [lookup_append]
  have e := find?_eq_lookup m.params n
  by_cases hu : m.isUtf8 = true
  · by_cases hn : n = s!!"charset"
    · subst hn
      rw [if_pos ⟨rfl, hu⟩, if_pos hu]
      rfl
    · rw [if_neg (fun h => hn h.1), if_pos hu, e,
        show Whatwg.lookup [(s!!"charset", s!!"utf-8")] n = none by rw [lookup_none_iff]; simpa using hn]
      rfl
  · rw [if_neg (fun h => hu h.2), if_neg hu, e]
    rfl

/-- Printing is the standard's serialization, with `charset=utf-8` first if it was met. -/
theorem C96_display (m : Mime) (h : m.essence = m.basetype ++ s!!"/" ++ m.subtype) :
    m.display = Whatwg.serialize m.basetype m.subtype
      ((if m.isUtf8 then [(s!!"charset", s!!"utf-8")] else []) ++ m.params) := by
  have one : ∀ p : Str × Str, displayParam p = s!!";" ++ p.1 ++ s!!"=" ++
      (if p.2 = [] ∨ ¬ ∀ c ∈ p.2, TChar c then
        ['"'] ++ (p.2.map fun c => if c = '"' ∨ c = '\\' then ['\\', c] else [c]).flatten ++ ['"'] else p.2) := by
    intro p
    have e1 : (∀ c ∈ p.2, TChar c) ↔ p.2.all isToken = true := by
      rw [List.all_eq_true]; exact forall₂_congr fun c _ => (isToken_iff c).symm
    unfold displayParam
    by_cases ht : p.2.all isToken = true ∧ p.2 ≠ []
    · rw [if_pos ht, if_neg]
      rintro (h | h)
      · exact ht.2 h
      · exact h (e1.mpr ht.1)
    · rw [if_neg ht, if_pos]
      · unfold escape
        rw [List.flatMap_def]
        simp
      · by_cases h1 : p.2 = []
        · exact .inl h1
        · exact .inr fun h2 => ht ⟨e1.mp h2, h1⟩
  have all : ∀ (ps : List (Str × Str)) (out : Str), out ++ ps.flatMap displayParam =
      ps.foldl (fun out p =>
        let value := if p.2 = [] ∨ ¬ ∀ c ∈ p.2, TChar c then
            ['"'] ++ (p.2.map fun c => if c = '"' ∨ c = '\\' then ['\\', c] else [c]).flatten ++ ['"']
          else p.2
        out ++ s!!";" ++ p.1 ++ s!!"=" ++ value) out := by
    intro ps
    induction ps with
    | nil => intro out; simp
    | cons p ps ih =>
      intro out
      rw [List.flatMap_cons, List.foldl_cons, ← List.append_assoc, ih, one]
      simp only [List.append_assoc]
  unfold Mime.display Whatwg.serialize
  rw [← all, h]
  by_cases hu : m.isUtf8 = true
  · rw [if_pos hu, if_pos hu, List.flatMap_append]
    have : [(s!!"charset", s!!"utf-8")].flatMap displayParam = s!!";charset=utf-8" := by decide
    rw [this]
    simp only [List.append_assoc]
  · rw [if_neg hu, if_neg hu]
    simp

example : (⟨s!!"a/b", s!!"a", s!!"b", true, [(s!!"x", s!!"1 \\ 2"), (s!!"y", [])]⟩ : Mime).display =
    s!!"a/b;charset=utf-8;x=\"1 \\\\ 2\";y=\"\"" := by decide

/-- A text of the RFC 7231 grammar is read by the standard as written, up to the case of the letters of type, subtype and
names. -/
theorem parts_text {s base sub : Str} {ps : List (Str × Str)} (h : MediaText s base sub ps) :
    Whatwg.parts s = some (lower base, lower sub, ps.map fun e => (lower e.1, e.2)) ∧ Whatwg.reread s = [] := by
  have hok := parse_text h
  obtain ⟨hb, hs, w3, pt, hw3, hp, he⟩ := trimWs_text h
  rcases parts_cases s with ⟨-, h2⟩ | ⟨b, sub', rest, raw, h1, h2, h0, h3, h4, -⟩
  · rw [h2] at hok; cases hok
  · have hc : Mime.collect ['/'] (trimWs s) = (base, '/' :: (sub ++ (w3 ++ pt))) := by
      rw [he]
      exact collect_found (by
        intro x hx
        simp only [List.mem_cons, List.not_mem_nil, or_false]
        rintro rfl
        exact token_not_mem hb (by decide) hx) (by simp)
    rw [hc] at h3 h4
    obtain ⟨h5, h6⟩ := h4 _ _ rfl
    rw [← List.append_assoc, collect_semi (by
      rw [List.mem_append]
      rintro (h | h)
      · exact token_not_mem hs (by decide) h
      · exact ws_no_semi hw3 h) (paramsText_atSemi hp)] at h5 h6
    simp only at h3 h5 h6
    rw [trimEndWs_append_ws hw3, token_trimEnd hs] at h5
    subst h3 h5 h6
    have hno : Whatwg.reread s = [] := by
      by_contra hne
      exact not_unclosed_text hp (h0 hne)
    rw [hno, List.append_nil] at h2
    exact ⟨by rw [h1, h2.unique (steps_text hp)], hno⟩

theorem allParams_lower {m : Mime} (h : MimeWF m) : (allParams m).map (fun e => (lower e.1, e.2)) = allParams m := by
  rw [List.map_congr_left (g := id), List.map_id]
  intro e he
  unfold allParams at he
  rcases List.mem_append.mp he with he | he
  · split at he
    · rw [List.mem_singleton] at he
      subst he
      rfl
    · cases he
  · exact Prod.ext (lower_of_noUpper (h.names e he).2) rfl

/-- What a reader following the standard makes of a printed media type: the same type and subtype, and for every name the
value that `param` gives. -/
theorem C96_reads_back {s : Str} {m : Mime} (h : Mime.parse s = .ok m) :
    ∃ ps, Whatwg.parse m.display = some (m.basetype, m.subtype, ps) ∧ ∀ n, Whatwg.lookup ps n = m.param n := by
  have hw := C23_wf h
  have hp := (parts_text (display_text hw)).1
  rw [allParams_lower hw, lower_of_noUpper hw.base.2, lower_of_noUpper hw.sub.2] at hp
  refine ⟨(allParams m).foldl Whatwg.addParameter [], ?_, ?_⟩
  · unfold Whatwg.parse
    rw [hp]
    rfl
  · intro n
    rw [lookup_foldl_add, param_eq_lookup, List.filter_eq_self.mpr]
    · rfl
    · intro e he
      obtain ⟨w1, w2, pt, -, -, -, -, hpt, -⟩ := display_text hw
      obtain ⟨h1, h2⟩ := paramsText_legal hpt e he
      simpa using ⟨h1.1, h1.2, h2⟩

example : ∃ m, Mime.parse s!!"a/b;charset=gbk;charset=utf-8" = .ok m ∧
    m.display = s!!"a/b;charset=utf-8;charset=gbk" ∧
    Whatwg.parse m.display = some (s!!"a", s!!"b", [(s!!"charset", s!!"utf-8")]) :=
  ⟨⟨s!!"a/b", s!!"a", s!!"b", true, [(s!!"charset", s!!"gbk")]⟩, by decide +kernel, by decide, by decide +kernel⟩

theorem add_prefix (raw acc : List (Str × Str)) : acc <+: raw.foldl Whatwg.addParameter acc := by
  induction raw generalizing acc with
  | nil => exact List.prefix_refl _
  | cons p raw ih =>
    refine List.IsPrefix.trans ?_ (ih _)
    unfold Whatwg.addParameter
    split
    · exact List.prefix_append _ _
    · exact List.prefix_refl _

/-- When no parameter is met twice: texts without quotes, and texts of the RFC 7231 grammar. -/
theorem C96_closed (s : Str) (h : '"' ∉ s ∨ ∃ base sub ps, MediaText s base sub ps) : Whatwg.reread s = [] := by
  rcases h with h | ⟨base, sub, ps, h⟩
  · unfold Whatwg.reread
    simp only
    rw [rereadFrom_eq, dangling_no_quote]
    · rfl
    · intro hm
      have hm := List.mem_of_mem_drop hm
      unfold Whatwg.stripEnd at hm
      rw [List.mem_reverse] at hm
      have hm := (List.dropWhile_sublist _).mem hm
      rw [List.mem_reverse] at hm
      exact h ((List.dropWhile_sublist _).mem hm)
  · exact (parts_text h).2

example : Whatwg.reread s!!"a/b;x=\"foo;y=1\";z=2" = [] ∧ Whatwg.reread s!!"a/b;x=\"f\\\"oo;Y=1;z=2" =
    [(s!!"y", s!!"1"), (s!!"z", s!!"2")] := by decide +kernel

/-- Conformance: failure on exactly the texts on which the standard fails; otherwise the type, the subtype, and every
parameter but `charset` that the standard has, in the same order; and if nothing is met twice, only those; `charset` too unless
a `charset=utf-8` was met; and then everything, the printed form included, is as in the standard. Missing: quoted values that
are not closed, `charset=utf-8` after another charset, and the place where `charset=utf-8` is printed. -/
theorem C96_conforms_partial (s : Str) :
    (Whatwg.parse s = none ↔ ∀ m, Mime.parse s ≠ .ok m) ∧
      ∀ t st ps, Whatwg.parse s = some (t, st, ps) → ∃ m, Mime.parse s = .ok m ∧
        m.basetype = t ∧ m.subtype = st ∧ m.essence = t ++ s!!"/" ++ st ∧
        (∀ n v, n ≠ s!!"charset" → Whatwg.lookup ps n = some v → m.param n = some v) ∧
        ps.filter (fun e => e.1 ≠ s!!"charset") <+: m.params.filter (fun e => e.1 ≠ s!!"charset") ∧
        (Whatwg.reread s = [] →
          (∀ n, n ≠ s!!"charset" → m.param n = Whatwg.lookup ps n) ∧
          m.params.filter (fun e => e.1 ≠ s!!"charset") = ps.filter (fun e => e.1 ≠ s!!"charset") ∧
          (m.param s!!"charset" ≠ Whatwg.lookup ps s!!"charset" →
            m.param s!!"charset" = some s!!"utf-8" ∧ (Whatwg.lookup ps s!!"charset").isSome = true) ∧
          (m.param s!!"charset" ≠ some s!!"utf-8" → m.params = ps ∧ m.display = Whatwg.serialize t st ps)) := by
  rw [C96_exact]
  unfold Whatwg.parse
  cases hp : Whatwg.parts s with
  | none => simp
  | some r =>
    obtain ⟨t, st, raw⟩ := r
    simp only [Option.map_some]
    refine ⟨by simp, ?_⟩
    intro t' st' ps h
    simp only [Option.some.injEq, Prod.mk.injEq] at h
    obtain ⟨rfl, rfl, rfl⟩ := h
    refine ⟨_, rfl, rfl, rfl, rfl, ?_⟩
    have hfil : ((raw.filter (· ≠ utf8Param)).foldl Whatwg.addParameter []).filter (fun e => e.1 ≠ s!!"charset") =
        (raw.foldl Whatwg.addParameter []).filter (fun e => e.1 ≠ s!!"charset") := by
      rw [filter_foldl_add (fun n => n ≠ s!!"charset"), filter_foldl_add (fun n => n ≠ s!!"charset"), List.filter_filter]
      congr 1
      apply List.filter_congr
      intro e _
      rw [Bool.eq_iff_iff]
      simp only [Bool.and_eq_true, decide_eq_true_eq]
      exact ⟨fun h => h.1, fun h => ⟨h, fun e' => h (by rw [e'])⟩⟩
    have hpre : (raw.foldl Whatwg.addParameter []).filter (fun e => e.1 ≠ s!!"charset") <+:
        (((raw ++ Whatwg.reread s).filter (· ≠ utf8Param)).foldl Whatwg.addParameter []).filter
          (fun e => e.1 ≠ s!!"charset") := by
      rw [← hfil, List.filter_append, List.foldl_append]
      exact (add_prefix _ _).filter _
    refine ⟨?_, hpre, ?_⟩
    · intro n v hn hv
      unfold Mime.param
      rw [if_neg (fun h => hn h.1)]
      rw [find?_eq_lookup, ← lookup_filter (q := fun n => n ≠ s!!"charset") (by simpa using hn)]
      obtain ⟨u, hu⟩ := hpre
      rw [← hu, lookup_append, lookup_filter (q := fun n => n ≠ s!!"charset") (by simpa using hn), hv]
      rfl
    intro hno
    rw [hno, List.append_nil]
    have hnone : utf8Param ∉ raw → raw.filter (· ≠ utf8Param) = raw := by
      intro h
      rw [List.filter_eq_self]
      intro e he
      simp only [decide_eq_true_eq]
      rintro rfl
      exact h he
    refine ⟨?_, hfil, ?_, ?_⟩
    · intro n hn
      unfold Mime.param
      rw [if_neg (fun h => hn h.1)]
      rw [find?_eq_lookup, ← lookup_filter (q := fun n => n ≠ s!!"charset") (by simpa using hn), hfil,
        lookup_filter (q := fun n => n ≠ s!!"charset") (by simpa using hn)]
    · intro hne
      by_cases hu : utf8Param ∈ raw
      · refine ⟨?_, ?_⟩
        · unfold Mime.param
          rw [if_pos ⟨rfl, by simpa using hu⟩]
        · rw [Option.isSome_iff_ne_none, lookup_foldl_add]
          intro h0
          rw [Option.or_eq_none_iff] at h0
          have h1 := h0.2
          rw [lookup_none_iff, List.mem_map] at h1
          apply h1
          refine ⟨utf8Param, ?_, rfl⟩
          rw [List.mem_filter, decide_eq_true_eq]
          exact ⟨hu, by decide, by decide, by decide⟩
      · exfalso
        apply hne
        unfold Mime.param
        rw [if_neg (fun h => hu (by simpa using h.2))]
        rw [find?_eq_lookup]
        simp only [hnone hu]
    · intro hne
      by_cases hu : utf8Param ∈ raw
      · exfalso
        apply hne
        unfold Mime.param
        rw [if_pos ⟨rfl, by simpa using hu⟩]
      · simp only [hnone hu]
        refine ⟨trivial, ?_⟩
        rw [C96_display _ rfl]
        simp [hu]

example : ∃ ps, Whatwg.parse s!!"A/B;q=1;Charset=gbk;q=2;x=\"y\";;z" = some (s!!"a", s!!"b", ps) ∧
    ps = [(s!!"q", s!!"1"), (s!!"charset", s!!"gbk"), (s!!"x", s!!"y")] := ⟨_, by decide +kernel, rfl⟩

theorem foldl_add_legal (raw acc : List (Str × Str)) (h : ∀ e ∈ acc, Token e.1 ∧ ∀ c ∈ e.2, QuotedChar c) :
    ∀ e ∈ raw.foldl Whatwg.addParameter acc, Token e.1 ∧ ∀ c ∈ e.2, QuotedChar c := by
  induction raw generalizing acc with
  | nil => exact h
  | cons p raw ih =>
    apply ih
    unfold Whatwg.addParameter
    split
    · rename_i hp
      intro e he
      rcases List.mem_append.mp he with he | he
      · exact h e he
      · rw [List.mem_singleton] at he
        subst he
        exact ⟨⟨hp.1, hp.2.1⟩, hp.2.2.1⟩
    · exact h

/-- Printing what was parsed is the standard's serialization of the standard's reading exactly when the parameters are those
of the standard with any `charset=utf-8` first. -/
theorem C96_print_iff {s t st : Str} {ps : List (Str × Str)} {m : Mime} (h : Mime.parse s = .ok m)
    (h' : Whatwg.parse s = some (t, st, ps)) :
    m.display = Whatwg.serialize t st ps ↔
      ps = (if m.isUtf8 then [(s!!"charset", s!!"utf-8")] else []) ++ m.params := by
  have hw := C23_wf h
  obtain ⟨m', h1, h2, h3, -, -, hfil, -⟩ := (C96_conforms_partial s).2 t st ps h'
  rw [h] at h1
  cases h1
  subst h2 h3
  have hess : m.essence = m.basetype ++ s!!"/" ++ m.subtype := by rw [hw.essence]; simp
  constructor
  · intro hd
    have a := (parts_text (display_text hw)).1
    rw [allParams_lower hw] at a
    have hlow : ∀ e ∈ ps, NoUpper e.1 := by
      intro e he
      by_cases hc : e.1 = s!!"charset"
      · rw [hc]
        exact noUpper_lower s!!"charset"
      · have : e ∈ ps.filter (fun e => e.1 ≠ s!!"charset") := by
          rw [List.mem_filter]
          exact ⟨he, by simpa using hc⟩
        exact (hw.names e (List.mem_filter.mp (hfil.subset this)).1).2
    have hleg : ∀ e ∈ ps, Token e.1 ∧ ∀ c ∈ e.2, QuotedChar c := by
      unfold Whatwg.parse at h'
      cases h0 : Whatwg.parts s with
      | none => rw [h0] at h'; cases h'
      | some r =>
        rw [h0] at h'
        simp only [Option.map_some, Option.some.injEq, Prod.mk.injEq] at h'
        rw [← h'.2.2]
        exact foldl_add_legal _ _ (by simp)
    have w : HttpWs [] := by intro c hc; cases hc
    have ht : MediaText (Whatwg.serialize m.basetype m.subtype ps) m.basetype m.subtype ps := by
      refine ⟨[], [], ps.flatMap displayParam, w, w, hw.base.1, hw.sub.1,
        displayParams_text (fun e he => (hleg e he).1) (fun e he => (hleg e he).2), ?_⟩
      have := C96_display ⟨m.essence, m.basetype, m.subtype, false, ps⟩ hess
      simp only [Bool.false_eq_true, if_false, List.nil_append] at this
      rw [← this]
      unfold Mime.display
      simp [hess]
    have b := (parts_text ht).1
    rw [← hd, a] at b
    simp only [Option.some.injEq, Prod.mk.injEq, true_and] at b
    have e : ps.map (fun e => (lower e.1, e.2)) = ps.map id :=
      List.map_congr_left fun e he => Prod.ext (lower_of_noUpper (hlow e he)) rfl
    rw [e, List.map_id] at b
    exact b.symm
  · intro hp
    rw [C96_display m hess, ← hp]

example : ∃ m ps, Mime.parse s!!"a/b;charset=utf-8;x=\"\"" = .ok m ∧
    Whatwg.parse s!!"a/b;charset=utf-8;x=\"\"" = some (s!!"a", s!!"b", ps) ∧
    ps = (if m.isUtf8 then [(s!!"charset", s!!"utf-8")] else []) ++ m.params :=
  ⟨⟨s!!"a/b", s!!"a", s!!"b", true, [(s!!"x", [])]⟩, [(s!!"charset", s!!"utf-8"), (s!!"x", [])], by decide +kernel,
    by decide +kernel, by decide⟩

/-- The standard reads a quoted value that is not closed up to the end; the code then reads its last run once more, and finds
parameters in it. -/
theorem C96_violated_unclosed : ∃ s m t st ps, Mime.parse s = .ok m ∧ Whatwg.parse s = some (t, st, ps) ∧
    ps = [(s!!"x", s!!"foo;y=1")] ∧ m.params = [(s!!"x", s!!"foo;y=1"), (s!!"y", s!!"1")] ∧
    m.display = s!!"a/b;x=\"foo;y=1\";y=1" ∧ Whatwg.serialize t st ps = s!!"a/b;x=\"foo;y=1\"" :=
  ⟨s!!"a/b;x=\"foo;y=1", ⟨s!!"a/b", s!!"a", s!!"b", false, [(s!!"x", s!!"foo;y=1"), (s!!"y", s!!"1")]⟩, s!!"a", s!!"b",
    [(s!!"x", s!!"foo;y=1")], by decide +kernel, by decide +kernel, rfl, rfl, by decide, by decide⟩

/-- The standard keeps the first charset; the code prefers `charset=utf-8` wherever it stands. -/
theorem C96_violated_charset : ∃ s m t st ps, Mime.parse s = .ok m ∧ Whatwg.parse s = some (t, st, ps) ∧
    Whatwg.lookup ps s!!"charset" = some s!!"gbk" ∧ m.param s!!"charset" = some s!!"utf-8" :=
  ⟨s!!"text/html;charset=gbk;charset=utf-8",
    ⟨s!!"text/html", s!!"text", s!!"html", true, [(s!!"charset", s!!"gbk")]⟩, s!!"text", s!!"html",
    [(s!!"charset", s!!"gbk")], by decide +kernel, by decide +kernel, by decide, by decide⟩

/-- Parsing and printing moves `charset=utf-8` to the front, and can print two charsets, which the standard never does. -/
theorem C96_violated_print :
    (∃ s m t st ps, Mime.parse s = .ok m ∧ Whatwg.parse s = some (t, st, ps) ∧
      m.display = s!!"text/html;charset=utf-8;a=b" ∧ Whatwg.serialize t st ps = s!!"text/html;a=b;charset=utf-8") ∧
    ∃ s m t st ps, Mime.parse s = .ok m ∧ Whatwg.parse s = some (t, st, ps) ∧
      m.display = s!!"text/html;charset=utf-8;charset=gbk" ∧
      Whatwg.serialize t st ps = s!!"text/html;charset=utf-8" :=
  ⟨⟨s!!"text/html;a=b;charset=utf-8",
    ⟨s!!"text/html", s!!"text", s!!"html", true, [(s!!"a", s!!"b")]⟩, s!!"text", s!!"html",
    [(s!!"a", s!!"b"), (s!!"charset", s!!"utf-8")], by decide +kernel, by decide +kernel, by decide, by decide⟩,
    ⟨s!!"text/html;charset=utf-8;charset=gbk",
    ⟨s!!"text/html", s!!"text", s!!"html", true, [(s!!"charset", s!!"gbk")]⟩, s!!"text", s!!"html",
    [(s!!"charset", s!!"utf-8")], by decide +kernel, by decide +kernel, by decide, by decide⟩⟩

end HT
