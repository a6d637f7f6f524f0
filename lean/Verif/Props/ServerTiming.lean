import Verif.Lemmas.FloatText
import Verif.Spec.ServerTiming
import Verif.Lemmas.Millis
import Verif.Lemmas.Typed
import Verif.Lemmas.Lists
import Verif.Props.Simple

/-! Server-Timing: C57. -/

namespace HT
open Spec

namespace Metric

/-- What one step of the loop finds. -/
def paramOf (part : Str) : Res Said :=
  if part = [] then .err 500
  else
    match split '=' (trimStart part) with
    | name :: value :: _ =>
      if trimEnd name = s!!"dur" then
        (Res.ofOption 500 (Fl.parse f64Format (trimStart value))).bind fun x =>
          (Duration.fromSecsF64 x).bind fun d => .ok (.dur (d.divU32 1000))
      else if trimEnd name = s!!"desc" then (unquote (trimStart value)).bind fun t => .ok (.desc t)
      else .ok .other
    | _ => .err 500

def setDur (a : Option Duration) : Said → Option Duration
  | .dur d => some d
  | _ => a
def setDesc (a : Option Str) : Said → Option Str
  | .desc t => some t
  | _ => a

theorem params_cons (p : Str) (ps : List Str) (dur : Option Duration) (desc : Option Str) :
    params (p :: ps) dur desc = (paramOf p).bind fun s => params ps (setDur dur s) (setDesc desc s) := by
  rw [params]
  unfold paramOf
  by_cases hp : p = []
  · rw [if_pos hp, if_pos hp]; rfl
  · rw [if_neg hp, if_neg hp]
    cases hs : split '=' (trimStart p) with
    | nil => rfl
    | cons n l =>
      cases l with
      | nil => rfl
      | cons v tl =>
        simp only
        by_cases h1 : trimEnd n = s!!"dur"
        · rw [if_pos h1, if_pos h1]
          cases Fl.parse f64Format _ with
          | none => rfl
          | some x =>
            simp only [Res.ofOption_some, Res.bind_ok]
            cases Duration.fromSecsF64 x <;> rfl
        · rw [if_neg h1, if_neg h1]
          by_cases h2 : trimEnd n = s!!"desc"
          · rw [if_pos h2, if_pos h2]
            cases unquote _ <;> rfl
          · rw [if_neg h2, if_neg h2]
            rfl

theorem params_eq (parts : List Str) : ∀ (dur : Option Duration) (desc : Option Str),
    params parts dur desc =
      (Res.mapM paramOf parts).map fun ss => (ss.foldl setDur dur, ss.foldl setDesc desc) := by
  induction parts with
  | nil => intro dur desc; rfl
  | cons p ps ih =>
    intro dur desc
    rw [params_cons, Res.mapM_cons]
    cases paramOf p with
    | ok s =>
      simp only [Res.bind_ok]
      rw [ih]
      cases Res.mapM paramOf ps <;> rfl
    | err e => rfl
    | panic => rfl

theorem foldl_setDur (ss : List Said) : ss.foldl setDur none = lastDur ss := by
  unfold lastDur
  induction ss using List.reverseRecOn with
  | nil => rfl
  | append_singleton l a ih =>
    rw [List.foldl_append, ih, List.filterMap_append]
    cases a <;> simp [setDur]

theorem foldl_setDesc (ss : List Said) : ss.foldl setDesc none = lastDesc ss := by
  unfold lastDesc
  induction ss using List.reverseRecOn with
  | nil => rfl
  | append_singleton l a ih =>
    rw [List.foldl_append, ih, List.filterMap_append]
    cases a <;> simp [setDesc]

theorem parseEntry_eq (e : Str) {n : Str} {ps : List Str} (h : split ';' (trim e) = n :: ps) :
    parseEntry e = (Res.mapM paramOf ps).map fun ss => ⟨trimEnd n, lastDur ss, lastDesc ss⟩ := by
  unfold parseEntry
  rw [h]
  simp only
  rw [params_eq]
  cases Res.mapM paramOf ps with
  | ok ss => simp [foldl_setDur, foldl_setDesc]
  | err e => rfl
  | panic => rfl

theorem shape_iff (p k v : Str) : Shape p k v ↔
    ∃ n u tl, split '=' (trimStart p) = n :: u :: tl ∧ k = trimEnd n ∧ v = trimStart u := by
  have heq : isWs '=' = false := by decide
  have nows : ∀ {w : Str}, (∀ c ∈ w, isWs c = true) → '=' ∉ w := fun hw h => by rw [hw _ h] at heq; cases heq
  constructor
  · rintro ⟨w, w', w'', rest, rfl, hw, hw', hw'', hk, hv, hr, hk1, hk2, hv1⟩
    have hsplit : ∀ n, '=' ∉ n → ∃ tl, split '=' (n ++ '=' :: (w'' ++ v ++ rest)) = n :: (w'' ++ v) :: tl := by
      intro n hn
      rw [split_append_sep hn]
      have hwv : '=' ∉ w'' ++ v := by simp [nows hw'', hv]
      rcases hr with rfl | hr
      · exact ⟨[], by rw [List.append_nil, split_of_not_mem hwv]⟩
      · cases rest with
        | nil => cases hr
        | cons c r =>
          simp only [List.head?_cons, Option.some.injEq] at hr
          subst hr
          exact ⟨split '=' r, by rw [split_append_sep hwv]⟩
    have htv : v = trimStart (w'' ++ v) := by rw [trimStart_ws_append hw'', trimStart_of_head hv1]
    rw [List.append_assoc, List.append_assoc, trimStart_ws_append hw]
    cases k with
    | nil =>
      rw [List.nil_append, trimStart_ws_append hw', trimStart_of_head (by intro c hc; cases hc; exact heq)]
      obtain ⟨tl, h⟩ := hsplit [] (by simp)
      exact ⟨[], _, tl, h, rfl, htv⟩
    | cons a k =>
      rw [trimStart_of_head (by intro c hc; exact hk1 c hc), ← List.append_assoc]
      obtain ⟨tl, h⟩ := hsplit (a :: k ++ w') (by
        intro hm
        rcases List.mem_append.mp hm with hm | hm
        · exact hk hm
        · exact nows hw' hm)
      refine ⟨_, _, tl, h, ?_, htv⟩
      have h1 := trim_append_ws hw' (s := a :: k) ⟨hk1, hk2⟩
      unfold trim at h1
      rw [trimStart_of_head (by intro c hc; exact hk1 c hc)] at h1
      exact h1.symm
  · rintro ⟨n, u, tl, h, rfl, rfl⟩
    obtain ⟨w, hp, hw⟩ := trimStart_suffix p
    obtain ⟨w', hn, hw'⟩ := trimEnd_prefix n
    obtain ⟨w'', hu, hw''⟩ := trimStart_suffix u
    have hj := join_split '=' (trimStart p)
    rw [h] at hj
    have hn1 : '=' ∉ n := not_mem_of_mem_split (by rw [h]; simp)
    have hu1 : '=' ∉ u := not_mem_of_mem_split (s := trimStart p) (by rw [h]; simp)
    obtain ⟨rest, hrest, hr⟩ : ∃ rest, trimStart p = n ++ '=' :: (u ++ rest) ∧ (rest = [] ∨ rest.head? = some '=') := by
      cases tl with
      | nil => exact ⟨[], by rw [← hj]; simp [join], .inl rfl⟩
      | cons t tl => exact ⟨'=' :: join ['='] (t :: tl), by rw [← hj]; simp [join], .inr rfl⟩
    refine ⟨w, w', w'', rest, ?_, hw, hw', hw'', ?_, ?_, hr, ?_, trimEnd_last, trimStart_head⟩
    · conv_lhs => rw [hp, hrest]
      conv_lhs => rw [hn, hu]
      simp
    · intro hm
      exact hn1 (by rw [hn]; simp [hm])
    · intro hm
      exact hu1 (by rw [hu]; simp [hm])
    · intro c hc
      have hh := trimStart_head (s := p) c
      rw [hrest] at hh
      apply hh
      rw [hn]
      cases ht : trimEnd n with
      | nil => rw [ht] at hc; cases hc
      | cons a l => rw [ht] at hc; simpa using hc

theorem shape_unique {p k v k' v' : Str} (h : Shape p k v) (h' : Shape p k' v') : k = k' ∧ v = v' := by
  obtain ⟨n, u, tl, e, rfl, rfl⟩ := (shape_iff _ _ _).mp h
  obtain ⟨n', u', tl', e', rfl, rfl⟩ := (shape_iff _ _ _).mp h'
  rw [e] at e'
  simp only [List.cons.injEq] at e'
  obtain ⟨rfl, rfl, -⟩ := e'
  exact ⟨rfl, rfl⟩

theorem paramOf_shape {p k v : Str} (h : Shape p k v) : paramOf p =
    if k = s!!"dur" then
      (Res.ofOption 500 (Fl.parse f64Format v)).bind fun x =>
        (Duration.fromSecsF64 x).bind fun d => .ok (.dur (d.divU32 1000))
    else if k = s!!"desc" then (unquote v).bind fun t => .ok (.desc t)
    else .ok .other := by
  have hne : p ≠ [] := by
    obtain ⟨w, w', w'', rest, rfl, -⟩ := h
    simp
  obtain ⟨n, u, tl, e, rfl, rfl⟩ := (shape_iff _ _ _).mp h
  unfold paramOf
  rw [if_neg hne, e]

theorem paramOf_noShape {p : Str} (h : ¬ ∃ k v, Shape p k v) : paramOf p = .err 500 := by
  unfold paramOf
  split
  · rfl
  · split
    · rename_i n u tl e
      exact absurd ⟨_, _, (shape_iff p _ _).mpr ⟨n, u, tl, e, rfl, rfl⟩⟩ h
    · rfl

theorem unquote_iff (v t : Str) : unquote v = .ok t ↔
    v = s!!"\"" ++ t ++ s!!"\"" ∨ (v = t ∧ t.head? ≠ some '"' ∧ t.getLast? ≠ some '"') := by
  unfold unquote
  split
  · rename_i v
    split
    · rename_i hl
      obtain ⟨l, rfl⟩ := List.getLast?_eq_some_iff.mp hl
      constructor
      · intro h
        cases h
        left
        simp
      · rintro (h | ⟨rfl, h, -⟩)
        · simp at h
          simp [h]
        · simp at h
    · rename_i hl
      constructor
      · intro h; cases h
      · rintro (h | ⟨rfl, h, -⟩)
        · simp at h
          subst h
          simp at hl
        · simp at h
  · rename_i hq
    split
    · rename_i hl
      constructor
      · intro h; cases h
      · rintro (h | ⟨rfl, -, h⟩)
        · exact absurd h (by simpa using hq _)
        · exact absurd hl h
    · rename_i hl
      constructor
      · intro h
        cases h
        refine .inr ⟨rfl, ?_, hl⟩
        intro hh
        obtain ⟨l, hl'⟩ := List.head?_eq_some_iff.mp hh
        exact hq l hl'
      · rintro (h | ⟨rfl, -, -⟩)
        · exact absurd h (by simpa using hq _)
        · rfl

theorem unquote_clean (v : Str) : (unquote v).Clean 500 := by
  unfold unquote
  split <;> split
  all_goals first | exact .inl ⟨_, rfl⟩ | exact .inr rfl

end Metric

theorem nearestWhole_iff {a b r : Nat} (hb : 0 < b) : NearestWhole a b r ↔ r = roundDiv a b := by
  have key : NearestWhole a b (roundDiv a b) := by
    refine ⟨roundDiv_error hb, ?_⟩
    have h1 := Nat.div_add_mod a b
    have h2 := Nat.mod_lt a hb
    unfold roundDiv gap
    generalize a / b = q at *
    generalize a % b = t at *
    simp only
    split
    · intro h; omega
    · split
      · have := Nat.mul_add b q 1
        intro h; omega
      · split
        · intro _; omega
        · intro _; omega
  constructor
  · rintro ⟨h1, h2⟩
    obtain ⟨k1, k2⟩ := key
    generalize roundDiv a b = s at *
    rcases Nat.lt_trichotomy r s with h | h | h
    · exfalso
      have h3 : b * (r + 1) ≤ b * s := Nat.mul_le_mul_left b h
      rw [Nat.mul_add, Nat.mul_one] at h3
      have h4 : b * s = b * r + b := by unfold gap at *; omega
      have h5 : s = r + 1 := Nat.eq_of_mul_eq_mul_left hb (by rw [Nat.mul_add, Nat.mul_one]; exact h4)
      have h6 : 2 * gap a (b * r) = b := by unfold gap at *; omega
      have h7 : 2 * gap a (b * s) = b := by unfold gap at *; omega
      have := h2 h6
      have := k2 h7
      omega
    · exact h
    · exfalso
      have h3 : b * (s + 1) ≤ b * r := Nat.mul_le_mul_left b h
      rw [Nat.mul_add, Nat.mul_one] at h3
      have h4 : b * r = b * s + b := by unfold gap at *; omega
      have h5 : r = s + 1 := Nat.eq_of_mul_eq_mul_left hb (by rw [Nat.mul_add, Nat.mul_one]; exact h4)
      have h6 : 2 * gap a (b * r) = b := by unfold gap at *; omega
      have h7 : 2 * gap a (b * s) = b := by unfold gap at *; omega
      have := h2 h6
      have := k2 h7
      omega
  · rintro rfl
    exact key

namespace Metric

theorem fromSecs_neg (m : Nat) : Duration.fromSecsF64 (.fin true m) =
    if m ≠ 0 then .panic else Duration.fromSecsF64 (.fin false m) := by
  have hf : f64Format.unit = 1074 := rfl
  unfold Duration.fromSecsF64
  simp only [hf]
  by_cases h : m = 0
  · rw [if_neg (by simp [h]), if_neg (c := m ≠ 0) (by simp [h]), if_neg (c := false = true ∧ m ≠ 0) (by simp)]
  · rw [if_pos (by simp [h]), if_pos h]

theorem dur_pos (m : Nat) (d : Duration) :
    (((Duration.fromSecsF64 (.fin false m)).bind fun d => .ok (.dur (d.divU32 1000))) = .ok (Said.dur d) ↔
      MillisAre (.fin false m) d) ∧
    (((Duration.fromSecsF64 (.fin false m)).bind fun d => .ok (Said.dur (d.divU32 1000))) = .panic ↔
      NotMillis (.fin false m)) := by
  rw [Duration.fromSecsF64_fin]
  unfold MillisAre NotMillis
  simp only [Bool.false_eq_true, false_and, false_or, true_or, true_and]
  generalize hv : 2 ^ 64 * 2 ^ 1074 = v
  have hu := Nat.two_pow_pos 1074
  generalize (2 : Nat) ^ 1074 = u at hu
  constructor
  · by_cases h : v ≤ m
    · rw [if_pos h]
      simp [Res.bind]
      omega
    · rw [if_neg h]
      simp only [Res.bind_ok, Res.ok.injEq, Said.dur.injEq]
      simp only [nearestWhole_iff hu, exists_eq_left]
      obtain ⟨a, b⟩ := d
      simp only [Duration.divU32, Duration.mk.injEq]
      generalize roundDiv (m * 1000000000) u = r
      omega
  · by_cases h : v ≤ m
    · rw [if_pos h]
      simp [Res.bind, h]
    · rw [if_neg h]
      simp [Res.bind, h]

theorem dur_iff (x : Fl) (d : Duration) :
    (((Duration.fromSecsF64 x).bind fun d => .ok (.dur (d.divU32 1000))) = .ok (Said.dur d) ↔ MillisAre x d) ∧
    (((Duration.fromSecsF64 x).bind fun d => .ok (Said.dur (d.divU32 1000))) = .panic ↔ NotMillis x) := by
  cases x with
  | inf n => simp [Duration.fromSecsF64, MillisAre, NotMillis, Res.bind]
  | nan => simp [Duration.fromSecsF64, MillisAre, NotMillis, Res.bind]
  | fin neg m =>
    cases neg with
    | false => exact dur_pos m d
    | true =>
      rw [fromSecs_neg]
      by_cases h : m = 0
      · rw [if_neg (by simp [h])]
        obtain ⟨h1, h2⟩ := dur_pos m d
        rw [h1, h2]
        unfold MillisAre NotMillis
        simp [h]
      · rw [if_pos h]
        simp [MillisAre, NotMillis, Res.bind, h]

theorem fromSecs_noErr (x : Fl) (e : Nat) : Duration.fromSecsF64 x ≠ .err e := by
  unfold Duration.fromSecsF64
  split
  · split
    · simp
    · split <;> simp
  · simp

theorem paramOf_iff (p : Str) :
    (∀ s, paramOf p = .ok s ↔ TimingParam p s) ∧ (paramOf p = .panic ↔ BadDur p) ∧
    ((∃ s, paramOf p = .ok s) ∨ paramOf p = .err 500 ∨ paramOf p = .panic) := by
  by_cases hs : ∃ k v, Shape p k v
  · obtain ⟨k, v, hs⟩ := hs
    rw [paramOf_shape hs]
    have hP : ∀ s, TimingParam p s ↔ ((k = s!!"dur" ∧ ∃ x d, Fl.parse f64Format v = some x ∧ MillisAre x d ∧ s = .dur d) ∨
        (k = s!!"desc" ∧ ∃ t, s = .desc t ∧
          (v = s!!"\"" ++ t ++ s!!"\"" ∨ (v = t ∧ t.head? ≠ some '"' ∧ t.getLast? ≠ some '"'))) ∨
        (k ≠ s!!"dur" ∧ k ≠ s!!"desc" ∧ s = .other)) := by
      intro s
      simp only [Fl.parse_iff (F := f64Format) (by decide)]
      constructor
      · rintro ⟨k', v', hs', h⟩
        obtain ⟨rfl, rfl⟩ := shape_unique hs hs'
        exact h
      · exact fun h => ⟨k, v, hs, h⟩
    have hB : BadDur p ↔ k = s!!"dur" ∧ ∃ x, Fl.parse f64Format v = some x ∧ NotMillis x := by
      simp only [Fl.parse_iff (F := f64Format) (by decide)]
      constructor
      · rintro ⟨v', x, hs', h⟩
        obtain ⟨rfl, rfl⟩ := shape_unique hs hs'
        exact ⟨rfl, x, h⟩
      · rintro ⟨rfl, x, h⟩
        exact ⟨v, x, hs, h⟩
    by_cases h1 : k = s!!"dur"
    · rw [if_pos h1]
      cases hp : Fl.parse f64Format v with
      | none =>
        refine ⟨fun s => ?_, ?_, .inr (.inl rfl)⟩
        · rw [hP, hp]
          subst h1
          simp [Res.ofOption, Res.bind]
        · rw [hB, hp]
          simp [Res.ofOption, Res.bind]
      | some x =>
        simp only [Res.ofOption_some, Res.bind_ok]
        refine ⟨fun s => ?_, ?_, ?_⟩
        · rw [hP, hp]
          subst h1
          cases s with
          | dur d =>
            rw [(dur_iff x d).1]
            simp
          | desc t =>
            simp only [Res.bind_eq_ok_iff]
            simp
          | other =>
            simp only [Res.bind_eq_ok_iff]
            simp
        · rw [hB, hp, (dur_iff x ⟨0, 0⟩).2]
          simp [h1]
        · cases hx : Duration.fromSecsF64 x with
          | ok d => exact .inl ⟨_, rfl⟩
          | err e => exact absurd hx (fromSecs_noErr x e)
          | panic => exact .inr (.inr rfl)
    · rw [if_neg h1]
      by_cases h2 : k = s!!"desc"
      · rw [if_pos h2]
        refine ⟨fun s => ?_, ?_, ?_⟩
        · rw [hP]
          subst h2
          simp only [Res.bind_eq_ok_iff, unquote_iff, Res.ok.injEq]
          constructor
          · rintro ⟨t, h, rfl⟩
            exact .inr (.inl ⟨by simp, t, rfl, h⟩)
          · rintro (⟨h, -⟩ | ⟨-, t, rfl, h⟩ | ⟨-, h, -⟩)
            · exact absurd h h1
            · exact ⟨t, h, rfl⟩
            · exact absurd rfl h
        · rw [hB]
          rcases unquote_clean v with ⟨t, h⟩ | h <;> simp [h, h1, Res.bind]
        · rcases unquote_clean v with ⟨t, h⟩ | h
          · exact .inl ⟨_, by rw [h]; rfl⟩
          · exact .inr (.inl (by rw [h]; rfl))
      · rw [if_neg h2]
        refine ⟨fun s => ?_, ?_, .inl ⟨_, rfl⟩⟩
        · rw [hP]
          simp only [h1, h2, false_and, false_or, not_false_eq_true, true_and, ne_eq, Res.ok.injEq]
          exact eq_comm
        · rw [hB]
          simp [h1]
  · rw [paramOf_noShape hs]
    refine ⟨fun s => ?_, ?_, .inr (.inl rfl)⟩
    · constructor
      · intro h; cases h
      · rintro ⟨k, v, h, -⟩; exact absurd ⟨k, v, h⟩ hs
    · constructor
      · intro h; cases h
      · rintro ⟨v, x, h, -⟩; exact absurd ⟨_, v, h⟩ hs

/-- When a sequence of steps panics. -/
theorem mapM_panic_iff {α β : Type} {f : α → Res β} {l : List α} :
    Res.mapM f l = .panic ↔ ∃ pre x post, l = pre ++ x :: post ∧ (∀ y ∈ pre, ∃ b, f y = .ok b) ∧ f x = .panic := by
  induction l with
  | nil => simp
  | cons a as ih =>
    rw [Res.mapM_cons]
    cases ha : f a with
    | panic =>
      simp only [Res.bind_panic, true_iff]
      exact ⟨[], a, as, rfl, by simp, ha⟩
    | err e =>
      constructor
      · intro h; cases h
      · rintro ⟨pre, x, post, h, h1, h2⟩
        cases pre with
        | nil =>
          simp only [List.nil_append, List.cons.injEq] at h
          obtain ⟨rfl, -⟩ := h
          rw [ha] at h2; cases h2
        | cons y pre =>
          simp only [List.cons_append, List.cons.injEq] at h
          obtain ⟨rfl, -⟩ := h
          obtain ⟨b, hb⟩ := h1 a (by simp)
          rw [ha] at hb; cases hb
    | ok b =>
      simp only [Res.bind_ok]
      have : ((Res.mapM f as).bind fun bs => Res.ok (b :: bs)) = .panic ↔ Res.mapM f as = .panic := by
        cases Res.mapM f as <;> simp [Res.bind]
      rw [this, ih]
      constructor
      · rintro ⟨pre, x, post, rfl, h1, h2⟩
        refine ⟨a :: pre, x, post, rfl, ?_, h2⟩
        intro y hy
        rcases List.mem_cons.mp hy with rfl | hy
        · exact ⟨b, ha⟩
        · exact h1 y hy
      · rintro ⟨pre, x, post, h, h1, h2⟩
        cases pre with
        | nil =>
          simp only [List.nil_append, List.cons.injEq] at h
          obtain ⟨rfl, -⟩ := h
          rw [ha] at h2; cases h2
        | cons y pre =>
          simp only [List.cons_append, List.cons.injEq] at h
          obtain ⟨rfl, rfl⟩ := h
          exact ⟨pre, x, post, rfl, fun z hz => h1 z (by simp [hz]), h2⟩

theorem mapM_outcome {α β : Type} {f : α → Res β} {s : Nat} {l : List α}
    (h : ∀ x ∈ l, (∃ b, f x = .ok b) ∨ f x = .err s ∨ f x = .panic) :
    (∃ b, Res.mapM f l = .ok b) ∨ Res.mapM f l = .err s ∨ Res.mapM f l = .panic := by
  induction l with
  | nil => exact .inl ⟨[], rfl⟩
  | cons a as ih =>
    rw [Res.mapM_cons]
    rcases h a (by simp) with ⟨b, hb⟩ | hb | hb <;> rw [hb]
    · rcases ih (fun x hx => h x (by simp [hx])) with ⟨c, hc⟩ | hc | hc <;> rw [hc]
      · exact .inl ⟨_, rfl⟩
      · exact .inr (.inl rfl)
      · exact .inr (.inr rfl)
    · exact .inr (.inl rfl)
    · exact .inr (.inr rfl)

theorem parseEntry_iff (e : Str) :
    (∀ m, parseEntry e = .ok m ↔ EntryText (trim e) m) ∧ (parseEntry e = .panic ↔ EntryPanics (trim e)) ∧
    ((∃ m, parseEntry e = .ok m) ∨ parseEntry e = .err 500 ∨ parseEntry e = .panic) := by
  cases hs : split ';' (trim e) with
  | nil => exact absurd hs (split_ne_nil _ _)
  | cons n ps =>
    rw [parseEntry_eq e hs]
    refine ⟨fun m => ?_, ?_, ?_⟩
    · unfold EntryText
      rw [hs]
      constructor
      · intro h
        cases hm : Res.mapM paramOf ps with
        | ok ss =>
          rw [hm] at h
          cases h
          refine ⟨n, ps, ss, rfl, ?_, rfl, rfl, rfl⟩
          exact (Res.mapM_eq_ok_iff.mp hm).imp fun a b hab => ((paramOf_iff a).1 b).mp hab
        | err e => rw [hm] at h; cases h
        | panic => rw [hm] at h; cases h
      · rintro ⟨n', ps', ss, h, hf, h1, h2, h3⟩
        simp only [List.cons.injEq] at h
        obtain ⟨rfl, rfl⟩ := h
        rw [Res.mapM_eq_ok_iff.mpr (hf.imp fun a b hab => ((paramOf_iff a).1 b).mpr hab)]
        obtain ⟨mn, md, mt⟩ := m
        simp only at h1 h2 h3
        subst h1 h2 h3
        rfl
    · have : ((Res.mapM paramOf ps).map fun ss => (⟨trimEnd n, lastDur ss, lastDesc ss⟩ : Metric)) = .panic ↔
          Res.mapM paramOf ps = .panic := by
        cases Res.mapM paramOf ps <;> simp [Res.map]
      rw [this, mapM_panic_iff]
      unfold EntryPanics
      rw [hs]
      constructor
      · rintro ⟨pre, x, post, rfl, h1, h2⟩
        exact ⟨n, pre, x, post, rfl, fun q hq => (h1 q hq).imp fun s hs => ((paramOf_iff q).1 s).mp hs,
          (paramOf_iff x).2.1.mp h2⟩
      · rintro ⟨n', pre, x, post, h, h1, h2⟩
        simp only [List.cons.injEq] at h
        obtain ⟨rfl, rfl⟩ := h
        exact ⟨pre, x, post, rfl, fun q hq => (h1 q hq).imp fun s hs => ((paramOf_iff q).1 s).mpr hs,
          (paramOf_iff x).2.1.mpr h2⟩
    · rcases mapM_outcome (f := paramOf) (l := ps) (s := 500) (fun x _ => (paramOf_iff x).2.2) with ⟨b, hb⟩ | hb | hb <;>
        rw [hb]
      · exact .inl ⟨_, rfl⟩
      · exact .inr (.inl rfl)
      · exact .inr (.inr rfl)

theorem parseHeader_loop (parts : List Str) : ∀ acc, parseHeader.loop parts acc =
    (Res.mapM (fun p => (parseEntry p).status 400) parts).map fun ms => acc ++ ms := by
  induction parts with
  | nil => intro acc; simp [parseHeader.loop, Res.map]
  | cons p ps ih =>
    intro acc
    rw [parseHeader.loop, Res.mapM_cons]
    cases (parseEntry p).status 400 with
    | ok m =>
      simp only [Res.bind_ok]
      rw [ih]
      cases Res.mapM (fun p => (parseEntry p).status 400) ps <;> simp [Res.map, Res.bind]
    | err e => rfl
    | panic => rfl

end Metric

theorem mapM_append {α β : Type} (f : α → Res β) (a b : List α) :
    Res.mapM f (a ++ b) = (Res.mapM f a).bind fun xs => (Res.mapM f b).map fun ys => xs ++ ys := by
  induction a with
  | nil => simp only [List.nil_append, Res.mapM_nil, Res.bind_ok]; cases Res.mapM f b <;> rfl
  | cons x xs ih =>
    rw [List.cons_append, Res.mapM_cons, Res.mapM_cons, ih]
    cases f x with
    | ok y =>
      simp only [Res.bind_ok]
      cases Res.mapM f xs with
      | ok ys => simp only [Res.bind_ok]; cases Res.mapM f b <;> rfl
      | err e => rfl
      | panic => rfl
    | err e => rfl
    | panic => rfl

namespace ServerTiming

theorem loop_eq (vs : List Str) : ∀ acc, loop vs acc =
    (Res.mapM (fun p => (Metric.parseEntry p).status 400) (vs.flatMap fun v => split ',' (trim v))).map
      fun ms => acc ++ ms := by
  induction vs with
  | nil => intro acc; simp [loop, Res.map]
  | cons v vs ih =>
    intro acc
    rw [loop, Metric.parseHeader, Metric.parseHeader_loop, List.flatMap_cons, mapM_append]
    cases Res.mapM (fun p => (Metric.parseEntry p).status 400) (split ',' (trim v)) with
    | ok ms =>
      simp only [Res.map_ok, Res.bind_ok]
      rw [ih]
      cases Res.mapM (fun p => (Metric.parseEntry p).status 400) (vs.flatMap fun v => split ',' (trim v)) <;>
        simp [Res.map]
    | err e => rfl
    | panic => rfl

theorem read_eq {h : Headers} {vs : List Str} (hv : h.get s!!"server-timing" = some vs) :
    fromHeaders h = (Res.mapM (fun p => (Metric.parseEntry p).status 400) (listItems vs)).map some := by
  have key : ∀ ps : List Str, Res.mapM (fun p => (Metric.parseEntry p).status 400) ps =
      Res.mapM (fun p => (Metric.parseEntry p).status 400) (ps.map trim) := by
    intro ps
    induction ps with
    | nil => rfl
    | cons p ps ih =>
      rw [List.map_cons, Res.mapM_cons, Res.mapM_cons, ih]
      congr 2
      unfold Metric.parseEntry
      rw [trim_trim]
  have hit : (vs.flatMap fun v => split ',' (trim v)).map trim = listItems vs := by
    have := trimmedParts_map vs
    unfold trimmedParts at this
    rwa [iter_eq] at this
  unfold fromHeaders
  rw [show h.get name = some vs from hv]
  simp only
  rw [iter_eq, loop_eq, key, hit]
  cases Res.mapM (fun p => (Metric.parseEntry p).status 400) (listItems vs) <;> simp [Res.map]

end ServerTiming

/-- C57 (reading): exactly the well-formed entries are read, in order. A malformed one is status 400; reading
panics exactly when the first unreadable thing is a duration that is negative, not finite or at least 2^64
milliseconds. Missing: not panicking, see `C57_violated_panics`. -/
theorem C57_reads_partial (h : Headers) (vs : List Str) (hv : h.get s!!"server-timing" = some vs) :
    (∀ ms, ServerTiming.fromHeaders h = .ok (some ms) ↔ List.Forall₂ EntryText (listItems vs) ms) ∧
    (ServerTiming.fromHeaders h = .panic ↔ ∃ pre e post, listItems vs = pre ++ e :: post ∧
      (∀ x ∈ pre, ∃ m, EntryText x m) ∧ EntryPanics e) ∧
    ((∃ ms, ServerTiming.fromHeaders h = .ok (some ms)) ∨ ServerTiming.fromHeaders h = .err 400 ∨
      ServerTiming.fromHeaders h = .panic) := by
  have hok : ∀ e ∈ listItems vs, ∀ m, (Metric.parseEntry e).status 400 = .ok m ↔ EntryText e m := by
    intro e he m
    rw [Res.status_eq_ok_iff, (Metric.parseEntry_iff e).1, trim_of_trimmed (listItems_mem he).2]
  have hpan : ∀ e ∈ listItems vs, (Metric.parseEntry e).status 400 = .panic ↔ EntryPanics e := by
    intro e he
    have : (Metric.parseEntry e).status 400 = .panic ↔ Metric.parseEntry e = .panic := by
      cases Metric.parseEntry e <;> simp [Res.status]
    rw [this, (Metric.parseEntry_iff e).2.1, trim_of_trimmed (listItems_mem he).2]
  have hout : ∀ e, (∃ m, (Metric.parseEntry e).status 400 = .ok m) ∨ (Metric.parseEntry e).status 400 = .err 400 ∨
      (Metric.parseEntry e).status 400 = .panic := by
    intro e
    rcases (Metric.parseEntry_iff e).2.2 with ⟨m, hm⟩ | hm | hm <;> rw [hm]
    · exact .inl ⟨m, rfl⟩
    · exact .inr (.inl rfl)
    · exact .inr (.inr rfl)
  rw [ServerTiming.read_eq hv]
  generalize listItems vs = items at *
  refine ⟨fun ms => ?_, ?_, ?_⟩
  · have h1 : (Res.mapM (fun p => (Metric.parseEntry p).status 400) items).map some = .ok (some ms) ↔
        Res.mapM (fun p => (Metric.parseEntry p).status 400) items = .ok ms := by
      cases Res.mapM (fun p => (Metric.parseEntry p).status 400) items <;> simp [Res.map]
    rw [h1, Res.mapM_eq_ok_iff]
    clear h1 hpan hout
    induction items generalizing ms with
    | nil => cases ms <;> simp
    | cons e es ih =>
      cases ms with
      | nil => simp
      | cons m ms =>
        have h2 := ih (fun x hx => hok x (List.mem_cons_of_mem _ hx)) ms
        rw [List.forall₂_cons, List.forall₂_cons]
        exact and_congr (hok e (by simp) m) h2
  · have h1 : (Res.mapM (fun p => (Metric.parseEntry p).status 400) items).map some = .panic ↔
        Res.mapM (fun p => (Metric.parseEntry p).status 400) items = .panic := by
      cases Res.mapM (fun p => (Metric.parseEntry p).status 400) items <;> simp [Res.map]
    rw [h1, Metric.mapM_panic_iff]
    constructor
    · rintro ⟨pre, x, post, rfl, h2, h3⟩
      refine ⟨pre, x, post, rfl, fun y hy => ?_, (hpan x (by simp)).mp h3⟩
      exact (h2 y hy).imp fun m hm => (hok y (by simp [hy]) m).mp hm
    · rintro ⟨pre, x, post, rfl, h2, h3⟩
      refine ⟨pre, x, post, rfl, fun y hy => ?_, (hpan x (by simp)).mpr h3⟩
      exact (h2 y hy).imp fun m hm => (hok y (by simp [hy]) m).mpr hm
  · rcases Metric.mapM_outcome (l := items) (fun x _ => hout x) with ⟨b, hb⟩ | hb | hb <;> rw [hb]
    · exact .inl ⟨b, rfl⟩
    · exact .inr (.inl rfl)
    · exact .inr (.inr rfl)

example : ServerTiming.fromHeaders [(s!!"server-timing", [s!!"db; dur=53.2; desc=\"x\", cache"])] =
    .ok (some [⟨s!!"db", some ⟨0, 53200000⟩, some s!!"x"⟩, ⟨s!!"cache", none, none⟩]) := by decide +kernel

end HT
