import Verif.Spec.Timings
import Verif.Props.Listed
import Verif.Props.ServerTimingTrip
import Verif.Props.Fields

/-!
C100: Server-Timing in the form of its specification.
-/

namespace HT

open Spec

/-! ### numbers -/

theorem millisText_unique {v : Str} {a k a' k' : Nat} (h : MillisText v a k) (h' : MillisText v a' k') : a = a' ∧ k = k' := by
  have hd : ∀ {i : Str}, Digits i → '.' ∉ i := fun h hm => by have := h _ hm; revert this; decide
  cases h with
  | whole _ h2 =>
    cases h' with
    | whole => exact ⟨rfl, rfl⟩
    | point => exact absurd (by simp) (hd h2)
  | @point i f _ _ h3 _ =>
    generalize hw : i ++ '.' :: f = w at h'
    cases h' with
    | whole _ h2 => subst hw; exact absurd (by simp) (hd h2)
    | @point i' f' _ _ h3' _ =>
      have e1 := splitOnce_append (c := '.') (hd h3) f
      have e2 := splitOnce_append (c := '.') (hd h3') f'
      rw [hw, e2] at e1
      cases e1
      exact ⟨rfl, rfl⟩

theorem millisText_decimal {v : Str} {a k : Nat} (h : MillisText v a k) : Decimal v a (10 ^ k) := by
  cases h with
  | @whole _ h1 h2 => exact ⟨v, [], [], [], 0, 0, by simp, h2, by simp [Digits], by simpa using h1, .inr ⟨rfl, rfl⟩, .none, by simp, by simp⟩
  | @point i f h1 h2 h3 h4 =>
    exact ⟨i, s!!".", f, [], 0, 0, by simp, h3, h4, by simp [h1], .inl rfl, .none, by simp, by simp⟩

/-- A decimal of at most nine places below 2^23 is read as the duration it means. -/
theorem millis_exact {v : Str} {a k : Nat} (h : MillisText v a k) (hs : a < 2 ^ 23 * 10 ^ k) (hk : k ≤ 9) :
    ∃ x, NumberText f64Format v x ∧ MillisAre x (durationOf a k) := by
  have hb : 0 < 10 ^ k := Nat.pow_pos (by omega)
  set m := roundTo 53 (a * 2 ^ 1074) (10 ^ k) with hm
  have hlt : a * 2 ^ 1074 < 10 ^ k * 2 ^ 1097 := by
    have := Nat.mul_lt_mul_of_pos_right hs (Nat.two_pow_pos 1074)
    calc a * 2 ^ 1074 < 2 ^ 23 * 10 ^ k * 2 ^ 1074 := this
      _ = 10 ^ k * 2 ^ 1097 := by rw [show (1097 : Nat) = 23 + 1074 from rfl, Nat.pow_add]; ring
  have herr := roundTo_error (p := 53) (a := a * 2 ^ 1074) (b := 10 ^ k) (k := 1097) (by omega) hb (by omega) hlt
  rw [← hm] at herr
  have hle : m ≤ 2 ^ 1097 := roundTo_le (by omega) hb (representable_pow 53 (by omega) 1097) hlt.le
  have hlim : m < f64Format.limit := lt_of_le_of_lt hle (Nat.pow_lt_pow_right (by omega) (by omega))
  refine ⟨.fin false m, ⟨false, v, .inr ⟨rfl, .inr rfl⟩, .inl ⟨a, 10 ^ k, millisText_decimal h, m, ?_, .inl ⟨hlim, rfl⟩⟩⟩, ?_⟩
  · exact (nearestUnits_iff (by decide) hb).mpr rfl
  refine ⟨.inl rfl, ?_, Nat.mod_lt _ (by omega), a * 10 ^ (9 - k), ?_, ?_⟩
  · refine lt_of_le_of_lt hle ?_
    rw [← Nat.pow_add]
    exact Nat.pow_lt_pow_right (by omega) (by omega)
  · -- the nearest whole number of picoseconds
    have hsplit : (10 : Nat) ^ 9 = 10 ^ (9 - k) * 10 ^ k := by rw [← Nat.pow_add]; congr 1; omega
    have h2 : 2 * gap (m * 1000000000) (2 ^ 1074 * (a * 10 ^ (9 - k))) < 2 ^ 1074 := by
      have e : gap (m * 1000000000) (2 ^ 1074 * (a * 10 ^ (9 - k))) = gap (a * 2 ^ 1074) (10 ^ k * m) * 10 ^ (9 - k) := by
        have e1 : m * 1000000000 = 10 ^ k * m * 10 ^ (9 - k) := by
          rw [show (1000000000 : Nat) = 10 ^ 9 from rfl, hsplit]; ring
        have e2 : 2 ^ 1074 * (a * 10 ^ (9 - k)) = a * 2 ^ 1074 * 10 ^ (9 - k) := by ring
        rw [e1, e2, gap_mul]
        unfold gap
        rw [Nat.add_comm]
      rw [e, ← Nat.mul_assoc]
      calc 2 * gap (a * 2 ^ 1074) (10 ^ k * m) * 10 ^ (9 - k) ≤ 10 ^ k * 2 ^ (1097 - 53) * 10 ^ (9 - k) :=
            Nat.mul_le_mul_right _ herr
        _ = 10 ^ 9 * 2 ^ 1044 := by rw [hsplit]; ring
        _ < 2 ^ 30 * 2 ^ 1044 := Nat.mul_lt_mul_of_pos_right (by norm_num) (Nat.two_pow_pos _)
        _ = 2 ^ 1074 := by rw [← Nat.pow_add]
    exact ⟨h2.le, fun he => absurd he (by omega)⟩
  · have : a * 1000000 / 10 ^ k = a * 10 ^ (9 - k) / 1000 := by
      have h1 : a * 10 ^ (9 - k) / 1000 = a * 10 ^ (9 - k) * 10 ^ k / (1000 * 10 ^ k) :=
        (Nat.mul_div_mul_right _ _ hb).symm
      have h2 : a * 10 ^ (9 - k) * 10 ^ k = 1000 * (a * 1000000) := by
        rw [Nat.mul_assoc, ← Nat.pow_add, show 9 - k + k = 9 by omega]; ring
      rw [h1, h2, Nat.mul_div_mul_left _ _ (by omega)]
    unfold durationOf
    simp only
    rw [this]
    omega

/-! ### parameters -/

theorem token_ends {t : Str} (h : Token t) : (∀ c, t.head? = some c → isWs c = false ∧ c ≠ '"') ∧
    (∀ c, t.getLast? = some c → isWs c = false ∧ c ≠ '"') := by
  have hq : ∀ c ∈ t, isWs c = false ∧ c ≠ '"' := fun c hc => ⟨(tchar_not (h.2 c hc)).1, fun e => by
    subst e; exact absurd ((Mime.isToken_iff _).mpr (h.2 _ hc)) (by decide)⟩
  exact ⟨fun c hc => hq c (List.mem_of_mem_head? (by simp [hc])), fun c hc => hq c (List.mem_of_mem_getLast? (by simp [hc]))⟩

theorem valueText_ends {raw v : Str} (h : ValueText raw v) : raw ≠ [] ∧ (∀ c, raw.head? = some c → isWs c = false) ∧
    (∀ c, raw.getLast? = some c → isWs c = false) := by
  rcases h with ⟨rfl, ht⟩ | ⟨e, rfl, -, -⟩
  · exact ⟨ht.1, fun c hc => ((token_ends ht).1 c hc).1, fun c hc => ((token_ends ht).2 c hc).1⟩
  · refine ⟨by simp, fun c hc => ?_, fun c hc => ?_⟩
    · simp only [List.head?_cons, Option.some.injEq] at hc
      rw [← hc]; decide
    · rw [show '"' :: (e ++ ['"']) = ('"' :: e) ++ ['"'] from rfl, List.getLast?_concat, Option.some.injEq] at hc
      rw [← hc]; decide

/-- A piece between semicolons. -/
def PieceOf (part : Str) (p : TimingArg) : Prop :=
  ∃ b c d w, Ows b ∧ Ows c ∧ Ows d ∧ Ows w ∧ part = b ++ (p.name ++ (c ++ '=' :: (d ++ (p.raw ++ w)))) ∧
    Token p.name ∧ ValueText p.raw p.value ∧ (p.spaced = false → w = [])

theorem args_split {r : Str} {ps : List TimingArg} (h : TimingArgs r ps) : ∀ x : Str, ';' ∉ x → (∀ p ∈ ps, ';' ∉ p.raw) →
    ∃ w parts, split ';' (x ++ r) = (x ++ w) :: parts ∧ Ows w ∧
      (blankNext r = false → w = []) ∧ List.Forall₂ PieceOf parts ps := by
  induction h with
  | nil => intro x hx _; exact ⟨[], [], by simp [split_of_not_mem hx], by simp [Ows], fun _ => rfl, .nil⟩
  | @cons a b n c d raw v rest ps ha hb hn hc hd hv _ ih =>
    intro x hx hr
    have ows : ∀ w : Str, Ows w → ';' ∉ w := fun w hw => ows_not_mem hw (by decide) (by decide)
    have hn' : ';' ∉ n := fun hm => (tchar_not (hn.2 _ hm)).2.1 rfl
    obtain ⟨w, parts, h1, h2, h3, h4⟩ := ih (b ++ (n ++ (c ++ '=' :: (d ++ raw)))) (by
      simp only [List.mem_append, List.mem_cons, not_or]
      exact ⟨ows b hb, hn', ows c hc, by decide, ows d hd, hr ⟨n, v, raw, _⟩ List.mem_cons_self⟩)
      (fun p hp => hr p (List.mem_cons_of_mem _ hp))
    have e : x ++ (a ++ ';' :: (b ++ (n ++ (c ++ '=' :: (d ++ (raw ++ rest)))))) =
        (x ++ a) ++ ';' :: ((b ++ (n ++ (c ++ '=' :: (d ++ raw)))) ++ rest) := by simp
    refine ⟨a, _, by rw [e, split_append_sep, h1]; simp only [List.mem_append, not_or]; exact ⟨hx, ows a ha⟩, ha, ?_, .cons ?_ h4⟩
    · intro hm
      cases a with
      | nil => rfl
      | cons y a =>
        have : y = ' ' ∨ y = '\t' := ha y List.mem_cons_self
        rcases this with rfl | rfl <;> exact absurd hm (by simp [blankNext])
    · exact ⟨b, c, d, w, hb, hc, hd, h2, by simp, hn, hv, h3⟩

theorem args_chars {r : Str} {ps : List TimingArg} (h : TimingArgs r ps) {x : Char} (h1 : ¬ TChar x) (h2 : x ≠ ' ') (h3 : x ≠ '\t')
    (h4 : x ≠ ';') (h5 : x ≠ '=') (hr : ∀ p ∈ ps, x ∉ p.raw) : x ∉ r := by
  induction h with
  | nil => simp
  | @cons a b n c d raw v rest ps ha hb hn hc hd hv _ ih =>
    simp only [List.mem_append, List.mem_cons, not_or]
    exact ⟨ows_not_mem ha h2 h3, h4, ows_not_mem hb h2 h3, fun hm => h1 (hn.2 _ hm), ows_not_mem hc h2 h3, h5,
      ows_not_mem hd h2 h3, hr ⟨n, v, raw, _⟩ List.mem_cons_self, ih fun p hp => hr p (List.mem_cons_of_mem _ hp)⟩

theorem args_last {r : Str} {ps : List TimingArg} (h : TimingArgs r ps) : ∀ c, r.getLast? = some c → isWs c = false := by
  induction h with
  | nil => intro c hc; cases hc
  | @cons a b n c d raw v rest ps ha hb hn hc hd hv _ ih =>
    intro x hx
    obtain ⟨v1, v2, v3⟩ := valueText_ends hv
    have e : a ++ ';' :: (b ++ (n ++ (c ++ '=' :: (d ++ (raw ++ rest))))) =
        (a ++ ';' :: (b ++ (n ++ (c ++ '=' :: d)))) ++ (raw ++ rest) := by simp
    rw [e, List.getLast?_append_of_ne_nil _ (by simp [v1])] at hx
    cases rest with
    | nil => rw [List.append_nil] at hx; exact v3 x hx
    | cons y rest =>
      rw [List.getLast?_append_of_ne_nil _ (by simp)] at hx
      exact ih x hx

theorem timingText_ok {t : Str} {x : List TimingArg × Metric} (h : TimingText t x) (hp : ∀ p ∈ x.1, ',' ∉ p.raw) :
    ',' ∉ t ∧ Trimmed t := by
  obtain ⟨r, rfl, hn, hr, -⟩ := h
  refine ⟨?_, ?_, ?_⟩
  · simp only [List.mem_append, not_or]
    exact ⟨(token_no_comma hn).1, args_chars hr (Forwarded.sep_not_tchar _ (by decide)) (by decide) (by decide) (by decide) (by decide) hp⟩
  · intro c hc
    rw [List.head?_append_of_ne_nil _ hn.1] at hc
    exact ((token_ends hn).1 c hc).1
  · intro c hc
    cases r with
    | nil => rw [List.append_nil] at hc; exact ((token_ends hn).2 c hc).1
    | cons y r =>
      rw [List.getLast?_append_of_ne_nil _ (by simp)] at hc
      exact args_last hr c hc

theorem piece_shape {part : Str} {p : TimingArg} (h : PieceOf part p) : ∃ v, Shape part p.name v ∧
    ('=' ∉ p.raw → ∃ w, Ows w ∧ v = p.raw ++ w ∧ (p.spaced = false → w = [])) := by
  obtain ⟨b, c, d, w, hb, hc, hd, hw, rfl, hn, hv, hs⟩ := h
  have hne : '=' ∉ p.name := fun hm => (tchar_not (hn.2 _ hm)).2.2.2 rfl
  have hstart : trimStart (b ++ (p.name ++ (c ++ '=' :: (d ++ (p.raw ++ w))))) =
      (p.name ++ c) ++ '=' :: (d ++ (p.raw ++ w)) := by
    rw [trimStart_ws_append (ows_ws hb), trimStart_of_head]
    · simp
    · intro x hx
      rw [List.head?_append_of_ne_nil _ hn.1] at hx
      exact ((token_ends hn).1 x hx).1
  have hcn : '=' ∉ p.name ++ c := by
    simp only [List.mem_append, not_or]
    exact ⟨hne, ows_not_mem hc (by decide) (by decide)⟩
  obtain ⟨u, tl, hu⟩ := split_head_exists '=' (d ++ (p.raw ++ w))
  have htrim : p.name = trimEnd (p.name ++ c) := by
    have h1 : trim (p.name ++ c) = p.name := token_trim hn hc
    unfold trim at h1
    rw [trimStart_of_head] at h1
    · exact h1.symm
    · intro x hx
      rw [List.head?_append_of_ne_nil _ hn.1] at hx
      exact ((token_ends hn).1 x hx).1
  refine ⟨trimStart u, (Metric.shape_iff _ _ _).mpr ⟨p.name ++ c, u, tl, by rw [hstart, split_append_sep hcn, hu], htrim, rfl⟩, ?_⟩
  intro hr
  have : '=' ∉ d ++ (p.raw ++ w) := by
    simp only [List.mem_append, not_or]
    exact ⟨ows_not_mem hd (by decide) (by decide), hr, ows_not_mem hw (by decide) (by decide)⟩
  rw [split_of_not_mem this] at hu
  cases hu
  refine ⟨w, hw, ?_, hs⟩
  rw [trimStart_ws_append (ows_ws hd), trimStart_of_head]
  intro x hx
  obtain ⟨v1, v2, -⟩ := valueText_ends hv
  rw [List.head?_append_of_ne_nil _ v1] at hx
  exact v2 x hx

theorem escaped_plain {e v : Str} (h : Escaped e v) (hb : '\\' ∉ e) : e = v := by
  induction h with
  | nil => rfl
  | plain _ _ _ ih => rw [ih fun hm => hb (List.mem_cons_of_mem _ hm)]
  | pair _ _ => exact absurd List.mem_cons_self hb

/-- What a plain parameter says. -/
def SaidBy (p : TimingArg) (s : Said) : Prop :=
  (p.name = s!!"dur" → ∃ a k, MillisText p.value a k ∧ s = .dur (durationOf a k)) ∧
  (p.name = s!!"desc" → s = .desc p.value) ∧ (p.name ≠ s!!"dur" → p.name ≠ s!!"desc" → s = .other)

theorem piece_said {part : Str} {p : TimingArg} (h : PieceOf part p)
    (hdesc : p.name = s!!"desc" → p.spaced = false ∧ '=' ∉ p.raw ∧ '\\' ∉ p.raw)
    (hdur : p.name = s!!"dur" → p.spaced = false ∧ p.raw = p.value ∧
      ∃ a k, MillisText p.value a k ∧ a < 2 ^ 23 * 10 ^ k ∧ k ≤ 9) : ∃ s, TimingParam part s ∧ SaidBy p s := by
  obtain ⟨v, hs, hv⟩ := piece_shape h
  obtain ⟨-, -, -, -, -, -, -, -, -, -, hval, -⟩ := h
  by_cases h1 : p.name = s!!"dur"
  · obtain ⟨d1, d2, a, k, d3, d4, d5⟩ := hdur h1
    have hr : '=' ∉ p.raw := by
      rw [d2]
      clear hs hv hval d2 hdesc hdur
      generalize p.value = v at d3
      cases d3 with
      | whole _ h => exact fun hm => absurd (h _ hm) (by decide)
      | point _ _ h h' =>
        simp only [List.mem_append, List.mem_cons, not_or]
        exact ⟨fun hm => absurd (h _ hm) (by decide), by decide, fun hm => absurd (h' _ hm) (by decide)⟩
    obtain ⟨w, -, rfl, hw⟩ := hv hr
    rw [hw d1, List.append_nil, d2] at hs
    obtain ⟨x, hx, hd⟩ := millis_exact d3 d4 d5
    refine ⟨.dur (durationOf a k), ⟨_, _, h1 ▸ hs, .inl ⟨rfl, x, _, hx, hd, rfl⟩⟩, fun _ => ⟨a, k, d3, rfl⟩, fun h2 => ?_, fun h2 => absurd h1 h2⟩
    rw [h1] at h2
    exact absurd h2 (by decide)
  · by_cases h2 : p.name = s!!"desc"
    · obtain ⟨d1, d2, d3⟩ := hdesc h2
      obtain ⟨w, -, rfl, hw⟩ := hv d2
      rw [hw d1, List.append_nil] at hs
      refine ⟨.desc p.value, ⟨_, _, h2 ▸ hs, .inr (.inl ⟨rfl, _, rfl, ?_⟩)⟩, fun h => absurd h h1, fun _ => rfl, fun _ h => absurd h2 h⟩
      rcases hval with ⟨he, ht⟩ | ⟨e, he, hesc, -⟩
      · right
        refine ⟨he, fun hh => ((token_ends ht).1 _ hh).2 rfl, fun hh => ((token_ends ht).2 _ hh).2 rfl⟩
      · left
        rw [he] at d3 ⊢
        rw [escaped_plain hesc (fun hm => d3 (by simp [hm]))]
        rfl
    · exact ⟨.other, ⟨_, _, hs, .inr (.inr ⟨h1, h2, rfl⟩)⟩, fun h => absurd h h1, fun h => absurd h h2, fun _ _ => rfl⟩

theorem said_means {ps : List TimingArg} {ss : List Said} (hs : List.Forall₂ SaidBy ps ss) {m : Metric} (hm : TimingMeans ps m)
    (ho : ps.Pairwise fun p q => p.name = q.name → p.name ≠ s!!"dur" ∧ p.name ≠ s!!"desc") :
    m.dur = lastDur ss ∧ m.desc = lastDesc ss := by
  have none1 : ∀ {ps : List TimingArg} {ss : List Said}, List.Forall₂ SaidBy ps ss → (∀ p ∈ ps, p.name ≠ s!!"dur") →
      lastDur ss = none := by
    intro ps ss hs
    unfold lastDur
    rw [List.getLast?_eq_none_iff]
    induction hs with
    | nil => intro _; rfl
    | @cons p s ps ss h1 _ ih =>
      intro hp
      have hi := ih fun q hq => hp q (List.mem_cons_of_mem _ hq)
      have hn := hp p List.mem_cons_self
      by_cases hd : p.name = s!!"desc"
      · rw [h1.2.1 hd]; simpa using hi
      · rw [h1.2.2 hn hd]; simpa using hi
  have none2 : ∀ {ps : List TimingArg} {ss : List Said}, List.Forall₂ SaidBy ps ss → (∀ p ∈ ps, p.name ≠ s!!"desc") →
      lastDesc ss = none := by
    intro ps ss hs
    unfold lastDesc
    rw [List.getLast?_eq_none_iff]
    induction hs with
    | nil => intro _; rfl
    | @cons p s ps ss h1 _ ih =>
      intro hp
      have hi := ih fun q hq => hp q (List.mem_cons_of_mem _ hq)
      have hn := hp p List.mem_cons_self
      by_cases hd : p.name = s!!"dur"
      · obtain ⟨a, k, -, e⟩ := h1.1 hd; rw [e]; simpa using hi
      · rw [h1.2.2 hd hn]; simpa using hi
  obtain ⟨m1, m2⟩ := hm
  constructor
  · clear m2
    unfold lastDur
    induction hs with
    | nil => exact m1
    | @cons p s ps ss h1 h2 ih =>
      obtain ⟨o1, o2⟩ := List.pairwise_cons.mp ho
      by_cases hd : p.name = s!!"dur"
      · rw [List.find?_cons_of_pos (by simpa using hd)] at m1
        obtain ⟨a, k, t1, t2⟩ := m1
        obtain ⟨a', k', t3, rfl⟩ := h1.1 hd
        obtain ⟨rfl, rfl⟩ := millisText_unique t1 t3
        show m.dur = (durationOf a k :: List.filterMap _ ss).getLast?
        have hn := none1 h2 fun q hq he => (o1 q hq (hd.trans he.symm)).1 hd
        unfold lastDur at hn
        rw [List.getLast?_eq_none_iff.mp hn]
        exact t2
      · rw [List.find?_cons_of_neg (by simpa using hd)] at m1
        have := ih o2 m1
        rw [this]
        by_cases hd' : p.name = s!!"desc"
        · rw [h1.2.1 hd', List.filterMap_cons_none rfl]
        · rw [h1.2.2 hd hd', List.filterMap_cons_none rfl]
  · clear m1
    unfold lastDesc
    induction hs with
    | nil => exact m2
    | @cons p s ps ss h1 h2 ih =>
      obtain ⟨o1, o2⟩ := List.pairwise_cons.mp ho
      by_cases hd : p.name = s!!"desc"
      · rw [List.find?_cons_of_pos (by simpa using hd)] at m2
        rw [h1.2.1 hd]
        show m.desc = (p.value :: List.filterMap _ ss).getLast?
        have hn := none2 h2 fun q hq he => (o1 q hq (hd.trans he.symm)).2 hd
        unfold lastDesc at hn
        rw [List.getLast?_eq_none_iff.mp hn]
        exact m2
      · rw [List.find?_cons_of_neg (by simpa using hd)] at m2
        have := ih o2 m2
        rw [this]
        by_cases hd' : p.name = s!!"dur"
        · obtain ⟨a, k, -, e⟩ := h1.1 hd'; rw [e, List.filterMap_cons_none rfl]
        · rw [h1.2.2 hd' hd, List.filterMap_cons_none rfl]

theorem timingText_entry {t : Str} {x : List TimingArg × Metric} (h : TimingText t x) (hp : PlainArgs x.1) : EntryText t x.2 := by
  obtain ⟨ps, m⟩ := x
  obtain ⟨r, rfl, hn, hr, hm⟩ := h
  simp only at hn hr hm hp ⊢
  obtain ⟨w, parts, h1, h2, -, h3⟩ := args_split hr m.name (fun hm => (tchar_not (hn.2 _ hm)).2.1 rfl) fun p hp' => (hp.seps p hp').2
  obtain ⟨ss, s1, s2⟩ : ∃ ss, List.Forall₂ TimingParam parts ss ∧ List.Forall₂ SaidBy ps ss := by
    have hd := hp.desc
    have hu := hp.dur
    clear hp hm hr h1
    induction h3 with
    | nil => exact ⟨[], .nil, .nil⟩
    | @cons part p parts ps h4 _ ih =>
      obtain ⟨s, e1, e2⟩ := piece_said h4 (hd p List.mem_cons_self) (hu p List.mem_cons_self)
      obtain ⟨ss, f1, f2⟩ := ih (fun q hq => hd q (List.mem_cons_of_mem _ hq)) (fun q hq => hu q (List.mem_cons_of_mem _ hq))
      exact ⟨s :: ss, .cons e1 f1, .cons e2 f2⟩
  obtain ⟨d1, d2⟩ := said_means s2 hm hp.once
  refine ⟨m.name ++ w, parts, ss, h1, s1, ?_, d1, d2⟩
  have h1 : trim (m.name ++ w) = m.name := token_trim hn h2
  unfold trim at h1
  rw [trimStart_of_head] at h1
  · exact h1.symm
  · intro c hc
    rw [List.head?_append_of_ne_nil _ hn.1] at hc
    exact ((token_ends hn).1 c hc).1

/-- Every list of metrics with plain parameters is read with its meaning, durations to the nanosecond, except that an
empty element is read as a metric without name. -/
theorem C100_metrics_partial (h : Headers) (vs : List Str) (ms : List (Option (List TimingArg × Metric)))
    (hv : h.get s!!"server-timing" = some vs) (hl : Listed TimingText vs ms) (hp : ∀ x, some x ∈ ms → PlainArgs x.1) :
    ServerTiming.fromHeaders h = .ok (some (ms.map fun m => (m.map Prod.snd).getD ⟨[], none, none⟩)) ∧
    (ServerTiming.fromHeaders h = .ok (some ((ms.filterMap id).map Prod.snd)) ↔ none ∉ ms) := by
  have hf := listed_items hl fun t x hx ht => timingText_ok ht fun p hp' => ((hp x hx).seps p hp').1
  have hread : ServerTiming.fromHeaders h = .ok (some (ms.map fun m => (m.map Prod.snd).getD ⟨[], none, none⟩)) := by
    rw [(C57_reads_partial h vs hv).1]
    clear hl hv
    generalize listItems vs = ts at hf
    induction hf with
    | nil => exact .nil
    | @cons t m ts ms ht _ ih =>
      refine .cons ?_ (ih fun x hx => hp x (List.mem_cons_of_mem _ hx))
      cases m with
      | none =>
        rw [show t = [] from ht]
        exact ⟨[], [], [], rfl, .nil, rfl, rfl, rfl⟩
      | some x => exact timingText_entry ht (hp x List.mem_cons_self)
  refine ⟨hread, ?_⟩
  rw [hread, Res.ok.injEq, Option.some.injEq]
  have := getD_eq_filterMap (⟨[], none, none⟩ : Metric) (ms.map (Option.map Prod.snd))
  rw [List.map_map] at this
  have e : (ms.map (Option.map Prod.snd)).filterMap id = (ms.filterMap id).map Prod.snd := by
    rw [List.filterMap_map, List.map_filterMap]
    rfl
  rw [e] at this
  rw [show (ms.map fun m => (m.map Prod.snd).getD ⟨[], none, none⟩) = ms.map ((fun x => x.getD ⟨[], none, none⟩) ∘ Option.map Prod.snd) from rfl, this]
  simp


example : ∃ ps m, TimingText s!!"db ; dur=53.25;x=\"y=z\" ;desc=\"a b\"" (ps, m) ∧ PlainArgs ps ∧
    m = ⟨s!!"db", some ⟨0, 53250000⟩, some s!!"a b"⟩ := by
  have hv : MillisText s!!"53.25" 5325 2 := .point (i := s!!"53") (f := s!!"25") (by decide) (by decide) (by unfold Digits; decide) (by unfold Digits; decide)
  refine ⟨[⟨s!!"dur", s!!"53.25", s!!"53.25", false⟩, ⟨s!!"x", s!!"y=z", s!!"\"y=z\"", true⟩, ⟨s!!"desc", s!!"a b", s!!"\"a b\"", false⟩],
    _, ⟨s!!" ; dur=53.25;x=\"y=z\" ;desc=\"a b\"", rfl, Mime.token_of (by decide) (by decide), ?_, ⟨⟨5325, 2, hv, by decide⟩, rfl⟩⟩, ?_, rfl⟩
  · have ows0 : Ows [] := by simp [Ows]
    have ows1 : Ows s!!" " := by simp [Ows]
    have qt : ∀ s : Str, '"' ∉ s → '\\' ∉ s → (∀ c ∈ s, QuotedChar c) → ValueText ('"' :: (s ++ ['"'])) s :=
      fun s h1 h2 h3 => .inr ⟨s, rfl, escaped_self h1 h2, h3⟩
    exact .cons (a := s!!" ") (b := s!!" ") (n := s!!"dur") (c := []) (d := []) (raw := s!!"53.25") (rest := s!!";x=\"y=z\" ;desc=\"a b\"")
      ows1 ows1 (Mime.token_of (by decide) (by decide)) ows0 ows0 (.inl ⟨rfl, Mime.token_of (by decide) (by decide)⟩)
      (.cons (a := []) (b := []) (n := s!!"x") (c := []) (d := []) (raw := s!!"\"y=z\"") (rest := s!!" ;desc=\"a b\"")
      ows0 ows0 (Mime.token_of (by decide) (by decide)) ows0 ows0 (qt s!!"y=z" (by decide) (by decide) (by unfold QuotedChar; decide))
      (.cons (a := s!!" ") (b := []) (n := s!!"desc") (c := []) (d := []) (raw := s!!"\"a b\"") (rest := [])
      ows1 ows0 (Mime.token_of (by decide) (by decide)) ows0 ows0 (qt s!!"a b" (by decide) (by decide) (by unfold QuotedChar; decide)) .nil))
  · refine ⟨by decide, by decide, by decide, ?_⟩
    intro p hp hd
    simp only [List.mem_cons, List.not_mem_nil, or_false] at hp
    rcases hp with rfl | rfl | rfl
    · exact ⟨rfl, rfl, 5325, 2, hv, by decide, by decide⟩
    · exact absurd hd (by decide)
    · exact absurd hd (by decide)

/-! ### what is refused or changed -/

theorem metric_fails {h : Headers} {vs : List Str} {e : Str} {rest : List Str} (hv : h.get s!!"server-timing" = some vs)
    (hl : listItems vs = e :: rest) (h1 : ∀ m, ¬ EntryText e m) (h2 : ¬ EntryPanics e) : ServerTiming.fromHeaders h = .err 400 := by
  obtain ⟨c1, c2, c3⟩ := C57_reads_partial h vs hv
  rcases c3 with ⟨ms, hm⟩ | he | hp
  · rw [c1, hl] at hm
    cases hm with
    | cons hm _ => exact absurd hm (h1 _)
  · exact he
  · obtain ⟨pre, x, post, e1, e2, e3⟩ := c2.mp hp
    rw [hl] at e1
    cases pre with
    | nil => cases e1; exact absurd e3 h2
    | cons y pre =>
      cases e1
      obtain ⟨m, hm⟩ := e2 e List.mem_cons_self
      exact absurd hm (h1 m)

/-- One value with one metric. -/
theorem metric_one {h : Headers} {t : Str} (hv : h.get s!!"server-timing" = some [t]) (hc : ',' ∉ t) (ht : Trimmed t) :
    (∀ m, ServerTiming.fromHeaders h = .ok (some [m]) ↔ EntryText t m) ∧
    (ServerTiming.fromHeaders h = .panic ↔ EntryPanics t) := by
  have hl : listItems [t] = [t] := by
    show (split ',' t).map trim ++ [] = [t]
    rw [split_of_not_mem hc]
    simp [trim_of_trimmed ht]
  obtain ⟨c1, c2, c3⟩ := C57_reads_partial h [t] hv
  rw [hl] at c1 c2
  refine ⟨fun m => ?_, ?_⟩
  · rw [c1]
    constructor
    · intro hf; cases hf with | cons h1 _ => exact h1
    · exact fun h1 => .cons h1 .nil
  · rw [c2]
    constructor
    · rintro ⟨pre, x, post, e1, -, e3⟩
      cases pre with
      | nil => cases e1; exact e3
      | cons y pre =>
        injection e1 with _ e1
        simp at e1
    · exact fun hp => ⟨[], t, [], rfl, by simp, hp⟩

theorem one_arg {k raw v : Str} (hk : Token k) (hv : ValueText raw v) :
    TimingArgs (';' :: (k ++ '=' :: raw)) [⟨k, v, raw, false⟩] := by
  have := TimingArgs.cons (a := []) (b := []) (c := []) (d := []) (rest := []) (by simp [Ows]) (by simp [Ows]) hk
    (by simp [Ows]) (by simp [Ows]) hv .nil
  simpa [blankNext] using this

theorem desc_token : Token s!!"desc" := Mime.token_of (by decide) (by decide)
theorem dur_token : Token s!!"dur" := Mime.token_of (by decide) (by decide)

theorem desc_text {n raw v : Str} (hn : Token n) (hv : ValueText raw v) :
    TimingText (n ++ s!!";desc=" ++ raw) ([⟨s!!"desc", v, raw, false⟩], ⟨n, none, some v⟩) :=
  ⟨';' :: (s!!"desc" ++ '=' :: raw), by simp, hn, one_arg desc_token hv, ⟨rfl, rfl⟩⟩

theorem dur_text {n raw v : Str} {a k : Nat} (hn : Token n) (hv : ValueText raw v) (hm : MillisText v a k) :
    TimingText (n ++ s!!";dur=" ++ raw) ([⟨s!!"dur", v, raw, false⟩], ⟨n, some (durationOf a k), none⟩) :=
  ⟨';' :: (s!!"dur" ++ '=' :: raw), by simp, hn, one_arg dur_token hv, ⟨⟨a, k, hm, rfl⟩, rfl⟩⟩

theorem token_split {n : Str} (hn : Token n) (r : Str) : split ';' (n ++ ';' :: r) = n :: split ';' r :=
  split_append_sep (fun hm => (tchar_not (hn.2 _ hm)).2.1 rfl) _

theorem token_trimEnd {n : Str} (hn : Token n) : trimEnd n = n :=
  trimEnd_of_last fun c hc => ((token_ends hn).2 c hc).1

theorem split_pre {c : Char} {p z y : Str} {tl : List Str} (hp : c ∉ p) (h : split c z = y :: tl) :
    split c (p ++ z) = (p ++ y) :: tl := by
  induction p with
  | nil => exact h
  | cons x p ih =>
    rw [List.mem_cons, not_or] at hp
    show split c (x :: (p ++ z)) = _
    unfold split
    rw [if_neg (Ne.symm hp.1), ih hp.2]
    rfl

theorem trimEnd_keep {a : Str} (q : Str) (h : ∃ c, a.getLast? = some c ∧ isWs c = false) : trimEnd (a ++ q) = a ++ trimEnd q := by
  obtain ⟨c, h1, h2⟩ := h
  have ha : a.reverse.dropWhile isWs = a.reverse := by
    rw [List.getLast?_eq_head?_reverse] at h1
    cases hr : a.reverse with
    | nil => rfl
    | cons y r =>
      rw [hr] at h1
      cases h1
      rw [List.dropWhile_cons_of_neg (by simp [h2])]
  unfold trimEnd
  rw [List.reverse_append, List.dropWhile_append, ha]
  split
  · rename_i he
    rw [List.isEmpty_iff.mp he]
    simp
  · simp

/-- An opened quote that is not closed before the next separator. -/
theorem bad_desc {n x rest : Str} (hn : Token n) (hx : ∀ c ∈ x, c ≠ ';' ∧ c ≠ '=' ∧ c ≠ '"')
    (hr : rest = [] ∨ ∃ c r, rest = c :: r ∧ (c = ';' ∨ c = '=')) :
    (∀ m, ¬ EntryText (n ++ s!!";desc=\"" ++ (x ++ rest)) m) ∧ ¬ EntryPanics (n ++ s!!";desc=\"" ++ (x ++ rest)) := by
  have hq : ∀ c ∈ s!!"desc=\"" ++ x, c ≠ ';' := by
    intro c hc
    rcases List.mem_append.mp hc with h | h
    · exact (by decide : ∀ c ∈ s!!"desc=\"", c ≠ ';') c h
    · exact (hx c h).1
  obtain ⟨r1, ps, h1, h2⟩ : ∃ r1 ps, split ';' (s!!"desc=\"" ++ x ++ rest) = (s!!"desc=\"" ++ x ++ r1) :: ps ∧
      (r1 = [] ∨ r1.head? = some '=') := by
    rcases hr with rfl | ⟨c, r, rfl, rfl | rfl⟩
    · exact ⟨[], [], by rw [split_of_not_mem (fun hm => hq _ (by simpa using hm) rfl), List.append_nil], .inl rfl⟩
    · exact ⟨[], _, by rw [split_append_sep (fun hm => hq _ hm rfl), List.append_nil], .inl rfl⟩
    · obtain ⟨y, ys, hy⟩ := split_head_exists ';' r
      refine ⟨'=' :: y, ys, ?_, .inr rfl⟩
      rw [show s!!"desc=\"" ++ x ++ '=' :: r = (s!!"desc=\"" ++ x ++ s!!"=") ++ r by simp, split_pre _ hy]
      · simp
      · simp only [List.mem_append, not_or]
        exact ⟨by simpa using fun hm => hq _ hm rfl, by decide⟩
  have hsp : split ';' (n ++ s!!";desc=\"" ++ (x ++ rest)) = n :: (s!!"desc=\"" ++ x ++ r1) :: ps := by
    rw [show n ++ s!!";desc=\"" ++ (x ++ rest) = n ++ ';' :: (s!!"desc=\"" ++ x ++ rest) by simp, token_split hn, h1]
  have hsh : Shape (s!!"desc=\"" ++ x ++ r1) s!!"desc" ('"' :: x) := by
    refine ⟨[], [], [], r1, by simp, by simp, by simp, by simp, by decide, ?_, h2, by decide, by decide, ?_⟩
    · simp only [List.mem_cons, not_or]
      exact ⟨by decide, fun hm => (hx _ hm).2.1 rfl⟩
    · intro c hc
      cases hc
      decide
  have hno : ∀ s, ¬ TimingParam (s!!"desc=\"" ++ x ++ r1) s := by
    rintro s ⟨k, v, hs, h⟩
    obtain ⟨rfl, rfl⟩ := Metric.shape_unique hsh hs
    rcases h with ⟨h, -⟩ | ⟨-, t, -, h | ⟨h', h, -⟩⟩ | ⟨-, h, -⟩
    · revert h; decide
    · have : x = t ++ s!!"\"" := by simpa using h
      exact (hx '"' (by rw [this]; simp)).2.2 rfl
    · rw [← h'] at h
      exact h rfl
    · exact h rfl
  constructor
  · rintro m ⟨n', ps', ss, h3, h4, -⟩
    rw [hsp] at h3
    cases h3
    cases h4 with
    | cons h5 _ => exact hno _ h5
  · rintro ⟨n', ps', p, qs, h3, h4, h5⟩
    rw [hsp] at h3
    cases ps' with
    | nil =>
      cases h3
      obtain ⟨v, y, hs, -⟩ := h5
      obtain ⟨h6, -⟩ := Metric.shape_unique hsh hs
      revert h6; decide
    | cons q ps' =>
      cases h3
      obtain ⟨s, hs⟩ := h4 _ List.mem_cons_self
      exact hno s hs


/-- The quoted value `"x c y"` of a description, `c` being the first comma, semicolon or equals sign, is legal but the
whole header is refused. -/
theorem C100_violated_separator {h : Headers} {n x y v : Str} {c : Char} (hn : Token n) (hc : c = ',' ∨ c = ';' ∨ c = '=')
    (hx : ∀ d ∈ x, d ≠ ',' ∧ d ≠ ';' ∧ d ≠ '=' ∧ d ≠ '"') (hv : ValueText ('"' :: ((x ++ c :: y) ++ ['"'])) v)
    (hg : h.get s!!"server-timing" = some [n ++ s!!";desc=" ++ '"' :: ((x ++ c :: y) ++ ['"'])]) :
    TimingText (n ++ s!!";desc=" ++ '"' :: ((x ++ c :: y) ++ ['"']))
      ([⟨s!!"desc", v, '"' :: ((x ++ c :: y) ++ ['"']), false⟩], ⟨n, none, some v⟩) ∧
    ServerTiming.fromHeaders h = .err 400 := by
  refine ⟨desc_text hn hv, ?_⟩
  have hx' : ∀ d ∈ x, d ≠ ';' ∧ d ≠ '=' ∧ d ≠ '"' := fun d hd => (hx d hd).2
  have hP : ',' ∉ n ++ s!!";desc=\"" ++ x := by
    simp only [List.mem_append, not_or]
    exact ⟨⟨(token_no_comma hn).1, by decide⟩, fun hm => (hx _ hm).1 rfl⟩
  have hstart : ∀ q, trimStart (n ++ s!!";desc=\"" ++ q) = n ++ s!!";desc=\"" ++ q := fun q => trimStart_of_head fun d hd => by
    rw [List.append_assoc, List.head?_append_of_ne_nil _ hn.1] at hd
    exact ((token_ends hn).1 d hd).1
  have hq : ∃ d, (n ++ s!!";desc=\"").getLast? = some d ∧ isWs d = false := by
    refine ⟨'"', ?_, by decide⟩
    rw [List.getLast?_append_of_ne_nil _ (by decide)]
    rfl
  by_cases hcc : c = ','
  · subst hcc
    obtain ⟨f1, f2⟩ := bad_desc (x := trimEnd x) (rest := []) hn (fun d hd => by
      obtain ⟨w, hw, -⟩ := trimEnd_prefix x
      exact hx' d (by rw [hw]; simp [hd])) (.inl rfl)
    rw [List.append_nil, ← trimEnd_keep _ hq] at f1 f2
    refine metric_fails (e := trim (n ++ s!!";desc=\"" ++ x)) (rest := (split ',' (y ++ ['"'])).map trim) hg ?_ ?_ ?_
    · show (split ',' _).map trim ++ [] = _
      rw [show n ++ s!!";desc=" ++ '"' :: ((x ++ ',' :: y) ++ ['"']) = (n ++ s!!";desc=\"" ++ x) ++ ',' :: (y ++ ['"']) by simp,
        split_append_sep hP]
      simp
    · unfold trim; rw [hstart]; exact f1
    · unfold trim; rw [hstart]; exact f2
  · have hc' : c = ';' ∨ c = '=' := by tauto
    have hws : isWs c = false := by rcases hc' with rfl | rfl <;> decide
    obtain ⟨z, zs, hz⟩ := split_head_exists ',' (y ++ ['"'])
    obtain ⟨f1, f2⟩ := bad_desc (x := x) (rest := c :: trimEnd z) hn hx' (.inr ⟨c, _, rfl, hc'⟩)
    have e : n ++ s!!";desc=\"" ++ (x ++ c :: trimEnd z) = trimEnd (n ++ s!!";desc=\"" ++ (x ++ c :: z)) := by
      rw [show n ++ s!!";desc=\"" ++ (x ++ c :: z) = (n ++ s!!";desc=\"" ++ (x ++ [c])) ++ z by simp, trimEnd_keep _ ⟨c, by
        rw [← List.append_assoc, List.getLast?_concat], hws⟩]
      simp
    rw [e] at f1 f2
    refine metric_fails (e := trim (n ++ s!!";desc=\"" ++ (x ++ c :: z))) (rest := zs.map trim) hg ?_ ?_ ?_
    · show (split ',' _).map trim ++ [] = _
      rw [show n ++ s!!";desc=" ++ '"' :: ((x ++ c :: y) ++ ['"']) = (n ++ s!!";desc=\"" ++ x ++ [c]) ++ (y ++ ['"']) by simp,
        split_pre _ hz]
      · simp
      · rw [List.mem_append, not_or]
        exact ⟨hP, by simpa using fun e => hcc e.symm⟩
    · unfold trim; rw [hstart]; exact f1
    · unfold trim; rw [hstart]; exact f2

example : ValueText ('"' :: ((s!!"a" ++ ',' :: s!!" b") ++ ['"'])) s!!"a, b" :=
  .inr ⟨_, rfl, escaped_self (by decide) (by decide), by unfold QuotedChar; decide⟩

theorem shape_plain {k v : Str} (hk : Token k) (hv : '=' ∉ v) (hw : ∀ c, v.head? = some c → isWs c = false) :
    Shape (k ++ '=' :: v) k v :=
  ⟨[], [], [], [], by simp, by simp, by simp, by simp, fun hm => (tchar_not (hk.2 _ hm)).2.2.2 rfl, hv, .inl rfl,
    fun c hc => ((token_ends hk).1 c hc).1, fun c hc => ((token_ends hk).2 c hc).1, hw⟩

theorem whole_trimmed {n k v : Str} (hn : Token n) (hv : v ≠ []) (hw : ∀ c, v.getLast? = some c → isWs c = false) :
    Trimmed (n ++ ';' :: (k ++ '=' :: v)) := by
  refine ⟨fun c hc => ?_, fun c hc => ?_⟩
  · rw [List.head?_append_of_ne_nil _ hn.1] at hc
    exact ((token_ends hn).1 c hc).1
  · rw [show n ++ ';' :: (k ++ '=' :: v) = (n ++ ';' :: (k ++ s!!"=")) ++ v by simp, List.getLast?_append_of_ne_nil _ hv] at hc
    exact hw c hc

theorem whole_no_comma {n k v : Str} (hn : Token n) (hk : Token k) (hv : ',' ∉ v) : ',' ∉ n ++ ';' :: (k ++ '=' :: v) := by
  simp only [List.mem_append, List.mem_cons, not_or]
  exact ⟨(token_no_comma hn).1, by decide, (token_no_comma hk).1, by decide, hv⟩

theorem entry_one {n k v : Str} {s : Said} (hn : Token n) (hk : Token k) (hs : ';' ∉ v) (hp : TimingParam (k ++ '=' :: v) s) :
    EntryText (n ++ ';' :: (k ++ '=' :: v)) ⟨n, lastDur [s], lastDesc [s]⟩ := by
  refine ⟨n, [k ++ '=' :: v], [s], ?_, .cons hp .nil, (token_trimEnd hn).symm, rfl, rfl⟩
  rw [token_split hn, split_of_not_mem]
  simp only [List.mem_append, List.mem_cons, not_or]
  exact ⟨fun hm => (tchar_not (hk.2 _ hm)).2.1 rfl, by decide, hs⟩

/-- Escapes in a quoted description are kept as they are. -/
theorem C100_violated_escape {h : Headers} {n e v : Str} (hn : Token n) (hv : Escaped e v) (hq : ∀ c ∈ v, QuotedChar c)
    (he : ∀ c ∈ e, c ≠ ',' ∧ c ≠ ';' ∧ c ≠ '=') (hb : '\\' ∈ e)
    (hg : h.get s!!"server-timing" = some [n ++ s!!";desc=" ++ '"' :: (e ++ ['"'])]) :
    TimingText (n ++ s!!";desc=" ++ '"' :: (e ++ ['"']))
      ([⟨s!!"desc", v, '"' :: (e ++ ['"']), false⟩], ⟨n, none, some v⟩) ∧
    ServerTiming.fromHeaders h = .ok (some [⟨n, none, some e⟩]) ∧ e ≠ v := by
  refine ⟨desc_text hn (.inr ⟨e, rfl, hv, hq⟩), ?_, fun hev => ((escaped_length hv).2 (by rw [hev])).1 hb⟩
  have hno : ∀ d : Char, (d = ',' ∨ d = ';' ∨ d = '=') → d ∉ '"' :: (e ++ ['"']) := by
    intro d hd hm
    rcases List.mem_cons.mp hm with rfl | hm
    · revert hd; decide
    · rcases List.mem_append.mp hm with hm | hm
      · rcases hd with rfl | rfl | rfl
        · exact (he _ hm).1 rfl
        · exact (he _ hm).2.1 rfl
        · exact (he _ hm).2.2 rfl
      · rcases hd with rfl | rfl | rfl <;> revert hm <;> decide
  have e0 : n ++ s!!";desc=" ++ '"' :: (e ++ ['"']) = n ++ ';' :: (s!!"desc" ++ '=' :: ('"' :: (e ++ ['"']))) := by simp
  rw [e0] at hg
  rw [(metric_one hg (whole_no_comma hn desc_token (hno _ (.inl rfl))) (whole_trimmed hn (by simp) fun c hc => by
    rw [show '"' :: (e ++ ['"']) = ('"' :: e) ++ ['"'] from rfl, List.getLast?_concat] at hc
    cases hc; decide)).1]
  refine entry_one (s := .desc e) hn desc_token (hno _ (.inr (.inl rfl))) ⟨_, _, shape_plain desc_token (hno _ (.inr (.inr rfl))) fun c hc => ?_,
    .inr (.inl ⟨rfl, e, rfl, .inl rfl⟩)⟩
  cases hc; decide

example : Escaped s!!"a\\\"b" s!!"a\"b" ∧ '\\' ∈ s!!"a\\\"b" := by
  refine ⟨.plain (by decide) (by decide) (.pair (.plain (by decide) (by decide) .nil)), by decide⟩

theorem sameName_chars {s t : Str} (h : sameName s t = true) : ∀ d ∈ s, ∃ c ∈ t, sameChar d c = true := by
  induction s generalizing t with
  | nil => simp
  | cons a s ih =>
    cases t with
    | nil => simp [sameName] at h
    | cons b t =>
      simp only [sameName, Bool.and_eq_true] at h
      intro d hd
      rcases List.mem_cons.mp hd with rfl | hd
      · exact ⟨b, List.mem_cons_self, h.1⟩
      · obtain ⟨c, h1, h2⟩ := ih h.2 d hd
        exact ⟨c, List.mem_cons_of_mem _ h1, h2⟩

theorem number_chars {F : FlFormat} {s : Str} {x : Fl} (h : NumberText F s x) {d : Char} (hd : d = '"' ∨ d = ' ' ∨ d = '\t') : d ∉ s := by
  have hdig : ∀ i : Str, Digits i → d ∉ i := fun i hi hm => by
    have := hi d hm
    rcases hd with rfl | rfl | rfl <;> revert this <;> decide
  have hne : d ≠ '-' ∧ d ≠ '+' ∧ d ≠ '.' ∧ d ≠ 'e' ∧ d ≠ 'E' := by rcases hd with rfl | rfl | rfl <;> decide
  obtain ⟨neg, t, h1, h2⟩ := h
  have ht : d ∉ t := by
    rcases h2 with ⟨a, b, ⟨int, point, frac, ex, up, down, rfl, h3, h4, -, h5, h6, -, -⟩, -⟩ | ⟨h3, -⟩ | ⟨h3, -⟩
    · simp only [List.mem_append, not_or]
      refine ⟨⟨⟨hdig _ h3, ?_⟩, hdig _ h4⟩, ?_⟩
      · rcases h5 with rfl | ⟨rfl, -⟩
        · simpa using hne.2.2.1
        · simp
      · cases h6 with
        | none => simp
        | plain c ds hc _ hds =>
          simp only [List.mem_cons, not_or]
          exact ⟨by rcases hc with rfl | rfl; exacts [hne.2.2.2.1, hne.2.2.2.2], hdig _ hds⟩
        | plus c ds hc _ hds =>
          simp only [List.mem_cons, not_or]
          exact ⟨by rcases hc with rfl | rfl; exacts [hne.2.2.2.1, hne.2.2.2.2], hne.2.1, hdig _ hds⟩
        | minus c ds hc _ hds =>
          simp only [List.mem_cons, not_or]
          exact ⟨by rcases hc with rfl | rfl; exacts [hne.2.2.2.1, hne.2.2.2.2], hne.1, hdig _ hds⟩
    · intro hm
      rcases h3 with h3 | h3 <;> obtain ⟨c, h4, h5⟩ := sameName_chars h3 d hm
      · exact absurd h5 ((by decide : ∀ d ∈ s!!"\" \t", ∀ c ∈ s!!"inf", ¬ sameChar d c = true) d (by rcases hd with rfl | rfl | rfl <;> decide) c h4)
      · exact absurd h5 ((by decide : ∀ d ∈ s!!"\" \t", ∀ c ∈ s!!"infinity", ¬ sameChar d c = true) d (by rcases hd with rfl | rfl | rfl <;> decide) c h4)
    · intro hm
      obtain ⟨c, h4, h5⟩ := sameName_chars h3 d hm
      exact absurd h5 ((by decide : ∀ d ∈ s!!"\" \t", ∀ c ∈ s!!"nan", ¬ sameChar d c = true) d (by rcases hd with rfl | rfl | rfl <;> decide) c h4)
  rcases h1 with ⟨-, rfl⟩ | ⟨-, rfl | rfl⟩
  · simp only [List.mem_cons, not_or]; exact ⟨hne.1, ht⟩
  · simp only [List.mem_cons, not_or]; exact ⟨hne.2.1, ht⟩
  · exact ht

/-- A duration value that is no number, first in the entry. -/
theorem bad_dur {n v e : Str} {ps : List Str} (he : split ';' e = n :: (s!!"dur" ++ '=' :: v) :: ps)
    (hv : '=' ∉ v) (hw : ∀ c, v.head? = some c → isWs c = false) (hx : ∀ x, ¬ NumberText f64Format v x) :
    (∀ m, ¬ EntryText e m) ∧ ¬ EntryPanics e := by
  have hsh := shape_plain dur_token hv hw
  have hno : ∀ s, ¬ TimingParam (s!!"dur" ++ '=' :: v) s := by
    rintro s ⟨k, v', hs, h⟩
    obtain ⟨rfl, rfl⟩ := Metric.shape_unique hsh hs
    rcases h with ⟨-, x, _, h, -⟩ | ⟨h, -⟩ | ⟨h, -⟩
    · exact hx x h
    · revert h; decide
    · exact h rfl
  constructor
  · rintro m ⟨n', ps', ss, h3, h4, -⟩
    rw [he] at h3
    cases h3
    cases h4 with
    | cons h5 _ => exact hno _ h5
  · rintro ⟨n', ps', p, qs, h3, h4, h5⟩
    rw [he] at h3
    cases ps' with
    | nil =>
      cases h3
      obtain ⟨v', y, hs, h6, -⟩ := h5
      obtain ⟨-, rfl⟩ := Metric.shape_unique hsh hs
      exact hx _ h6
    | cons q ps' =>
      cases h3
      obtain ⟨s, hs⟩ := h4 _ List.mem_cons_self
      exact hno s hs

theorem millis_no {v : Str} {a k : Nat} (h : MillisText v a k) {d : Char} (hd : ¬ ('0' ≤ d ∧ d ≤ '9')) (hp : d ≠ '.') : d ∉ v := by
  cases h with
  | whole _ h => exact fun hm => hd (h _ hm)
  | point _ _ h h' =>
    simp only [List.mem_append, List.mem_cons, not_or]
    exact ⟨fun hm => hd (h _ hm), hp, fun hm => hd (h' _ hm)⟩

theorem digit_tchar {c : Char} (h : '0' ≤ c ∧ c ≤ '9') : TChar c := by
  left
  have h1 : 48 ≤ c.val := h.1
  have h2 : c.val ≤ 57 := h.2
  simp [Char.isAlphanum, Char.isDigit, h1, h2]

theorem millis_token {v : Str} {a k : Nat} (h : MillisText v a k) : Token v := by
  cases h with
  | whole h1 h => exact ⟨h1, fun c hc => digit_tchar (h c hc)⟩
  | point h1 _ h h' =>
    refine ⟨by simp, fun c hc => ?_⟩
    rcases List.mem_append.mp hc with hc | hc
    · exact digit_tchar (h c hc)
    · rcases List.mem_cons.mp hc with rfl | hc
      · exact .inr (by decide)
      · exact digit_tchar (h' c hc)

theorem escaped_mem {e v : Str} (h : Escaped e v) : ∀ c ∈ e, c = '\\' ∨ c ∈ v := by
  induction h with
  | nil => simp
  | plain _ _ _ ih =>
    intro c hc
    rcases List.mem_cons.mp hc with rfl | hc
    · exact .inr List.mem_cons_self
    · exact (ih c hc).imp_right (List.mem_cons_of_mem _)
  | pair _ ih =>
    intro c hc
    rcases List.mem_cons.mp hc with rfl | hc
    · exact .inl rfl
    · rcases List.mem_cons.mp hc with rfl | hc
      · exact .inr List.mem_cons_self
      · exact (ih c hc).imp_right (List.mem_cons_of_mem _)

/-- A quoted duration is legal but the whole header is refused. -/
theorem C100_violated_quoted_dur {h : Headers} {n e v : Str} {a k : Nat} (hn : Token n) (hv : Escaped e v) (hm : MillisText v a k)
    (hg : h.get s!!"server-timing" = some [n ++ s!!";dur=" ++ '"' :: (e ++ ['"'])]) :
    TimingText (n ++ s!!";dur=" ++ '"' :: (e ++ ['"']))
      ([⟨s!!"dur", v, '"' :: (e ++ ['"']), false⟩], ⟨n, some (durationOf a k), none⟩) ∧
    ServerTiming.fromHeaders h = .err 400 := by
  have hq : ∀ c ∈ v, QuotedChar c := fun c hc => by
    by_cases hp : c = '.'
    · subst hp; exact .inr (by decide)
    · by_cases hd : '0' ≤ c ∧ c ≤ '9'
      · have h1 : 48 ≤ c.toNat := hd.1
        have h2 : c.toNat ≤ 57 := hd.2
        exact .inr ⟨by omega, by omega, by omega⟩
      · exact absurd hc (millis_no hm hd hp)
  refine ⟨dur_text hn (.inr ⟨e, rfl, hv, hq⟩) hm, ?_⟩
  have hno : ∀ d : Char, (d = ',' ∨ d = ';' ∨ d = '=') → d ∉ '"' :: (e ++ ['"']) := by
    intro d hd hmm
    have he : d ∉ e := fun h' => by
      rcases escaped_mem hv d h' with rfl | h'
      · revert hd; decide
      · refine millis_no hm ?_ ?_ h' <;> rcases hd with rfl | rfl | rfl <;> decide
    rcases List.mem_cons.mp hmm with rfl | hmm
    · revert hd; decide
    · rcases List.mem_append.mp hmm with hmm | hmm
      · exact he hmm
      · rcases hd with rfl | rfl | rfl <;> revert hmm <;> decide
  have e0 : n ++ s!!";dur=" ++ '"' :: (e ++ ['"']) = n ++ ';' :: (s!!"dur" ++ '=' :: ('"' :: (e ++ ['"']))) := by simp
  rw [e0] at hg
  have ht : Trimmed (n ++ ';' :: (s!!"dur" ++ '=' :: ('"' :: (e ++ ['"'])))) := whole_trimmed hn (by simp) fun c hc => by
    rw [show '"' :: (e ++ ['"']) = ('"' :: e) ++ ['"'] from rfl, List.getLast?_concat] at hc
    cases hc; decide
  have hs : split ';' (n ++ ';' :: (s!!"dur" ++ '=' :: ('"' :: (e ++ ['"'])))) = n :: [s!!"dur" ++ '=' :: ('"' :: (e ++ ['"']))] := by
    rw [token_split hn, split_of_not_mem]
    simp only [List.mem_append (s := s!!"dur"), List.mem_cons (a := ';') (b := '='), not_or]
    exact ⟨by decide, by decide, hno _ (.inr (.inl rfl))⟩
  obtain ⟨f1, f2⟩ := bad_dur hs (hno _ (.inr (.inr rfl))) (fun c hc => by cases hc; decide)
    fun x hx => number_chars hx (.inl rfl) List.mem_cons_self
  refine metric_fails (rest := []) hg ?_ f1 f2
  show (split ',' _).map trim ++ [] = _
  rw [split_of_not_mem (whole_no_comma hn dur_token (hno _ (.inl rfl)))]
  simp only [List.map_cons, List.map_nil, List.append_nil, trim_of_trimmed ht]

example : Escaped s!!"12.5" s!!"12.5" ∧ MillisText s!!"12.5" 125 1 :=
  ⟨escaped_self (by decide) (by decide), .point (i := s!!"12") (f := s!!"5") (by decide) (by decide) (by unfold Digits; decide) (by unfold Digits; decide)⟩

/-- Of two descriptions the second one is taken, though the first one counts. -/
theorem C100_violated_twice {h : Headers} {n a b : Str} (hn : Token n) (ha : Token a) (hb : Token b)
    (hg : h.get s!!"server-timing" = some [n ++ s!!";desc=" ++ a ++ s!!";desc=" ++ b]) :
    (∃ ps, TimingText (n ++ s!!";desc=" ++ a ++ s!!";desc=" ++ b) (ps, ⟨n, none, some a⟩)) ∧
    ServerTiming.fromHeaders h = .ok (some [⟨n, none, some b⟩]) := by
  have tok : ∀ {t : Str}, Token t → ',' ∉ t ∧ ';' ∉ t ∧ '=' ∉ t := fun ht =>
    ⟨(token_no_comma ht).1, fun hm => (tchar_not (ht.2 _ hm)).2.1 rfl, fun hm => (tchar_not (ht.2 _ hm)).2.2.2 rfl⟩
  refine ⟨⟨[⟨s!!"desc", a, a, false⟩, ⟨s!!"desc", b, b, false⟩], ';' :: (s!!"desc" ++ '=' :: (a ++ ';' :: (s!!"desc" ++ '=' :: b))),
    by simp, hn, ?_, ⟨rfl, rfl⟩⟩, ?_⟩
  · have := TimingArgs.cons (a := []) (b := []) (c := []) (d := []) (by simp [Ows]) (by simp [Ows]) desc_token
      (by simp [Ows]) (by simp [Ows]) (.inl ⟨rfl, ha⟩) (one_arg desc_token (.inl ⟨rfl, hb⟩))
    simpa [blankNext] using this
  · have e0 : n ++ s!!";desc=" ++ a ++ s!!";desc=" ++ b = n ++ ';' :: (s!!"desc" ++ '=' :: (a ++ ';' :: (s!!"desc" ++ '=' :: b))) := by simp
    rw [e0] at hg
    have hc : ',' ∉ a ++ ';' :: (s!!"desc" ++ '=' :: b) := by
      simp only [List.mem_append (s := a), List.mem_append (s := s!!"desc"), List.mem_cons (b := ';'), List.mem_cons (b := '='), not_or]
      exact ⟨(tok ha).1, by decide, by decide, by decide, (tok hb).1⟩
    rw [(metric_one hg (whole_no_comma hn desc_token hc) (whole_trimmed hn (by simp) fun c hc => by
      rw [show a ++ ';' :: (s!!"desc" ++ '=' :: b) = (a ++ s!!";desc=") ++ b by simp, List.getLast?_append_of_ne_nil _ hb.1] at hc
      exact ((token_ends hb).2 c hc).1)).1]
    refine ⟨n, [s!!"desc" ++ '=' :: a, s!!"desc" ++ '=' :: b], [.desc a, .desc b], ?_, ?_, (token_trimEnd hn).symm, rfl, rfl⟩
    · rw [token_split hn, show s!!"desc" ++ '=' :: (a ++ ';' :: (s!!"desc" ++ '=' :: b)) = (s!!"desc=" ++ a) ++ ';' :: (s!!"desc=" ++ b) by simp,
        split_append_sep, split_of_not_mem]
      · rfl
      · rw [List.mem_append, not_or]; exact ⟨by decide, (tok hb).2.1⟩
      · rw [List.mem_append, not_or]; exact ⟨by decide, (tok ha).2.1⟩
    · have one : ∀ t, Token t → TimingParam (s!!"desc" ++ '=' :: t) (.desc t) := fun t ht =>
        ⟨_, _, shape_plain desc_token (tok ht).2.2 (fun c hc => ((token_ends ht).1 c hc).1), .inr (.inl ⟨rfl, t, rfl, .inr
          ⟨rfl, fun hh => ((token_ends ht).1 _ hh).2 rfl, fun hh => ((token_ends ht).2 _ hh).2 rfl⟩⟩)⟩
      exact .cons (one a ha) (.cons (one b hb) .nil)

example : Token s!!"a" ∧ Token s!!"b" ∧ s!!"a" ≠ s!!"b" :=
  ⟨Mime.token_of (by decide) (by decide), Mime.token_of (by decide) (by decide), by decide⟩

/-- A blank before the next semicolon becomes part of the description, and makes a duration unreadable. -/
theorem C100_violated_blank {h : Headers} {n b w k : Str} (hn : Token n) (hb : Token b) (hw : Ows w) (hw' : w ≠ [])
    (hk : Token k) (hk1 : k ≠ s!!"dur") (hk2 : k ≠ s!!"desc") :
    (∀ a, Token a → h.get s!!"server-timing" = some [n ++ s!!";desc=" ++ a ++ w ++ s!!";" ++ k ++ s!!"=" ++ b] →
      (∃ ps, TimingText (n ++ s!!";desc=" ++ a ++ w ++ s!!";" ++ k ++ s!!"=" ++ b) (ps, ⟨n, none, some a⟩)) ∧
      ServerTiming.fromHeaders h = .ok (some [⟨n, none, some (a ++ w)⟩])) ∧
    (∀ v a j, MillisText v a j → h.get s!!"server-timing" = some [n ++ s!!";dur=" ++ v ++ w ++ s!!";" ++ k ++ s!!"=" ++ b] →
      (∃ ps, TimingText (n ++ s!!";dur=" ++ v ++ w ++ s!!";" ++ k ++ s!!"=" ++ b) (ps, ⟨n, some (durationOf a j), none⟩)) ∧
      ServerTiming.fromHeaders h = .err 400) := by
  have tok : ∀ {t : Str}, Token t → ',' ∉ t ∧ ';' ∉ t ∧ '=' ∉ t := fun ht =>
    ⟨(token_no_comma ht).1, fun hm => (tchar_not (ht.2 _ hm)).2.1 rfl, fun hm => (tchar_not (ht.2 _ hm)).2.2.2 rfl⟩
  have ow : ∀ d, d ≠ ' ' → d ≠ '\t' → d ∉ w := fun d h1 h2 => ows_not_mem hw h1 h2
  have args : ∀ {q v : Str}, Token q → Token v →
      TimingArgs (';' :: (q ++ '=' :: (v ++ (w ++ ';' :: (k ++ '=' :: b))))) [⟨q, v, v, true⟩, ⟨k, b, b, false⟩] := by
    intro q v hq hv
    have h2 : TimingArgs (w ++ ';' :: (k ++ '=' :: b)) [⟨k, b, b, false⟩] := by
      have := TimingArgs.cons (a := w) (b := []) (c := []) (d := []) (rest := []) hw (by simp [Ows]) hk
        (by simp [Ows]) (by simp [Ows]) (.inl ⟨rfl, hb⟩) .nil
      simpa [blankNext] using this
    have h1 := TimingArgs.cons (a := []) (b := []) (c := []) (d := []) (by simp [Ows]) (by simp [Ows]) hq
      (by simp [Ows]) (by simp [Ows]) (.inl ⟨rfl, hv⟩) h2
    have hbl : blankNext (w ++ ';' :: (k ++ '=' :: b)) = true := by
      cases w with
      | nil => exact absurd rfl hw'
      | cons y w =>
        rcases (hw y List.mem_cons_self : y = ' ' ∨ y = '\t') with rfl | rfl <;> rfl
    rw [hbl] at h1
    simpa using h1
  have comma : ∀ {q v : Str}, Token q → Token v → ',' ∉ n ++ ';' :: (q ++ '=' :: (v ++ w ++ ';' :: (k ++ '=' :: b))) := by
    intro q v hq hv
    simp only [List.mem_append, List.mem_cons, not_or]
    exact ⟨(tok hn).1, by decide, (tok hq).1, by decide, ⟨(tok hv).1, ow _ (by decide) (by decide)⟩, by decide, (tok hk).1, by decide, (tok hb).1⟩
  have trm : ∀ {q v : Str}, Token v → Trimmed (n ++ ';' :: (q ++ '=' :: (v ++ w ++ ';' :: (k ++ '=' :: b)))) := by
    intro q v hv
    refine whole_trimmed hn (by simp) fun c hc => ?_
    rw [show v ++ w ++ ';' :: (k ++ '=' :: b) = (v ++ w ++ ';' :: (k ++ s!!"=")) ++ b by simp, List.getLast?_append_of_ne_nil _ hb.1] at hc
    exact ((token_ends hb).2 c hc).1
  have spl : ∀ {q v : Str}, Token q → Token v → split ';' (n ++ ';' :: (q ++ '=' :: (v ++ w ++ ';' :: (k ++ '=' :: b)))) =
      [n, q ++ '=' :: (v ++ w), k ++ '=' :: b] := by
    intro q v hq hv
    rw [token_split hn, show q ++ '=' :: (v ++ w ++ ';' :: (k ++ '=' :: b)) = (q ++ '=' :: (v ++ w)) ++ ';' :: (k ++ '=' :: b) by simp,
      split_append_sep, split_of_not_mem]
    · simp only [List.mem_append, List.mem_cons, not_or]
      exact ⟨(tok hk).2.1, by decide, (tok hb).2.1⟩
    · simp only [List.mem_append, List.mem_cons, not_or]
      exact ⟨(tok hq).2.1, by decide, (tok hv).2.1, ow _ (by decide) (by decide)⟩
  have val : ∀ {v : Str}, Token v → '=' ∉ v ++ w ∧ ∀ c, (v ++ w).head? = some c → isWs c = false := by
    intro v hv
    refine ⟨?_, fun c hc => ?_⟩
    · rw [List.mem_append, not_or]; exact ⟨(tok hv).2.2, ow _ (by decide) (by decide)⟩
    · rw [List.head?_append_of_ne_nil _ hv.1] at hc
      exact ((token_ends hv).1 c hc).1
  constructor
  · intro a ha hg
    have e0 : n ++ s!!";desc=" ++ a ++ w ++ s!!";" ++ k ++ s!!"=" ++ b =
        n ++ ';' :: (s!!"desc" ++ '=' :: (a ++ w ++ ';' :: (k ++ '=' :: b))) := by simp
    rw [e0] at hg ⊢
    refine ⟨⟨_, _, rfl, hn, by simpa using args desc_token ha, ?_⟩, ?_⟩
    · exact ⟨by simp [hk1], by simp⟩
    · rw [(metric_one hg (comma desc_token ha) (trm ha)).1]
      refine ⟨n, _, [.desc (a ++ w), .other], spl desc_token ha, .cons ?_ (.cons ?_ .nil), (token_trimEnd hn).symm, rfl, rfl⟩
      · refine ⟨_, _, shape_plain desc_token (val ha).1 (val ha).2, .inr (.inl ⟨rfl, _, rfl, .inr ⟨rfl, ?_, ?_⟩⟩)⟩
        · rw [List.head?_append_of_ne_nil _ ha.1]
          exact fun hh => ((token_ends ha).1 _ hh).2 rfl
        · rw [List.getLast?_append_of_ne_nil _ hw']
          intro hh
          exact ow '"' (by decide) (by decide) (List.mem_of_mem_getLast? (by simp [hh]))
      · exact ⟨_, _, shape_plain hk (tok hb).2.2 (fun c hc => ((token_ends hb).1 c hc).1), .inr (.inr ⟨hk1, hk2, rfl⟩)⟩
  · intro v a j hv hg
    have ht := millis_token hv
    have e0 : n ++ s!!";dur=" ++ v ++ w ++ s!!";" ++ k ++ s!!"=" ++ b =
        n ++ ';' :: (s!!"dur" ++ '=' :: (v ++ w ++ ';' :: (k ++ '=' :: b))) := by simp
    rw [e0] at hg ⊢
    refine ⟨⟨_, _, rfl, hn, by simpa using args dur_token ht, ?_⟩, ?_⟩
    · exact ⟨⟨a, j, hv, rfl⟩, by simp [hk2]⟩
    · obtain ⟨f1, f2⟩ := bad_dur (spl dur_token ht) (val ht).1 (val ht).2 fun x hx => by
        cases w with
        | nil => exact hw' rfl
        | cons y w =>
          have : y = ' ' ∨ y = '\t' := hw y List.mem_cons_self
          exact number_chars hx (.inr this) (by simp)
      refine metric_fails (rest := []) hg ?_ f1 f2
      show (split ',' _).map trim ++ [] = _
      rw [split_of_not_mem (comma dur_token ht)]
      simp only [List.map_cons, List.map_nil, List.append_nil, trim_of_trimmed (trm ht)]

example : Ows s!!" " ∧ s!!" " ≠ [] ∧ Token s!!"x" ∧ s!!"x" ≠ s!!"dur" ∧ s!!"x" ≠ s!!"desc" :=
  ⟨by simp [Ows], by decide, Mime.token_of (by decide) (by decide), by decide, by decide⟩

/-- A duration of 2^64 milliseconds or more is legal but makes reading panic. -/
theorem C100_violated_large {h : Headers} {n v : Str} {a k : Nat} (hn : Token n) (hm : MillisText v a k) (hl : 2 ^ 64 * 10 ^ k ≤ a)
    (hg : h.get s!!"server-timing" = some [n ++ s!!";dur=" ++ v]) :
    TimingText (n ++ s!!";dur=" ++ v) ([⟨s!!"dur", v, v, false⟩], ⟨n, some (durationOf a k), none⟩) ∧
    ServerTiming.fromHeaders h = .panic := by
  have ht := millis_token hm
  refine ⟨dur_text hn (.inl ⟨rfl, ht⟩) hm, ?_⟩
  have tok : ∀ {t : Str}, Token t → ',' ∉ t ∧ ';' ∉ t ∧ '=' ∉ t := fun ht =>
    ⟨(token_no_comma ht).1, fun hm => (tchar_not (ht.2 _ hm)).2.1 rfl, fun hm => (tchar_not (ht.2 _ hm)).2.2.2 rfl⟩
  have e0 : n ++ s!!";dur=" ++ v = n ++ ';' :: (s!!"dur" ++ '=' :: v) := by simp
  rw [e0] at hg
  rw [(metric_one hg (whole_no_comma hn dur_token (tok ht).1) (whole_trimmed hn ht.1 fun c hc => ((token_ends ht).2 c hc).1)).2]
  refine ⟨n, [], s!!"dur" ++ '=' :: v, [], ?_, by simp, ?_⟩
  · rw [token_split hn, split_of_not_mem]
    · rfl
    · simp only [List.mem_append, List.mem_cons, not_or]
      exact ⟨by decide, by decide, (tok ht).2.1⟩
  · have hb : 0 < 10 ^ k := Nat.pow_pos (by omega)
    have hle : 2 ^ 1138 ≤ roundTo 53 (a * 2 ^ 1074) (10 ^ k) := by
      refine le_roundTo (by omega) hb (representable_pow 53 (by omega) 1138) ?_
      rw [show (1138 : Nat) = 64 + 1074 from rfl, Nat.pow_add, ← Nat.mul_assoc]
      refine Nat.mul_le_mul_right _ ?_
      rw [Nat.mul_comm]; exact hl
    have hsh := shape_plain dur_token (tok ht).2.2 fun c hc => ((token_ends ht).1 c hc).1
    have hnear : NearestUnits f64Format.prec (a * 2 ^ f64Format.unit) (10 ^ k) (roundTo 53 (a * 2 ^ 1074) (10 ^ k)) :=
      (nearestUnits_iff (by decide) hb).mpr rfl
    rcases Nat.lt_or_ge (roundTo 53 (a * 2 ^ 1074) (10 ^ k)) f64Format.limit with hlt | hge
    · refine ⟨v, .fin false _, hsh, ⟨false, v, .inr ⟨rfl, .inr rfl⟩, .inl ⟨a, _, millisText_decimal hm, _, hnear, .inl ⟨hlt, rfl⟩⟩⟩, .inr ?_⟩
      rw [← Nat.pow_add]
      exact hle
    · exact ⟨v, .inf false, hsh, ⟨false, v, .inr ⟨rfl, .inr rfl⟩, .inl ⟨a, _, millisText_decimal hm, _, hnear, .inr ⟨hge, rfl⟩⟩⟩, trivial⟩

example : ∃ a k, MillisText s!!"18446744073709551616" a k ∧ 2 ^ 64 * 10 ^ k ≤ a :=
  ⟨_, _, .whole (by decide) (by unfold Digits; decide), by decide⟩

/-- An empty element, which is no metric, is read as a metric with an empty name. -/
theorem C100_violated_empty {h : Headers} {t : Str} {x : List TimingArg × Metric} (ht : TimingText t x) (hp : PlainArgs x.1)
    (hg : h.get s!!"server-timing" = some [t ++ s!!","]) :
    Listed TimingText [t ++ s!!","] [some x, none] ∧
    ServerTiming.fromHeaders h = .ok (some [x.2, ⟨[], none, none⟩]) := by
  have hl : Listed TimingText [t ++ s!!","] [some x, none] := listed_trailing ht
  refine ⟨hl, ?_⟩
  have := (C100_metrics_partial h _ _ hg hl (by
    intro y hy
    simp only [List.mem_cons, Option.some.injEq, reduceCtorEq, List.not_mem_nil, or_false] at hy
    exact hy ▸ hp)).1
  simpa using this

end HT
