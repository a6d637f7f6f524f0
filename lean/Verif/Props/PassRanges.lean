import Verif.Props.PassOn
import Verif.Props.WrittenTimings
import Verif.Props.Negotiate

/-! C114: passing on media ranges and metrics. -/

namespace HT
open Spec

/-! ### media ranges -/

/-- The parameters that are written: names in lower case, each once, with the charset in front. -/
def writtenParams (ps : List (Str × Str)) : List (Str × Str) :=
  (if hasUtf8 ps then [(s!!"charset", s!!"utf-8")] else []) ++
    firstOf ((ps.map fun e => (lower e.1, e.2)).filter fun e => e ≠ (s!!"charset", s!!"utf-8"))

theorem writtenParams_ascii {ps : List (Str × Str)} (hl : ∀ e ∈ ps, Token e.1) : ∀ e ∈ writtenParams ps, isAscii e.1 = true ∧ lower e.1 = e.1 := by
  intro e he
  unfold writtenParams at he
  rcases List.mem_append.mp he with he | he
  · split at he
    · rw [List.mem_singleton.mp he]; decide
    · cases he
  · obtain ⟨a, v⟩ := e
    have := List.mem_of_find?_eq_some (mem_firstOf.mp he)
    obtain ⟨e', he', heq⟩ := List.mem_map.mp (List.mem_filter.mp this).1
    cases heq
    have := Mime.token_ascii (hl e' he')
    exact ⟨by rw [isAscii_lower]; exact this, lower_lower _⟩

/-- Looking up a parameter among them. -/
theorem written_lookup {ps : List (Str × Str)} (hl : ∀ e ∈ ps, Token e.1) (n : Str) :
    firstValue (writtenParams ps) n =
      if sameName n s!!"charset" = true ∧ hasUtf8 ps = true then some s!!"utf-8" else firstValue ps n := by
  have hw := writtenParams_ascii hl
  by_cases hasc : isAscii n = true
  · have hcs : sameName n s!!"charset" = true ↔ lower n = s!!"charset" := sameName_low hasc (by decide)
    have e1 : firstValue (writtenParams ps) n = ((writtenParams ps).find? fun e => e.1 == lower n).map (·.2) := by
      unfold firstValue
      congr 1
      refine find?_congr_mem fun e he => ?_
      rw [Bool.eq_iff_iff, sameName_iff, (hw e he).2]
      simp [(hw e he).1, hasc]
    rw [e1]
    unfold writtenParams
    by_cases hc : lower n = s!!"charset" ∧ hasUtf8 ps = true
    · rw [if_pos hc.2, if_pos ⟨hcs.mpr hc.1, hc.2⟩, hc.1]
      rfl
    · have hn : ¬ (sameName n s!!"charset" = true ∧ hasUtf8 ps = true) := fun h => hc ⟨hcs.mp h.1, h.2⟩
      have e2 : ((if hasUtf8 ps = true then [(s!!"charset", s!!"utf-8")] else []) ++
          firstOf ((ps.map fun e => (lower e.1, e.2)).filter fun e => e ≠ (s!!"charset", s!!"utf-8"))).find?
            (fun e => e.1 == lower n) =
          (firstOf ((ps.map fun e => (lower e.1, e.2)).filter fun e => e ≠ (s!!"charset", s!!"utf-8"))).find?
            (fun e => e.1 == lower n) := by
        split
        · rename_i hu
          rw [List.singleton_append, List.find?_cons]
          have : (s!!"charset" == lower n) = false := by
            rw [beq_eq_false_iff_ne]
            exact fun h => hc ⟨h.symm, hu⟩
          rw [this]
        · rfl
      rw [e2, if_neg hn, find?_firstOf]
      unfold firstValue
      rw [List.find?_filter, List.find?_map, Option.map_map, find?_congr_mem (q := fun e => sameName e.1 n)]
      · rfl
      · intro e he
        rw [Bool.eq_iff_iff]
        simp only [Function.comp, decide_eq_true_eq, beq_iff_eq]
        rw [sameName_iff]
        simp only [hasc, Mime.token_ascii (hl e he), true_and]
        refine ⟨fun h => h.2, fun h1 => ⟨fun h2 => ?_, h1⟩⟩
        rw [Prod.mk.injEq] at h2
        refine hc ⟨by rw [← h1]; exact h2.1, ?_⟩
        unfold hasUtf8
        rw [List.any_eq_true]
        refine ⟨e, he, ?_⟩
        rw [Bool.and_eq_true, beq_iff_eq]
        exact ⟨(sameName_low (Mime.token_ascii (hl e he)) (by decide)).mpr h2.1, h2.2⟩
  · have no : ∀ L : List (Str × Str), firstValue L n = none := by
      intro L
      unfold firstValue
      rw [List.find?_eq_none.mpr]
      · rfl
      · intro e _ h
        exact hasc ((sameName_iff _ _).mp h).2.1
    rw [no, no, if_neg fun h => hasc ((sameName_iff _ _).mp h.1).1]

/-- They are looked up as before exactly if no other charset comes before `charset=utf-8`. -/
theorem written_same {ps : List (Str × Str)} (hl : ∀ e ∈ ps, Token e.1) :
    firstValue (writtenParams ps) = firstValue ps ↔
      (hasUtf8 ps = true → firstValue ps s!!"charset" = some s!!"utf-8") := by
  constructor
  · intro h hu
    rw [← h, written_lookup hl, if_pos ⟨by decide, hu⟩]
  · intro h
    funext n
    rw [written_lookup hl]
    split
    · rename_i hc
      rw [← h hc.2]
      unfold firstValue
      congr 1
      apply find?_congr_mem
      intro e _
      have hx := (sameName_iff n s!!"charset").mp hc.1
      rw [Bool.eq_iff_iff, sameName_iff, sameName_iff, hx.2.2]
      simp [hx.1, hx.2.1]
    · rfl

theorem ranges_items {h : Headers} {vs : List Str} {rs : List MediaRange} (hg : h.get Accept.name = some vs) (hr : Ranges vs rs) :
    ∃ a, Accept.fromHeaders h = .ok (some a) ∧ a.wildcard = false ∧
      List.Forall₂ (fun (r : MediaRange) (p : Proposal Mime) => r.weight ≤ 1000 ∧ p.weight = some (thousandths r.weight) ∧
        (∀ e ∈ r.own, Token e.1) ∧ MimeWF p.item ∧ p.item.basetype = lower r.base ∧ p.item.subtype = lower r.sub ∧
        (∀ e ∈ p.item.params, e.1 ≠ s!!"q") ∧
        (if p.item.isUtf8 then [(s!!"charset", s!!"utf-8")] else []) ++ p.item.params = writtenParams r.own) rs a.entries := by
  unfold Ranges at hr
  have hmem : ∀ s ∈ (listItems vs).filter (· ≠ []), ∃ r : MediaRange, MediaPref s r.base r.sub r.ps r.weight := by
    intro s hs
    obtain ⟨r, -, hp⟩ := forall₂_imp_mem hr s hs
    exact ⟨r, hp⟩
  have hstar : s!!"*" ∉ listItems vs := by
    intro hs
    obtain ⟨r, hp⟩ := hmem _ (List.mem_filter.mpr ⟨hs, by decide⟩)
    exact absurd (media_slash hp) (by decide)
  obtain ⟨a, h1, h2, h3⟩ := C94_accept_partial h vs hg (fun s hs => by
    by_cases hb : s = []
    · exact .inl hb
    · obtain ⟨r, hp⟩ := hmem s (List.mem_filter.mpr ⟨hs, by simpa using hb⟩)
      exact .inr (.inr ⟨_, _, _, _, hp⟩))
  have hfe : ((listItems vs).filter fun s => s ≠ [] ∧ s ≠ s!!"*") = (listItems vs).filter (· ≠ []) := by
    refine List.filter_congr fun s hs => ?_
    rw [Bool.eq_iff_iff]
    simp only [decide_eq_true_eq]
    exact ⟨fun h => h.1, fun h => ⟨h, fun he => hstar (he ▸ hs)⟩⟩
  rw [hfe] at h3
  refine ⟨a, h1, ?_, ?_⟩
  · cases hw : a.wildcard with
    | false => rfl
    | true => exact absurd (h2.mp hw) hstar
  · clear hmem hfe
    generalize (listItems vs).filter (· ≠ []) = l at hr h3
    generalize a.entries = es at h3
    clear h1 h2
    induction hr generalizing es with
    | nil => cases h3; exact .nil
    | @cons s r l rs hp _ ih =>
      cases h3 with
      | @cons _ p _ _ h4 h5 =>
        obtain ⟨h6, h7⟩ := h4 _ _ _ _ hp
        refine .cons ?_ (ih _ h5)
        have hk : r.weight ≤ 1000 := by
          generalize r.weight = k at hp
          cases hp with
          | bare _ _ => exact Nat.le_refl _
          | weighted _ _ hv => exact qvalue_le hv
        have hm : MediaText s r.base r.sub r.ps := by
          generalize r.weight = k at hp
          cases hp with
          | bare hm _ => exact hm
          | weighted hm _ _ => exact hm
        obtain ⟨w1, w2, pt, a1, a2, a3, a4, a5, -⟩ := hm
        have hl : ∀ e ∈ r.ps, Token e.1 := fun e he => (paramsText_legal a5 e he).1
        have hl' : ∀ e ∈ r.own, Token e.1 := fun e he => hl e (List.mem_filter.mp he).1
        obtain ⟨pt', hpt'⟩ := paramsText_filter (fun e => !sameName e.1 s!!"q") a5
        have hs' : MediaText _ r.base r.sub (r.ps.filter fun e => !sameName e.1 s!!"q") := ⟨w1, w2, pt', a1, a2, a3, a4, hpt', rfl⟩
        have hwf := C23_wf (h7 _ hs')
        have hit := (h7 _ hs').symm.trans (C24_parse_text hs')
        injection hit with hit
        rw [hit] at hwf
        refine ⟨hk, h6, hl', hit ▸ hwf, by rw [hit], by rw [hit], ?_, by rw [hit]; rfl⟩
        intro e he
        rw [hit] at he
        obtain ⟨k, v⟩ := e
        have := List.mem_of_find?_eq_some (mem_firstOf.mp he)
        obtain ⟨e', he', heq⟩ := List.mem_map.mp (List.mem_filter.mp this).1
        cases heq
        have hq := (List.mem_filter.mp he').2
        intro hq'
        rw [(sameName_low (Mime.token_ascii (hl e' (List.mem_filter.mp he').1)) (by decide)).mpr hq'] at hq
        cases hq

/-- C114. Media ranges, with or without weight and on however many lines, are passed on in order, with their weights to
the last decimal and all parameters, exactly if in none of them another charset comes before `charset=utf-8`. Missing: `*`
by itself, which is written back though it is no range, and commas in quoted values, see `C94_accept_partial`. -/
theorem C114_accept_iff_partial (h : Headers) (vs : List Str) (rs : List MediaRange) (hg : h.get Accept.name = some vs)
    (hr : Ranges vs rs) :
    PassesOn Accept.fromHeaders Accept.value AcceptText h (rs.map MediaRange.sense) ↔
      ∀ r ∈ rs, (∃ e ∈ r.own, sameName e.1 s!!"charset" = true ∧ e.2 = s!!"utf-8") →
        firstValue r.own s!!"charset" = some s!!"utf-8" := by
  obtain ⟨a, h1, h2, h3⟩ := ranges_items hg hr
  have hv := C109_accept_partial a _ (fun p hp => ?_) (fun p hp => ?_) h2 rfl
  rotate_left
  · obtain ⟨r, -, g1, g2, -⟩ := forall₂_imp_mem h3.flip p hp
    intro x hx
    rw [g2] at hx
    cases hx
    exact unit_thousandths g1
  · obtain ⟨r, -, -, -, -, g1, -, -, g2, -⟩ := forall₂_imp_mem h3.flip p hp
    exact ⟨g1, g2⟩
  obtain ⟨rs', h4, h5⟩ := hv
  have key : rs'.map MediaRange.sense = rs.map MediaRange.sense ↔
      ∀ r ∈ rs, (∃ e ∈ r.own, sameName e.1 s!!"charset" = true ∧ e.2 = s!!"utf-8") →
        firstValue r.own s!!"charset" = some s!!"utf-8" := by
    clear h5 hg hr h1 h2
    generalize a.entries = es at h3 h4
    induction h3 generalizing rs' with
    | nil => cases h4; simp
    | @cons r p rs es hp _ ih =>
      cases h4 with
      | @cons _ r' _ rs' g h4 =>
        obtain ⟨a1, a2, a3, -, a5, a6, -, a8⟩ := hp
        obtain ⟨b1, b2, b3, b4⟩ := g
        rw [a2] at b4
        have hw := weightOf_thousandths a1 b4
        have hown : r'.own = writtenParams r.own := b3.trans a8
        have hs : r'.sense = r.sense ↔ ((∃ e ∈ r.own, sameName e.1 s!!"charset" = true ∧ e.2 = s!!"utf-8") →
            firstValue r.own s!!"charset" = some s!!"utf-8") := by
          have hu : hasUtf8 r.own = true ↔ ∃ e ∈ r.own, sameName e.1 s!!"charset" = true ∧ e.2 = s!!"utf-8" := by
            unfold hasUtf8
            simp
          rw [← hu, ← written_same a3, ← hown]
          unfold MediaRange.sense
          rw [b1, b2, a5, a6, hw, lower_lower, lower_lower]
          simp
        rw [List.map_cons, List.map_cons, List.cons.injEq, hs, ih _ h4, List.forall_mem_cons]
  rw [← key]
  constructor
  · rintro ⟨b, v, g1, g2, g3⟩
    rw [h1] at g1
    cases g1
    cases g2
    obtain ⟨ys, hy, he⟩ := (g3 _).mpr rfl
    rw [(h5 ys).mp hy] at he
    exact he.symm
  · intro he
    refine ⟨a, _, h1, rfl, fun y => ?_⟩
    constructor
    · rintro ⟨ys, hy, rfl⟩
      rw [(h5 ys).mp hy, he]
    · rintro rfl
      exact ⟨_, (h5 _).mpr rfl, he.symm⟩

example : Ranges [s!!"text/*;q=0.5, text/html"] [⟨s!!"text", s!!"*", [(s!!"q", s!!"0.5")], 500⟩, ⟨s!!"text", s!!"html", [], 1000⟩] ∧
    PassesOn Accept.fromHeaders Accept.value AcceptText [(Accept.name, [s!!"text/*;q=0.5, text/html"])]
      [⟨s!!"text", s!!"*", 500, fun _ => none⟩, ⟨s!!"text", s!!"html", 1000, fun _ => none⟩] := by
  have hr : Ranges [s!!"text/*;q=0.5, text/html"] [⟨s!!"text", s!!"*", [(s!!"q", s!!"0.5")], 500⟩, ⟨s!!"text", s!!"html", [], 1000⟩] :=
    ranges_two (s := s!!"text/*;q=0.5") (s' := s!!"text/html") (range_weighted token_text token_star half (token_of_decide (by decide)))
      (media_bare token_text token_html) (by decide) (by decide) (by decide) (by decide)
  refine ⟨hr, (C114_accept_iff_partial _ _ _ rfl hr).mpr ?_⟩
  decide +kernel

/-- With two charsets of which the second is `utf-8`, the first is what the range is for, and the second is passed on. -/
theorem C114_violated_charset {b s x : Str} (hb : Token b) (hs : Token s) (hx : Token x) (hu : x ≠ s!!"utf-8") (h : Headers)
    (hg : h.get Accept.name = some [b ++ '/' :: (s ++ s!!";charset=" ++ x ++ s!!";charset=utf-8")]) :
    ∃ r, Ranges [b ++ '/' :: (s ++ s!!";charset=" ++ x ++ s!!";charset=utf-8")] [r] ∧ firstValue r.own s!!"charset" = some x ∧
      ¬ PassesOn Accept.fromHeaders Accept.value AcceptText h [r.sense] := by
  let r : MediaRange := ⟨b, s, [(s!!"charset", x), (s!!"charset", s!!"utf-8")], 1000⟩
  have hp : MediaPref (b ++ '/' :: (s ++ s!!";charset=" ++ x ++ s!!";charset=utf-8")) b s r.ps 1000 := by
    refine .bare ⟨[], [], s!!";charset=" ++ (x ++ s!!";charset=utf-8"), ?_, ?_, hb, hs,
      .cons (w1 := []) (n := s!!"charset") (raw := x) (w2 := []) ?_ (token_of_decide (by decide)) (.inl ⟨rfl, hx⟩) ?_
        (.cons (w1 := []) (n := s!!"charset") (raw := s!!"utf-8") (w2 := []) ?_ (token_of_decide (by decide))
        (.inl ⟨rfl, token_of_decide (by decide)⟩) ?_ .nil), by simp⟩ rfl <;> (intro c hc; cases hc)
  have hc : ',' ∉ b ++ '/' :: (s ++ s!!";charset=" ++ x ++ s!!";charset=utf-8") := by
    have tok : ∀ {t : Str}, Token t → ',' ∉ t := fun ht => (token_no_comma ht).1
    simp only [List.mem_append, List.mem_cons, not_or]
    exact ⟨tok hb, by decide, ⟨⟨tok hs, by decide⟩, tok hx⟩, by decide⟩
  have ht : trim (b ++ '/' :: (s ++ s!!";charset=" ++ x ++ s!!";charset=utf-8")) =
      b ++ '/' :: (s ++ s!!";charset=" ++ x ++ s!!";charset=utf-8") := by
    refine trim_of_trimmed ⟨fun c hc => ?_, fun c hc => ?_⟩
    · rw [List.head?_append_of_ne_nil _ hb.1] at hc
      exact ((token_ends hb).1 c hc).1
    · rw [show b ++ '/' :: (s ++ s!!";charset=" ++ x ++ s!!";charset=utf-8") =
        (b ++ '/' :: (s ++ s!!";charset=" ++ x ++ s!!";charset=utf-")) ++ ['8'] by simp, List.getLast?_concat] at hc
      cases hc
      decide
  have hr : Ranges [b ++ '/' :: (s ++ s!!";charset=" ++ x ++ s!!";charset=utf-8")] [r] := by
    unfold Ranges listItems
    rw [List.flatMap_singleton, split_of_not_mem hc, List.map_singleton, ht, List.filter_cons, if_pos (by simp [hb.1])]
    exact .cons hp .nil
  have hf : firstValue r.own s!!"charset" = some x := rfl
  refine ⟨r, hr, hf, fun hpass => ?_⟩
  have := (C114_accept_iff_partial h _ [r] hg hr).mp hpass r List.mem_cons_self
    ⟨(s!!"charset", s!!"utf-8"), by simp [r, MediaRange.own, show sameName s!!"charset" s!!"q" = false from rfl], rfl, rfl⟩
  rw [hf] at this
  exact hu (Option.some.inj this)

example : Accept.fromHeaders [(Accept.name, [s!!"a/b;charset=x;charset=utf-8"])] =
      .ok (some ⟨false, [⟨⟨s!!"a/b", s!!"a", s!!"b", true, [(s!!"charset", s!!"x")]⟩, some (thousandths 1000)⟩]⟩) ∧
    Accept.value ⟨false, [⟨⟨s!!"a/b", s!!"a", s!!"b", true, [(s!!"charset", s!!"x")]⟩, some (thousandths 1000)⟩]⟩ =
      .ok s!!"a/b;charset=utf-8;charset=x;q=1.000" := by
  decide +kernel

/-! ### metrics -/

theorem plain_quotable {raw v : Str} (h : ValueText raw v) (hb : '\\' ∉ raw) : ∀ c ∈ v, QuotedChar c ∧ c ≠ '"' ∧ c ≠ '\\' := by
  intro c hc
  refine ⟨valueText_quoted h c hc, ?_⟩
  rcases h with ⟨rfl, ht⟩ | ⟨e, rfl, he, -⟩
  · refine ⟨?_, ?_⟩ <;> rintro rfl <;> exact absurd (ht.2 _ hc) (by unfold TChar; decide)
  · have hb' : '\\' ∉ e := fun h => hb (by simp [h])
    have h2 := escaped_no_quote he hb'
    obtain rfl := escaped_plain he hb'
    exact ⟨fun h => h2 (h ▸ hc), fun h => hb' (h ▸ hc)⟩

theorem timingArgs_values {r : Str} {ps : List TimingArg} (h : TimingArgs r ps) : ∀ p ∈ ps, ValueText p.raw p.value := by
  induction h with
  | nil => simp
  | cons _ _ _ _ _ hv _ ih =>
    intro p hp
    rcases List.mem_cons.mp hp with rfl | hp
    · exact hv
    · exact ih p hp

theorem millis_nanos (a k : Nat) : (durationOf a k).nanos < 1000000000 := Nat.mod_lt _ (by decide)

theorem millis_secs {a k : Nat} (h : a < 2 ^ 23 * 10 ^ k) : (durationOf a k).secs < 2 ^ 64 := by
  have h1 : a * 1000000 / 10 ^ k < 2 ^ 23 * 1000000 := by
    rw [Nat.div_lt_iff_lt_mul (Nat.pos_of_ne_zero (by simp))]
    calc a * 1000000 < 2 ^ 23 * 10 ^ k * 1000000 := Nat.mul_lt_mul_of_pos_right h (by decide)
      _ = 2 ^ 23 * 1000000 * 10 ^ k := by rw [Nat.mul_right_comm]
  unfold durationOf
  simp only
  exact Nat.lt_of_le_of_lt (Nat.div_le_self _ _) (Nat.lt_trans h1 (by decide))

/-- A plain metric can be written. -/
theorem plain_metric {t : Str} {x : List TimingArg × Metric} (h : TimingText t x) (hp : PlainArgs x.1) :
    QuotableMetric x.2 ∧ ∀ d, x.2.dur = some d → d.secs < 2 ^ 64 ∧ d.nanos < 1000000000 := by
  obtain ⟨r, -, hn, hr, hm⟩ := h
  refine ⟨⟨hn, fun t ht => ?_⟩, fun d hd => ?_⟩
  · rw [hm.desc, Option.map_eq_some_iff] at ht
    obtain ⟨p, hf, rfl⟩ := ht
    have hpm := List.mem_of_find?_eq_some hf
    exact plain_quotable (timingArgs_values hr p hpm) (hp.desc p hpm (by simpa using List.find?_some hf)).2.2
  · have := hm.dur
    split at this
    · rw [this] at hd; cases hd
    · rename_i p hf
      have hpm := List.mem_of_find?_eq_some hf
      obtain ⟨-, -, a, k, h1, h2, -⟩ := hp.dur p hpm (by simpa using List.find?_some hf)
      obtain ⟨a', k', h3, h4⟩ := this
      obtain ⟨rfl, rfl⟩ : a' = a ∧ k' = k := millisText_unique h3 h1
      rw [h4] at hd
      cases hd
      exact ⟨millis_secs h2, millis_nanos _ _⟩

/-- C114. Metrics in plain form, on however many lines and with empty places between them, are passed on: others read the
same names and descriptions in the same order, and the durations up to one part in 2^50. Missing: other forms, see the
violations of C100. -/
theorem C114_timings_partial (h : Headers) (vs : List Str) (ms : List (Option (List TimingArg × Metric)))
    (hv : h.get s!!"server-timing" = some vs) (hl : Listed TimingText vs ms) (hp : ∀ x, some x ∈ ms → PlainArgs x.1) :
    ∃ b v xs, ServerTiming.fromHeaders h = .ok (some b) ∧ ServerTiming.value b = .ok v ∧ OnlyAs (AnyListed MetricText v) xs ∧
      List.Forall₂ SameMetric ((ms.filterMap id).map Prod.snd) xs := by
  obtain ⟨h1, -⟩ := C100_metrics_partial h vs ms hv hl hp
  have hok : ∀ x, some x ∈ ms → QuotableMetric x.2 ∧ ∀ d, x.2.dur = some d → Printed Metric.millis Duration.millisMag d := by
    intro x hx
    obtain ⟨t, ht⟩ := listed_text hl hx
    obtain ⟨g1, g2⟩ := plain_metric ht (hp x hx)
    exact ⟨g1, printed_millis g2⟩
  suffices hs : ∃ xs, OnlyAs (AnyListed MetricText (join s!!", " ((ms.map fun m => (m.map Prod.snd).getD ⟨[], none, none⟩).map
      (Metric.textOf Metric.millis)))) xs ∧ List.Forall₂ SameMetric ((ms.filterMap id).map Prod.snd) xs by
    obtain ⟨xs, hs⟩ := hs
    exact ⟨_, _, xs, h1, timing_value _, hs⟩
  clear h1 hv hl hp
  generalize Metric.millis = f at *
  generalize Duration.millisMag = g at *
  have hel : ∃ os : List (Option ReadMetric),
      List.Forall₂ (Element MetricText) ((ms.map fun m => (m.map Prod.snd).getD ⟨[], none, none⟩).map (Metric.textOf f)) os ∧
      List.Forall₂ SameMetric ((ms.filterMap id).map Prod.snd) (os.filterMap id) := by
    induction ms with
    | nil => exact ⟨[], .nil, .nil⟩
    | cons m ms ih =>
      obtain ⟨os, h1, h2⟩ := ih fun x hx => hok x (List.mem_cons_of_mem _ hx)
      cases m with
      | none =>
        exact ⟨none :: os, .cons ⟨[], [], [], by simp [Ows], by simp [Ows], rfl, rfl⟩ h1, h2⟩
      | some x =>
        obtain ⟨g1, g2⟩ := hok x List.mem_cons_self
        obtain ⟨y, h3, h4⟩ := textOf_written g2 g1
        exact ⟨some y :: os, .cons ⟨[], _, [], by simp [Ows], by simp [Ows], by simp, h4⟩ h1, .cons h3 h2⟩
  obtain ⟨os, h1, h2⟩ := hel
  refine ⟨os.filterMap id, ?_, h2⟩
  by_cases hn : ms = []
  · subst hn
    cases h1
    exact anyListed_only alone_metric .nil
  · have hl := listed_elements h1 (by simpa using hn)
    exact fun y => ⟨fun ⟨os', g1, g2⟩ => by rw [g2, listed_alone alone_metric g1 hl], fun e => ⟨os, hl, e⟩⟩

example : ServerTiming.fromHeaders [(s!!"server-timing", [s!!"db;desc=\"a b\", ,c;x=1"])] =
      .ok (some [⟨s!!"db", none, some s!!"a b"⟩, ⟨[], none, none⟩, ⟨s!!"c", none, none⟩]) ∧
    ServerTiming.value [⟨s!!"db", none, some s!!"a b"⟩, ⟨[], none, none⟩, ⟨s!!"c", none, none⟩] =
      .ok s!!"db; desc=\"a b\", , c" := by
  decide +kernel

example : Listed TimingText [s!!"db;desc=x,"] [some ([⟨s!!"desc", s!!"x", s!!"x", false⟩], ⟨s!!"db", none, some s!!"x"⟩), none] ∧
    PlainArgs [⟨s!!"desc", s!!"x", s!!"x", false⟩] := by
  refine ⟨listed_trailing (t := s!!"db;desc=x") (desc_text (n := s!!"db") (raw := s!!"x") (Mime.token_of (by decide) (by decide))
    (.inl ⟨rfl, Mime.token_of (by decide) (by decide)⟩)), by decide, by decide, by decide, ?_⟩
  intro p hp hd
  rw [List.mem_singleton.mp hp] at hd
  exact absurd hd (by decide)

end HT
