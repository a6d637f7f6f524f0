import Verif.Spec.Accept
import Verif.Props.Weights
import Verif.Props.Mime

/-! C41 for Accept. -/

namespace HT
open Spec

theorem weightText_token : ∀ k < 1001, (weightText k).all Mime.isToken = true ∧ weightText k ≠ [] := by decide +kernel

theorem thousandths_one : thousandths 1000 = .fin false (2 ^ 149) := by decide +kernel

theorem q_token : Token s!!"q" ∧ NoUpper s!!"q" := by
  refine ⟨⟨by decide, ?_⟩, by unfold NoUpper; decide⟩
  intro c hc
  rw [← Mime.isToken_iff]
  revert c
  decide

theorem one_f32 : Fl.one f32Format = .fin false (2 ^ 149) := rfl

/-- A media type with a weight written after it. -/
theorem media_weighted {m : Mime} (h : AcceptType m) {w : Str} (hw : w.all Mime.isToken = true) (hn : w ≠ []) :
    Mime.parse (m.display ++ s!!";q=" ++ w) = .ok { m with params := m.params ++ [(s!!"q", w)] } := by
  have hd : m.display ++ s!!";q=" ++ w = Mime.display { m with params := m.params ++ [(s!!"q", w)] } := by
    unfold Mime.display
    simp [Mime.displayParam, hw, hn]
  rw [hd, C22_round_trip_iff]
  obtain ⟨h1, h2, h3, h4, h5, h6, h7⟩ := h.wf
  refine ⟨h1, h2, h3, ?_, ?_, ?_, ?_⟩
  · intro e he
    rcases List.mem_append.mp he with he | he
    · exact h4 e he
    · simp only [List.mem_singleton] at he
      subst he
      exact q_token
  · rw [List.map_append, List.nodup_append]
    refine ⟨h5, by simp, ?_⟩
    intro a ha b hb
    simp only [List.map_cons, List.map_nil, List.mem_singleton] at hb
    subst hb
    obtain ⟨e, he, rfl⟩ := List.mem_map.mp ha
    exact h.weight e he
  · intro e he
    rcases List.mem_append.mp he with he | he
    · exact h6 e he
    · simp only [List.mem_singleton] at he
      subst he
      intro c hc
      have := List.all_eq_true.mp hw c hc
      have := (Mime.isToken_iff _).mp this
      exact .inr (by
        have h1 := Mime.tchar_nat this
        omega)
  · intro he
    rcases List.mem_append.mp he with he | he
    · exact h7 he
    · simp at he

theorem removeParam_q {m : Mime} (h : ∀ e ∈ m.params, e.1 ≠ s!!"q") :
    (m.removeParam s!!"q" = (none, m)) ∧
    ∀ w, Mime.removeParam { m with params := m.params ++ [(s!!"q", w)] } s!!"q" = (some w, m) := by
  have hf : m.params.find? (fun e => e.1 == s!!"q") = none := by
    rw [List.find?_eq_none]
    intro e he
    simpa using h e he
  have he : m.params.eraseP (fun e => e.1 == s!!"q") = m.params :=
    List.eraseP_of_forall_not fun e he => by simpa using h e he
  constructor
  · unfold Mime.removeParam
    rw [if_neg (fun h => absurd h.1 (by decide)), hf]
  · intro w
    unfold Mime.removeParam
    rw [if_neg (fun h => absurd h.1 (by decide))]
    simp only [List.find?_append, hf, Option.none_or]
    simp only [List.find?_cons, beq_self_eq_true]
    rw [List.eraseP_append_right _ (fun e he => by simpa using h e he)]
    simp

theorem media_read {s t : Str} {m m' : Mime} {x : Fl} (h1 : Mime.parse s = .ok m) (h2 : m.removeParam s!!"q" = (some t, m'))
    (h3 : Fl.parse f32Format t = some x) (h4 : UnitWeight x) : Accept.parse s = .ok (some ⟨m', some x⟩) := by
  have : Proposal.mediaFromStr s = .ok ⟨m', some x⟩ := by
    rw [C40_media]
    refine ⟨m, h1, by rw [h2], x, rfl, h4, ?_⟩
    rw [h2]
    exact (Fl.parse_iff (by decide)).mp h3
  unfold Accept.parse
  rw [this]
  rfl

theorem media_entry (p : Proposal Mime) (hw : WeightOk p) (h : AcceptType p.item) :
    ∃ p', RoundedMedia p p' ∧ Accept.parse (p.display Mime.display) = .ok (some p') ∧
      (p.weight ≠ none → ThreeDecimals p.weight → p' = p) ∧ ThreeDecimals p'.weight ∧ p'.weight ≠ none := by
  obtain ⟨m, w⟩ := p
  obtain ⟨hr0, hr1⟩ := removeParam_q h.weight
  cases w with
  | none =>
    refine ⟨⟨m, some (.fin false (2 ^ 149))⟩, ⟨rfl, .inl ⟨rfl, rfl⟩⟩, ?_, fun h => absurd rfl h, ?_, by simp⟩
    · unfold Accept.parse Proposal.mediaFromStr
      rw [show Proposal.display Mime.display ⟨m, none⟩ = m.display from rfl, (C22_round_trip_iff m).mpr h.wf, Res.bind_ok]
      simp only at hr0
      rw [hr0]
      simp only [Proposal.newMedia, Res.map, one_f32]
    · intro x hx
      cases hx
      exact ⟨1000, by decide, thousandths_one.symm⟩
  | some x =>
    obtain ⟨n, hm, rfl⟩ := hw x rfl
    have hpos : 0 < 2 ^ 149 := Nat.two_pow_pos 149
    have herr := roundDiv_error (a := n * 1000) hpos
    have hk : roundDiv (n * 1000) (2 ^ 149) ≤ 1000 := roundDiv_le hpos (Nat.mul_le_mul_right 1000 hm)
    have hdisp : (⟨m, some (.fin false n)⟩ : Proposal Mime).display Mime.display =
        m.display ++ s!!";q=" ++ weightText (roundDiv (n * 1000) (2 ^ 149)) := rfl
    have h3 : ThreeDecimals (some (Fl.fin false n)) → thousandths (roundDiv (n * 1000) (2 ^ 149)) = .fin false n := by
      intro h
      obtain ⟨k', hk', e⟩ := h _ rfl
      obtain ⟨_, m', _, h2, h3⟩ := weight_table k' (by omega)
      rw [h2] at e
      cases e
      rw [h3, h2]
    rw [hdisp]
    generalize roundDiv (n * 1000) (2 ^ 149) = k at *
    obtain ⟨ht, m', hm', he', _⟩ := weight_table k (by omega)
    obtain ⟨htok, hne⟩ := weightText_token k (by omega)
    refine ⟨⟨m, some (thousandths k)⟩, ⟨rfl, .inr ⟨n, k, rfl, hk, rfl, herr⟩⟩, ?_, ?_, ?_, by simp⟩
    · exact media_read (media_weighted h htok hne) (hr1 _) ht ⟨m', hm', he'⟩
    · intro _ h
      rw [h3 h]
    · intro x hx
      cases hx
      exact ⟨k, hk, rfl⟩

theorem token_not_ws {c : Char} (h : TChar c) : isWs c = false := by
  have := Mime.tchar_nat h
  unfold isWs
  simp
  omega

theorem last_append {a b : Str} (hb : b ≠ []) (h : ∀ c, b.getLast? = some c → isWs c = false) :
    ∀ c, (a ++ b).getLast? = some c → isWs c = false := by
  rw [List.getLast?_append_of_ne_nil _ hb]
  exact h

theorem token_last {s : Str} (h : Token s) : ∀ c, s.getLast? = some c → isWs c = false :=
  fun c hc => token_not_ws (h.2 c (List.mem_of_getLast? hc))

theorem display_trimmed {m : Mime} (h : MimeWF m) : Trimmed m.display ∧ '/' ∈ m.display := by
  unfold Mime.display
  rw [h.essence]
  refine ⟨⟨?_, ?_⟩, by simp⟩
  · intro c hc
    cases hb : m.basetype with
    | nil => exact absurd hb h.base.1.1
    | cons x xs =>
      rw [hb] at hc
      simp only [List.cons_append, List.head?_cons, Option.some.injEq] at hc
      subst hc
      exact token_not_ws (h.base.1.2 x (by rw [hb]; simp))
  · have h0 : ∀ c, (m.basetype ++ '/' :: m.subtype).getLast? = some c → isWs c = false := by
      rw [show m.basetype ++ '/' :: m.subtype = (m.basetype ++ ['/']) ++ m.subtype by simp]
      exact last_append h.sub.1.1 (token_last h.sub.1)
    have h1 : ∀ c, (m.basetype ++ '/' :: m.subtype ++ if m.isUtf8 = true then s!!";charset=utf-8" else []).getLast? = some c →
        isWs c = false := by
      by_cases hu : m.isUtf8 = true
      · rw [if_pos hu]
        exact last_append (by decide) (by decide)
      · rw [if_neg hu, List.append_nil]
        exact h0
    generalize (m.basetype ++ '/' :: m.subtype ++ if m.isUtf8 = true then s!!";charset=utf-8" else []) = t at h1
    rcases List.eq_nil_or_concat m.params with hn | ⟨ps, e, hn⟩
    · rw [hn]
      simpa using h1
    · rw [hn, List.concat_eq_append, List.flatMap_append, ← List.append_assoc]
      have he : e ∈ m.params := by rw [hn]; simp
      simp only [List.flatMap_cons, List.flatMap_nil, List.append_nil]
      unfold Mime.displayParam
      by_cases ht : e.2.all Mime.isToken = true ∧ e.2 ≠ []
      · rw [if_pos ht, ← List.append_assoc]
        exact last_append ht.2 (fun c hc => token_not_ws ((Mime.isToken_iff _).mp
          (List.all_eq_true.mp ht.1 c (List.mem_of_getLast? hc))))
      · rw [if_neg ht, ← List.append_assoc]
        exact last_append (by decide) (by decide)

theorem media_good (p : Proposal Mime) (hp : WeightOk p) (h : AcceptType p.item) :
    ',' ∉ Proposal.display Mime.display p ∧ Trimmed (Proposal.display Mime.display p) ∧
      Proposal.display Mime.display p ≠ [] ∧ Proposal.display Mime.display p ≠ s!!"*" ∧
      isAscii (Proposal.display Mime.display p) = true := by
  obtain ⟨m, w⟩ := p
  obtain ⟨htr, hs⟩ := display_trimmed h.wf
  have key : ∀ {t : Str}, '/' ∈ t → t ≠ [] ∧ t ≠ s!!"*" := by
    intro t ht
    constructor
    · rintro rfl; cases ht
    · rintro rfl; revert ht; decide
  cases w with
  | none => exact ⟨h.comma, htr, (key hs).1, (key hs).2, isAscii_iff.mpr h.ascii⟩
  | some x =>
    obtain ⟨n, hm, rfl⟩ := hp x rfl
    have hk : roundDiv (n * 1000) (2 ^ 149) ≤ 1000 := roundDiv_le (Nat.two_pow_pos 149) (Nat.mul_le_mul_right 1000 hm)
    have hd : (⟨m, some (.fin false n)⟩ : Proposal Mime).display Mime.display =
        m.display ++ s!!";q=" ++ weightText (roundDiv (n * 1000) (2 ^ 149)) := rfl
    rw [hd]
    generalize roundDiv (n * 1000) (2 ^ 149) = k at *
    have hcs := weightText_chars k (by omega)
    have hs' : '/' ∈ m.display ++ s!!";q=" ++ weightText k := by
      have : '/' ∈ m.display := hs
      simp [this]
    refine ⟨?_, ⟨?_, ?_⟩, (key hs').1, (key hs').2, ?_⟩
    · intro hc
      simp only [List.mem_append] at hc
      rcases hc with (hc | hc) | hc
      · exact h.comma hc
      · revert hc; decide
      · rcases hcs ',' hc with h | h <;> revert h <;> decide
    · intro c hc
      apply htr.1 c
      show m.display.head? = some c
      cases ht : m.display with
      | nil => exact absurd ht (key hs).1
      | cons y ys => rw [ht] at hc; exact hc
    · intro c hc
      obtain ⟨h1, h2⟩ := weightText_last k (by omega) m.display
      rw [h1] at hc
      exact h2 c hc
    · rw [isAscii_append, isAscii_append, isAscii_iff.mpr h.ascii, weightText_ascii k (by omega)]
      decide

/-- C41 for Accept: writing a list and reading it back gives the media types with the weights rounded to three decimals,
and weight 1 for those without one; a list whose weights have three decimals is read back as it is. -/
theorem C41_media_partial (a : AcceptList Mime) (hw : ∀ p ∈ a.entries, WeightOk p) (ht : ∀ p ∈ a.entries, AcceptType p.item) :
    ∃ ps, RoundTrips s!!"accept" (Accept.value a) Accept.fromHeaders ⟨a.wildcard, ps⟩ ∧
      List.Forall₂ RoundedMedia a.entries ps ∧ (∀ p ∈ ps, ThreeDecimals p.weight ∧ p.weight ≠ none) ∧
      ((∀ p ∈ a.entries, ThreeDecimals p.weight ∧ p.weight ≠ none) → ps = a.entries) := by
  obtain ⟨ps, hps⟩ := forall₂_exists (R := fun p p' => (RoundedMedia p p' ∧ Accept.parse (p.display Mime.display) = .ok (some p') ∧
      (p.weight ≠ none → ThreeDecimals p.weight → p' = p) ∧ ThreeDecimals p'.weight ∧ p'.weight ≠ none) ∧
      WeightOk p ∧ AcceptType p.item) (l := a.entries) (fun p hm => by
    obtain ⟨p', h⟩ := media_entry p (hw p hm) (ht p hm)
    exact ⟨p', h, hw p hm, ht p hm⟩)
  refine ⟨ps, ?_, hps.imp fun p q h => h.1.1, ?_, ?_⟩
  · apply accept_reads_back
    refine hps.imp fun p q h => ?_
    obtain ⟨h1, h2, h3, h4, h5⟩ := media_good p h.2.1 h.2.2
    exact ⟨h1, h2, h3, h4, h5, h.1.2.1⟩
  · clear hw ht
    intro p hp
    obtain ⟨q, -, h⟩ := forall₂_left hps.flip p hp
    exact h.1.2.2.2
  · clear hw ht
    generalize a.entries = es at hps
    induction hps with
    | nil => simp
    | cons h _ ih =>
      intro hm
      rw [h.1.2.2.1 (hm _ List.mem_cons_self).2 (hm _ List.mem_cons_self).1, ih fun p hp => hm p (List.mem_cons_of_mem _ hp)]


theorem acceptType_html : AcceptType ⟨s!!"text/html", s!!"text", s!!"html", true, [(s!!"level", s!!"1 2")]⟩ :=
  ⟨(C22_round_trip_iff _).mp (by decide +kernel), by unfold Ascii; decide, by decide, by decide⟩

example : ∀ p ∈ (⟨true, [⟨⟨s!!"text/html", s!!"text", s!!"html", true, [(s!!"level", s!!"1 2")]⟩, some (thousandths 300)⟩]⟩ :
    AcceptList Mime).entries, AcceptType p.item := by
  intro p hp
  simp only [List.mem_singleton] at hp
  subst hp
  exact acceptType_html

/-- C41 is violated for Accept: a media type without a weight (made from a media type alone) comes back with weight 1. -/
theorem C41_violated_no_weight (m : Mime) (hm : AcceptType m) :
    RoundTrips s!!"accept" (Accept.value ⟨false, [⟨m, none⟩]⟩) Accept.fromHeaders
      ⟨false, [⟨m, some (.fin false (2 ^ 149))⟩]⟩ := by
  have hw : ∀ p ∈ [(⟨m, none⟩ : Proposal Mime)], WeightOk p := by
    intro p hp
    simp only [List.mem_singleton] at hp
    subst hp
    intro x hx
    cases hx
  have ht : ∀ p ∈ [(⟨m, none⟩ : Proposal Mime)], AcceptType p.item := by
    intro p hp
    simp only [List.mem_singleton] at hp
    subst hp
    exact hm
  obtain ⟨ps, h1, h2, -⟩ := C41_media_partial ⟨false, [⟨m, none⟩]⟩ hw ht
  cases h2 with
  | cons h h2 =>
    cases h2
    rename_i q
    obtain ⟨i, w⟩ := q
    obtain ⟨rfl, ⟨-, h⟩ | ⟨n, k, h, -⟩⟩ := h
    · simp only at h
      subst h
      exact h1
    · cases h

example : AcceptType ⟨s!!"text/html", s!!"text", s!!"html", true, [(s!!"level", s!!"1 2")]⟩ := acceptType_html

/-- C41 is violated for Accept: a `q` parameter of the media type itself is taken for the weight, and a comma in a quoted
parameter value cuts the entry in two. -/
theorem C41_violated_media_texts :
    (∃ v, Accept.value ⟨false, [⟨⟨s!!"a/b", s!!"a", s!!"b", false, [(s!!"q", s!!"0")]⟩, some (.fin false (2 ^ 149))⟩]⟩ = .ok v ∧
      Accept.fromHeaders (oneHeader s!!"accept" v) =
        .ok (some ⟨false, [⟨⟨s!!"a/b", s!!"a", s!!"b", false, []⟩, some (.fin false 0)⟩]⟩)) ∧
    (∃ v, Accept.value ⟨false, [⟨⟨s!!"a/b", s!!"a", s!!"b", false, [(s!!"x", s!!"1,2")]⟩, some (.fin false (2 ^ 149))⟩]⟩ = .ok v ∧
      Accept.fromHeaders (oneHeader s!!"accept" v) = .err 500) :=
  ⟨⟨s!!"a/b;q=0;q=1.000", by decide +kernel, by decide +kernel⟩,
    ⟨s!!"a/b;x=\"1,2\";q=1.000", by decide +kernel, by decide +kernel⟩⟩

end HT
