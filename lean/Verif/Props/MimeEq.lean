import Verif.Spec.MimeEq
import Verif.Props.Mime

/-!
C92: equality of media types.
-/

namespace HT
open Spec Mime

theorem low_eq_iff {a b : Str × Str} (ha : isAscii a.1 = true) (hb : isAscii b.1 = true) :
    (lower a.1, a.2) = (lower b.1, b.2) ↔ sameName a.1 b.1 = true ∧ a.2 = b.2 := by
  rw [sameName_iff, Prod.mk.injEq]
  simp [ha, hb]

theorem sameParams_iff {ps qs : List (Str × Str)} (hp : ∀ e ∈ ps, isAscii e.1 = true) (hq : ∀ e ∈ qs, isAscii e.1 = true) :
    SameParams ps qs ↔ ps.map (fun e => (lower e.1, e.2)) = qs.map (fun e => (lower e.1, e.2)) := by
  induction ps generalizing qs with
  | nil => cases qs <;> simp [SameParams]
  | cons p ps ih =>
    cases qs with
    | nil => simp [SameParams]
    | cons q qs =>
      have := ih (qs := qs) (fun e he => hp e (by simp [he])) (fun e he => hq e (by simp [he]))
      unfold SameParams at this ⊢
      rw [List.forall₂_cons, this, List.map_cons, List.map_cons, List.cons.injEq,
        low_eq_iff (hp p (by simp)) (hq q (by simp))]

theorem mem_go {ps : List (Str × Str)} {e : Str × Str} (h : e ∈ distinct.go ps) : e ∈ ps := by
  induction ps with
  | nil => cases h
  | cons p ps ih =>
    rw [distinct.go, List.mem_cons] at h
    rcases h with rfl | h
    · simp
    · exact List.mem_cons_of_mem _ (ih (List.mem_of_mem_filter h))

theorem firstOf_low {ps : List (Str × Str)} (h : ∀ e ∈ ps, isAscii e.1 = true) :
    firstOf (ps.map fun e => (lower e.1, e.2)) = (distinct.go ps).map fun e => (lower e.1, e.2) := by
  induction ps with
  | nil => rfl
  | cons p ps ih =>
    rw [List.map_cons, firstOf, ih (fun e he => h e (by simp [he])), distinct.go, List.map_cons, List.filter_map]
    congr 2
    refine List.filter_congr fun e he => ?_
    have h1 := h e (List.mem_cons_of_mem _ (mem_go he))
    have h2 := h p (by simp)
    rw [Bool.eq_iff_iff]
    simp only [Function.comp_apply, ne_eq, decide_eq_true_eq, Bool.not_eq_true']
    rw [Bool.eq_false_iff, ne_eq, sameName_iff]
    simp [h1, h2]

theorem filter_low {ps : List (Str × Str)} (h : ∀ e ∈ ps, isAscii e.1 = true) :
    ((ps.map fun e => (lower e.1, e.2)).filter fun e => e ≠ (s!!"charset", s!!"utf-8")) =
      (ps.filter fun e => !(sameName e.1 s!!"charset" && e.2 == s!!"utf-8")).map fun e => (lower e.1, e.2) := by
  rw [List.filter_map]
  congr 1
  refine List.filter_congr fun e he => ?_
  rw [Bool.eq_iff_iff]
  simp only [Function.comp_apply, ne_eq, decide_eq_true_eq, Bool.not_eq_true', Bool.and_eq_false_iff, Prod.mk.injEq,
    not_and_or]
  rw [Bool.eq_false_iff, ne_eq, sameName_low (h e he) (by decide)]
  simp

theorem params_low {ps : List (Str × Str)} (h : ∀ e ∈ ps, isAscii e.1 = true) :
    firstOf ((ps.map fun e => (lower e.1, e.2)).filter fun e => e ≠ (s!!"charset", s!!"utf-8")) =
      (distinct ps).map fun e => (lower e.1, e.2) := by
  rw [filter_low h, firstOf_low fun e he => h e (List.mem_of_mem_filter he)]
  rfl

theorem mediaText_names {s base sub : Str} {ps : List (Str × Str)} (h : MediaText s base sub ps) :
    isAscii base = true ∧ isAscii sub = true ∧ ∀ e ∈ ps, isAscii e.1 = true := by
  obtain ⟨w1, w2, pt, -, -, hb, hs, hp, -⟩ := h
  exact ⟨token_ascii hb, token_ascii hs, fun e he => token_ascii (paramsText_legal hp e he).1⟩

/-- C92: when two media types, as written, are equal as values: type and subtype agree up to case, both or neither say
`charset=utf-8`, and the other parameters (the first of each name) agree in order, names up to case and values exactly.
White space and quoting never matter. (Missing from the claim: parameters in another order, and `charset` values that
differ in case, which RFC 7231 regards as the same; see the violations below.) -/
theorem C92_equal_iff_partial {s base sub : Str} {ps : List (Str × Str)} (h : MediaText s base sub ps)
    {s' base' sub' : Str} {qs : List (Str × Str)} (h' : MediaText s' base' sub' qs) :
    ∃ m m', Mime.parse s = .ok m ∧ Mime.parse s' = .ok m' ∧
      (m = m' ↔ sameName base base' = true ∧ sameName sub sub' = true ∧ saysUtf8 ps = saysUtf8 qs ∧
        SameParams (distinct ps) (distinct qs)) := by
  refine ⟨_, _, C24_parse_text h, C24_parse_text h', ?_⟩
  obtain ⟨a1, a2, a3⟩ := mediaText_names h
  obtain ⟨b1, b2, b3⟩ := mediaText_names h'
  have hd : ∀ (ps : List (Str × Str)), ∀ e ∈ distinct ps, e ∈ ps := fun ps e he => List.mem_of_mem_filter (mem_go he)
  rw [params_low a3, params_low b3, sameName_iff, sameName_iff,
    sameParams_iff (fun e he => a3 e (hd _ e he)) (fun e he => b3 e (hd _ e he))]
  simp only [Mime.mk.injEq, a1, a2, b1, b2, true_and]
  show _ ∧ _ ∧ _ ∧ saysUtf8 ps = saysUtf8 qs ∧ _ ↔ _
  constructor
  · rintro ⟨-, x1, x2, x3, x4⟩; exact ⟨x1, x2, x3, x4⟩
  · rintro ⟨x1, x2, x3, x4⟩; exact ⟨by rw [x1, x2], x1, x2, x3, x4⟩

example : MediaText s!!"Text/HTML" s!!"Text" s!!"HTML" [] ∧ MediaText s!!"text/html" s!!"text" s!!"html" [] ∧
    sameName s!!"Text" s!!"text" = true ∧ Mime.parse s!!"Text/HTML" = Mime.parse s!!"text/html" :=
  ⟨⟨[], [], _, fun _ h => (nomatch h), fun _ h => (nomatch h), token_of (by decide) (by decide), token_of (by decide) (by decide), .nil, rfl⟩,
    ⟨[], [], _, fun _ h => (nomatch h), fun _ h => (nomatch h), token_of (by decide) (by decide), token_of (by decide) (by decide), .nil, rfl⟩,
    by decide, by decide +kernel⟩

/-- C92: a media type has one value however it is spelled: case of type, subtype and parameter names, white space, and
tokens against quoted strings make no difference. -/
theorem C92_spelling {s base sub : Str} {ps : List (Str × Str)} (h : MediaText s base sub ps)
    {s' base' sub' : Str} {qs : List (Str × Str)} (h' : MediaText s' base' sub' qs)
    (hb : sameName base base' = true) (hs : sameName sub sub' = true) (hp : SameParams ps qs) :
    ∃ m, Mime.parse s = .ok m ∧ Mime.parse s' = .ok m := by
  refine ⟨_, C24_parse_text h, ?_⟩
  rw [C24_parse_text h']
  have e1 := ((sameName_iff _ _).mp hb).2.2
  have e2 := ((sameName_iff _ _).mp hs).2.2
  have e3 := (sameParams_iff (mediaText_names h).2.2 (mediaText_names h').2.2).mp hp
  have e4 : hasUtf8 ps = hasUtf8 qs := by
    have hl := (mediaText_names h).2.2
    have hl' := (mediaText_names h').2.2
    have : ∀ l : List (Str × Str), (∀ e ∈ l, isAscii e.1 = true) →
        hasUtf8 l = (l.map fun e => (lower e.1, e.2)).any fun e => e.1 == s!!"charset" && e.2 == s!!"utf-8" := by
      intro l hl
      unfold hasUtf8
      rw [List.any_map]
      induction l with
      | nil => rfl
      | cons p l ih =>
        rw [List.any_cons, List.any_cons, ih fun e he => hl e (by simp [he])]
        congr 1
        rw [Bool.eq_iff_iff]
        simp only [Function.comp_apply, Bool.and_eq_true, beq_iff_eq]
        rw [sameName_low (hl p (by simp)) (by decide)]
    rw [this _ hl, this _ hl', e3]
  rw [e1, e2, e3, e4]

theorem httpWs_space : HttpWs s!!" " := by intro c hc; simp at hc; exact .inl hc
theorem httpWs_nil : HttpWs [] := by intro c hc; cases hc

/-- Three of the four spellings of RFC 7231. -/
example : ∃ m, Mime.parse s!!"text/html;charset=utf-8" = .ok m ∧ Mime.parse s!!"Text/HTML;Charset=\"utf-8\"" = .ok m ∧
    Mime.parse s!!"text/html; charset=\"utf-8\"" = .ok m := ⟨Mime.HTML, by decide +kernel, by decide +kernel, by decide +kernel⟩

/-- The hypotheses of `C92_spelling` for two of them. -/
example : MediaText s!!"text/html; charset=\"utf-8\"" s!!"text" s!!"html" [(s!!"charset", s!!"utf-8")] ∧
    MediaText s!!"Text/HTML;Charset=utf-8" s!!"Text" s!!"HTML" [(s!!"Charset", s!!"utf-8")] ∧
    SameParams [(s!!"charset", s!!"utf-8")] [(s!!"Charset", s!!"utf-8")] := by
  refine ⟨⟨[], [], _, httpWs_nil, httpWs_nil, token_of (by decide) (by decide), token_of (by decide) (by decide),
    ParamsText.cons (w1 := s!!" ") (n := s!!"charset") (raw := s!!"\"utf-8\"") (v := s!!"utf-8") (w2 := []) httpWs_space
      token_charset (.inr ⟨s!!"utf-8", rfl, ?_, ?_⟩) httpWs_nil .nil, rfl⟩,
    ⟨[], [], _, httpWs_nil, httpWs_nil, token_of (by decide) (by decide), token_of (by decide) (by decide),
    ParamsText.cons (w1 := []) (n := s!!"Charset") (raw := s!!"utf-8") (v := s!!"utf-8") (w2 := []) httpWs_nil
      (token_of (by decide) (by decide)) (.inl ⟨rfl, token_utf8⟩) httpWs_nil .nil, rfl⟩,
    List.Forall₂.cons ⟨by decide, rfl⟩ .nil⟩
  · exact .plain (by decide) (by decide) (.plain (by decide) (by decide) (.plain (by decide) (by decide)
      (.plain (by decide) (by decide) (.plain (by decide) (by decide) .nil))))
  · intro c hc; simp at hc; rcases hc with rfl | rfl | rfl | rfl | rfl <;> (right; decide)

/-- C92: media types that were parsed are equal exactly when they print the same text. -/
theorem C92_text {s s' : Str} {m m' : Mime} (h : Mime.parse s = .ok m) (h' : Mime.parse s' = .ok m') :
    m = m' ↔ m.display = m'.display := by
  refine ⟨fun e => by rw [e], fun e => ?_⟩
  have h1 := C22_round_trip h
  rw [e, C22_round_trip h'] at h1
  exact (Res.ok.inj h1).symm

example : Mime.parse s!!"TEXT/html" = .ok ⟨s!!"text/html", s!!"text", s!!"html", false, []⟩ := by decide +kernel

/-- Violated: the fourth spelling of RFC 7231, with `UTF-8` in capitals, is another value, and neither matches the other's
`charset`. -/
theorem C92_violated_charset : ∃ m m', Mime.parse s!!"text/html;charset=utf-8" = .ok m ∧
    Mime.parse s!!"text/html;charset=UTF-8" = .ok m' ∧
    SameMedia s!!"text" s!!"html" [(s!!"charset", s!!"utf-8")] s!!"text" s!!"html" [(s!!"charset", s!!"UTF-8")] ∧
    m ≠ m' ∧ m.subsetEq m' = false :=
  ⟨Mime.HTML, ⟨s!!"text/html", s!!"text", s!!"html", false, [(s!!"charset", s!!"UTF-8")]⟩, by decide +kernel,
    by decide +kernel, ⟨by decide, by decide, fun n => by
      simp only [firstValue, List.find?]
      cases h : sameName s!!"charset" n with
      | false => trivial
      | true =>
        refine .inr ⟨?_, by decide⟩
        rw [sameName_iff] at h ⊢
        exact ⟨h.2.1, h.1, h.2.2.symm⟩⟩, by decide, by decide⟩

/-- Violated: the order of parameters makes a difference. -/
theorem C92_violated_order : ∃ m m', Mime.parse s!!"a/b;x=1;y=2" = .ok m ∧ Mime.parse s!!"a/b;y=2;x=1" = .ok m' ∧
    SameMedia s!!"a" s!!"b" [(s!!"x", s!!"1"), (s!!"y", s!!"2")] s!!"a" s!!"b" [(s!!"y", s!!"2"), (s!!"x", s!!"1")] ∧
    m ≠ m' ∧ m.subsetEq m' = true ∧ m'.subsetEq m = true :=
  ⟨⟨s!!"a/b", s!!"a", s!!"b", false, [(s!!"x", s!!"1"), (s!!"y", s!!"2")]⟩,
    ⟨s!!"a/b", s!!"a", s!!"b", false, [(s!!"y", s!!"2"), (s!!"x", s!!"1")]⟩, by decide +kernel, by decide +kernel,
    ⟨by decide, by decide, fun n => by
      have : ¬ (sameName s!!"x" n = true ∧ sameName s!!"y" n = true) := by
        rw [sameName_iff, sameName_iff]
        rintro ⟨⟨-, -, h1⟩, -, -, h2⟩
        rw [← h1] at h2
        exact absurd h2 (by decide)
      simp only [firstValue, List.find?]
      cases h1 : sameName s!!"x" n <;> cases h2 : sameName s!!"y" n <;> simp [h1, h2] at this ⊢⟩,
    by decide, by decide, by decide⟩

end HT
