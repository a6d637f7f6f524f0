import Verif.Spec.WrittenPrefs
import Verif.Props.Written
import Verif.Props.Chain
import Verif.Props.AcceptTrip
import Verif.Props.Whatwg
import Verif.Props.Codings

/-!
C109: what preferences and codings write is read by others as what was put in.
-/

namespace HT
open Spec

/-! ### commas outside of quoted strings -/

/-- A text in which commas are in quoted strings only. -/
inductive Bal : Str → Prop where
  | nil : Bal []
  | plain {c s} : c ≠ '"' → c ≠ ',' → Bal s → Bal (c :: s)
  | quoted {e v s} : Escaped e v → Bal s → Bal ('"' :: (e ++ '"' :: s))

theorem bal_append {a b : Str} (ha : Bal a) (hb : Bal b) : Bal (a ++ b) := by
  induction ha with
  | nil => exact hb
  | plain h1 h2 _ ih => exact .plain h1 h2 ih
  | quoted he _ ih => simpa using Bal.quoted he ih

theorem bal_plain {a : Str} (h : ∀ c ∈ a, c ≠ '"' ∧ c ≠ ',') : Bal a := by
  induction a with
  | nil => exact .nil
  | cons c a ih =>
    have := h c List.mem_cons_self
    exact .plain this.1 this.2 (ih fun d hd => h d (List.mem_cons_of_mem _ hd))

/-- Such a text ends where the first comma outside of a quoted string is. -/
theorem bal_cut {t : Str} (h : Bal t) : ∀ {t' r r' : Str}, Bal t' → EndsAt r → EndsAt r' → t ++ r = t' ++ r' → t = t' := by
  have start : ∀ {t' r r' : Str}, Bal t' → EndsAt r → r = t' ++ r' → t' = [] := by
    intro t' r r' h' hr he
    cases h' with
    | nil => rfl
    | plain h1 h2 _ => exact absurd (hr _ (by rw [he]; rfl)) h2
    | quoted _ _ => exact absurd (hr '"' (by rw [he]; rfl)) (by decide)
  induction h with
  | nil =>
    intro t' r r' h' hr hr' he
    exact (start h' hr he).symm
  | @plain c s h1 h2 h3 ih =>
    intro t' r r' h' hr hr' he
    cases h' with
    | nil => exact absurd (hr' c (by rw [← show c :: (s ++ r) = r' from he]; rfl)) h2
    | plain h1' h2' h3' =>
      obtain ⟨e1, e2⟩ := List.cons.inj he
      rw [e1, ih h3' hr hr' e2]
    | quoted _ _ => exact absurd (List.cons.inj he).1 h1
  | @quoted e v s h1 h2 ih =>
    intro t' r r' h' hr hr' he
    cases h' with
    | nil => exact absurd (hr' '"' (by rw [← show '"' :: ((e ++ '"' :: s) ++ r) = r' from he]; rfl)) (by decide)
    | plain h1' h2' h3' => exact absurd (List.cons.inj he).1.symm h1'
    | @quoted e' v' s' h1' h2' =>
      have he' : e ++ '"' :: (s ++ r) = e' ++ '"' :: (s' ++ r') := by simpa using he
      obtain ⟨rfl, -, e3⟩ := Forwarded.escaped_unique h1 h1' he'
      rw [ih h2' hr hr' e3]

theorem bal_pieces {ps ps' : List Str} (h : ∀ p ∈ ps, Bal p) (h' : ∀ p ∈ ps', Bal p) (hn : ps ≠ []) (hn' : ps' ≠ [])
    (he : join [','] ps = join [','] ps') : ps = ps' := by
  induction ps generalizing ps' with
  | nil => exact absurd rfl hn
  | cons p ps ih =>
    cases ps' with
    | nil => exact absurd rfl hn'
    | cons p' ps' =>
      obtain ⟨r, h1, h2, h3⟩ := join_comma p ps
      obtain ⟨r', h1', h2', h3'⟩ := join_comma p' ps'
      rw [h2, h2'] at he
      obtain rfl := bal_cut (h p List.mem_cons_self) (h' p' List.mem_cons_self) h1 h1' he
      have hr := List.append_cancel_left he
      congr 1
      rcases h3 with ⟨rfl, rfl⟩ | ⟨a, rfl⟩ <;> rcases h3' with ⟨rfl, rfl⟩ | ⟨a', rfl⟩
      · rfl
      · cases hr
      · cases hr
      · exact ih (fun q hq => h q (List.mem_cons_of_mem _ hq)) (fun q hq => h' q (List.mem_cons_of_mem _ hq)) a a'
          (List.cons.inj hr).2

/-- Elements that stand alone: commas in quoted strings only and no white space around. -/
structure Alone {α : Type} (P : Str → α → Prop) : Prop where
  bal : ∀ t x, P t x → Bal t
  trimmed : ∀ t x, P t x → t ≠ [] ∧ Trimmed t
  one : ∀ t x x', P t x → P t x' → x = x'

theorem listed_alone {α : Type} {P : Str → α → Prop} (hP : Alone P) {v : Str} {ms ms' : List (Option α)}
    (h : Listed P [v] ms) (h' : Listed P [v] ms') : ms = ms' := by
  obtain ⟨ps, hn, rfl, hf⟩ := listed_value h
  obtain ⟨ps', hn', he, hf'⟩ := listed_value h'
  have bal : ∀ {ps : List Str} {ms : List (Option α)}, List.Forall₂ (Element P) ps ms → ∀ p ∈ ps, Bal p := by
    intro ps ms hf p hp
    obtain ⟨m, -, a, t, b, ha, hb, rfl, ht⟩ := forall₂_imp_mem hf p hp
    have ows : ∀ {a : Str}, Ows a → Bal a := fun ha => bal_plain fun c hc => by rcases ha c hc with rfl | rfl <;> decide
    refine bal_append (ows ha) (bal_append ?_ (ows hb))
    cases m with
    | none => rw [show t = [] from ht]; exact .nil
    | some x => exact hP.bal t x ht
  obtain rfl := bal_pieces (bal hf) (bal hf') hn hn' he
  clear hn hn' he h h'
  induction hf generalizing ms' with
  | nil => cases hf'; rfl
  | @cons p m ps ms hm _ ih =>
    cases hf' with
    | @cons _ m' _ ms' hm' hf' =>
      rw [ih hf']
      congr 1
      obtain ⟨a, t, b, ha, hb, he, ht⟩ := hm
      obtain ⟨a', t', b', ha', hb', he', ht'⟩ := hm'
      have tr : ∀ {a t b : Str} {m : Option α}, Ows a → Ows b → p = a ++ (t ++ b) → (match m with | none => t = [] | some x => P t x) →
          trim p = t := by
        intro a t b m ha hb he ht
        rw [he, ← List.append_assoc]
        refine trim_surround (ows_ws ha) (ows_ws hb) ?_
        cases m with
        | none => rw [show t = [] from ht]; exact ⟨by simp, by simp⟩
        | some x => exact (hP.trimmed t x ht).2
      have htt : t = t' := (tr ha hb he ht).symm.trans (tr ha' hb' he' ht')
      subst htt
      cases m with
      | none =>
        cases m' with
        | none => rfl
        | some x => exact absurd ht (hP.trimmed t x ht').1
      | some x =>
        cases m' with
        | none => exact absurd ht' (hP.trimmed t x ht).1
        | some x' => rw [hP.one t x x' ht ht']

theorem anyListed_only {α : Type} {P : Str → α → Prop} (hP : Alone P) {ts : List Str} {xs : List α}
    (h : List.Forall₂ P ts xs) : OnlyAs (AnyListed P (join s!!", " ts)) xs := by
  have hl : ∃ ms, Listed P [join s!!", " ts] ms ∧ xs = ms.filterMap id := by
    by_cases hn : ts = []
    · subst hn
      cases h
      exact ⟨[none], ⟨[[[]]], by simp, by simp [join], by simpa using ⟨[], [], [], by simp [Ows], by simp [Ows], rfl, rfl⟩⟩, rfl⟩
    · exact ⟨_, listed_join h hn, (filterMap_some _).symm⟩
  obtain ⟨ms, h1, rfl⟩ := hl
  intro ys
  constructor
  · rintro ⟨ms', h2, rfl⟩
    rw [listed_alone hP h2 h1]
  · rintro rfl
    exact ⟨ms, h1, rfl⟩

/-! ### weights -/

theorem qvalue_one {t : Str} {k k' : Nat} (h : QValue t k) (h' : QValue t k') : k = k' := by
  cases h with
  | zero => cases h'; rfl
  | one => cases h'; rfl
  | zeroPoint _ _ => cases h'; rfl
  | onePoint _ _ => cases h'; rfl

theorem weightText_table : ∀ k < 1000, weightText k = '0' :: '.' :: (weightText k).drop 2 ∧
    ((weightText k).drop 2).all (fun c => decide ('0' ≤ c ∧ c ≤ '9')) = true ∧ ((weightText k).drop 2).length = 3 ∧
    decValue ((weightText k).drop 2) = k := by decide +kernel

theorem qvalue_weightText {k : Nat} (hk : k ≤ 1000) : QValue (weightText k) k := by
  by_cases h : k = 1000
  · subst h
    rw [show weightText 1000 = '1' :: '.' :: s!!"000" by decide +kernel]
    exact .onePoint (by decide) (by decide)
  · obtain ⟨h1, h2, h3, h4⟩ := weightText_table k (by omega)
    rw [h1]
    have := QValue.zeroPoint (ds := (weightText k).drop 2)
      (fun c hc => by simpa using List.all_eq_true.mp h2 c hc) (by omega)
    rw [h3, h4] at this
    simpa using this

theorem qvalue_bal {t : Str} {k : Nat} (h : QValue t k) : Bal t :=
  bal_plain fun c hc => by
    refine ⟨?_, ?_⟩ <;> rintro rfl <;> exact qvalue_not_mem h (by decide) hc

/-- A weight is written as the nearest number of thousandths. -/
theorem weight_written {w : Fl} (h : UnitWeight w) : ∃ k, WeightOf w k ∧ w.fmt3 f32Format = weightText k := by
  obtain ⟨m, hm, rfl⟩ := h
  refine ⟨roundDiv (m * 1000) (2 ^ 149), ⟨m, rfl, roundDiv_le (by decide) (Nat.mul_le_mul_right _ hm), ?_⟩, fmt3_eq m⟩
  have := roundDiv_error (a := m * 1000) (b := 2 ^ 149) (by decide)
  exact this

/-! ### codings -/

theorem pref_one {t : Str} {x x' : Str × Option Nat} (h : PrefText t x) (h' : PrefText t x') : x = x' := by
  obtain ⟨n, k⟩ := x
  obtain ⟨n', k'⟩ := x'
  obtain ⟨p, h⟩ := h
  obtain ⟨p', h'⟩ := h'
  simp only at h h'
  have semi : ∀ {n : Str}, Token n → ';' ∉ n := fun hn => Mime.token_not_mem hn (by decide)
  cases h with
  | bare hn =>
    cases h' with
    | bare hn' => rfl
    | weighted hn' _ _ _ _ => exact absurd (by simp) (semi hn)
  | @weighted _ a b c t k hn ha hb hc ht =>
    generalize he : n ++ (a ++ ';' :: (b ++ c :: '=' :: t)) = s at h'
    cases h' with
    | bare hn' => exact absurd (by rw [← he]; simp) (semi hn')
    | @weighted _ a' b' c' t' k' hn' ha' hb' hc' ht' =>
      have owsNo : ∀ {a : Str}, Ows a → ';' ∉ a ∧ '=' ∉ a := fun h => ⟨ows_not_mem h (by decide) (by decide), ows_not_mem h (by decide) (by decide)⟩
      have he1 : (n ++ a) ++ ';' :: (b ++ c :: '=' :: t) = (n' ++ a') ++ ';' :: (b' ++ c' :: '=' :: t') := by simpa using he
      obtain ⟨e1, e2⟩ := cut_inj (by simp [semi hn, (owsNo ha).1]) (by simp [semi hn', (owsNo ha').1]) he1
      have he2 : (b ++ [c]) ++ '=' :: t = (b' ++ [c']) ++ '=' :: t' := by simpa using e2
      have cne : ∀ {c : Char}, c = 'q' ∨ c = 'Q' → c ≠ '=' := by rintro c (rfl | rfl) <;> decide
      obtain ⟨-, e3⟩ := cut_inj (by simp [(owsNo hb).2, (cne hc).symm]) (by simp [(owsNo hb').2, (cne hc').symm]) he2
      subst e3
      have e4 : n = n' := by
        have tr : ∀ {n a : Str}, Token n → Ows a → trim (n ++ a) = n := by
          intro n a hn ha
          have := trim_surround (w := []) (by simp) (ows_ws ha) (trimmed_of_forall fun c hc => (tchar_not (hn.2 c hc)).1)
          simpa using this
        rw [← tr hn ha, e1, tr hn' ha']
      rw [e4, qvalue_one ht ht']

theorem token_bal {n : Str} (h : Token n) : Bal n :=
  bal_plain fun c hc => by
    refine ⟨?_, ?_⟩ <;> rintro rfl
    · exact Mime.token_not_mem h (c := '"') (by decide) hc
    · exact Mime.token_not_mem h (c := ',') (by decide) hc

theorem ows_bal {a : Str} (h : Ows a) : Bal a := bal_plain fun c hc => by rcases h c hc with rfl | rfl <;> decide

theorem alone_pref : Alone PrefText := by
  refine ⟨?_, ?_, fun t x x' => pref_one⟩
  · rintro t ⟨n, k⟩ ⟨p, h⟩
    simp only at h
    cases h with
    | bare hn => exact token_bal hn
    | weighted hn ha hb hc ht =>
      refine bal_append (token_bal hn) (bal_append (ows_bal ha) (.plain (by decide) (by decide) (bal_append (ows_bal hb)
        (.plain ?_ ?_ (.plain (by decide) (by decide) (qvalue_bal ht)))))) <;> rcases hc with rfl | rfl <;> decide
  · rintro t ⟨n, k⟩ ⟨p, h⟩
    exact ⟨(pref_text h).2.2, (pref_text h).2.1⟩

theorem pref_display {α : Type} {text : α → Str} {table : List (Str × α)} (ht : ∀ x, (text x, x) ∈ table ∧ Token (text x))
    (p : Proposal α) (hp : WeightOk p) : ∃ x, SamePref table p x ∧ PrefText (p.display text) x := by
  obtain ⟨item, w⟩ := p
  cases w with
  | none => exact ⟨(text item, none), ⟨(ht item).1, rfl⟩, true, .bare (ht item).2⟩
  | some w =>
    obtain ⟨k, h1, h2⟩ := weight_written (hp w rfl)
    refine ⟨(text item, some k), ⟨(ht item).1, k, rfl, h1⟩, true, ?_⟩
    have := Pref.weighted (a := []) (b := []) (c := 'q') (ht item).2 ows_nil ows_nil (.inl rfl)
      (qvalue_weightText h1.choose_spec.2.1)
    show Pref (text item ++ s!!";q=" ++ w.fmt3 f32Format) _ _ _
    rw [h2]
    simpa using this

theorem accept_value {α : Type} (text : α → Str) (a : AcceptList α) (h : ∀ p ∈ a.entries, p.display text ≠ []) :
    AcceptList.value text a =
      .ok (join s!!", " (a.entries.map (Proposal.display text) ++ if a.wildcard then [s!!"*"] else [])) := by
  unfold AcceptList.value
  rw [writeStar_eq]
  · rfl
  · rintro ⟨h1, -⟩
    cases he : a.entries with
    | nil => rw [he] at h1; cases h1
    | cons p ps =>
      rw [he] at h1
      exact h p (by rw [he]; simp) (List.cons.inj h1).1

theorem prefs_only {α : Type} {text : α → Str} {table : List (Str × α)} (ht : ∀ x, (text x, x) ∈ table ∧ Token (text x))
    (a : AcceptList α) (hp : ∀ p ∈ a.entries, WeightOk p) (v : HeaderValue) (hv : AcceptList.value text a = .ok v) :
    ∃ xs, List.Forall₂ (SamePref table) a.entries xs ∧
      OnlyAs (AnyListed PrefText v) (xs ++ if a.wildcard then [(s!!"*", none)] else []) := by
  obtain ⟨xs, hxs⟩ := forall₂_exists fun p h => pref_display ht p (hp p h)
  refine ⟨xs, hxs.imp fun _ _ h => h.1, ?_⟩
  rw [accept_value _ _ fun p hm => by
    obtain ⟨x, -, h⟩ := pref_display ht p (hp p hm)
    exact (alone_pref.trimmed _ _ h).1] at hv
  cases hv
  refine anyListed_only alone_pref (List.rel_append ?_ ?_)
  · rw [List.forall₂_map_left_iff]
    exact hxs.imp fun _ _ h => h.2
  · split
    · exact .cons ⟨true, .bare (Mime.token_of (by decide) (by decide))⟩ .nil
    · exact .nil

/-- C109: others read what `Accept-Encoding` and `TE` write as the codings that were put in, in order, each with its weight
to the nearest thousandth, and an asterisk last for the wildcard; and as nothing else. -/
theorem C109_codings :
    (∀ (a : AcceptList Encoding) (v : HeaderValue), (∀ p ∈ a.entries, WeightOk p) → AcceptEncoding.value a = .ok v →
      ∃ xs, List.Forall₂ (SamePref contentCodings) a.entries xs ∧
        OnlyAs (AnyListed PrefText v) (xs ++ if a.wildcard then [(s!!"*", none)] else [])) ∧
    ∀ (a : AcceptList TEncoding) (v : HeaderValue), (∀ p ∈ a.entries, WeightOk p) → TE.value a = .ok v →
      ∃ xs, List.Forall₂ (SamePref transferCodings) a.entries xs ∧
        OnlyAs (AnyListed PrefText v) (xs ++ if a.wildcard then [(s!!"*", none)] else []) := by
  refine ⟨fun a v hp hv => prefs_only ?_ a hp v hv, fun a v hp hv => prefs_only ?_ a hp v hv⟩
  · intro x
    cases x <;> exact ⟨by simp [contentCodings, Encoding.display], Mime.token_of (by decide) (by decide)⟩
  · intro x
    cases x <;> exact ⟨by simp [transferCodings, TEncoding.display], Mime.token_of (by decide) (by decide)⟩

example : AcceptEncoding.value ⟨true, [⟨.gzip, some (.fin false (2 ^ 148))⟩, ⟨.brotli, none⟩]⟩ = .ok s!!"gzip;q=0.500, br, *" := by
  decide +kernel

/-! ### media types -/

theorem httpWs_bal {a : Str} (h : HttpWs a) : Bal a :=
  bal_plain fun c hc => by rcases h c hc with rfl | rfl | rfl | rfl <;> decide

theorem valueText_bal {raw v : Str} (h : ValueText raw v) : Bal raw := by
  rcases h with ⟨rfl, h⟩ | ⟨e, rfl, h, -⟩
  · exact token_bal h
  · exact .quoted h .nil

theorem paramsText_bal {s : Str} {ps : List (Str × Str)} (h : ParamsText s ps) : Bal s := by
  induction h with
  | nil => exact .nil
  | cons h1 h2 h3 h4 _ ih =>
    exact .plain (by decide) (by decide) (bal_append (httpWs_bal h1) (bal_append (token_bal h2)
      (.plain (by decide) (by decide) (bal_append (valueText_bal h3) (bal_append (httpWs_bal h4) ih)))))

theorem mediaText_bal {s base sub : Str} {ps : List (Str × Str)} (h : MediaText s base sub ps) : Bal s := by
  obtain ⟨w1, w2, pt, h1, h2, h3, h4, h5, rfl⟩ := h
  exact bal_append (httpWs_bal h1) (bal_append (token_bal h3) (.plain (by decide) (by decide)
    (bal_append (token_bal h4) (bal_append (httpWs_bal h2) (paramsText_bal h5)))))

theorem mediaPref_text {s base sub : Str} {ps : List (Str × Str)} {k : Nat} (h : MediaPref s base sub ps k) :
    MediaText s base sub ps := by
  cases h <;> assumption

/-- The weight, from the parameters with names in lower case. -/
theorem firstValue_lower {ps : List (Str × Str)} (h : ∀ e ∈ ps, isAscii e.1 = true) :
    firstValue ps s!!"q" = ((ps.map fun e => (lower e.1, e.2)).find? fun e => e.1 = s!!"q").map (·.2) := by
  unfold firstValue
  induction ps with
  | nil => rfl
  | cons e ps ih =>
    rw [List.map_cons, List.find?_cons, List.find?_cons]
    have he := sameName_low (h e List.mem_cons_self) (show isAscii s!!"q" = true ∧ lower s!!"q" = s!!"q" by decide)
    by_cases hq : lower e.1 = s!!"q"
    · simp [he.mpr hq, hq]
    · have : sameName e.1 s!!"q" = false := by
        rw [Bool.eq_false_iff]
        exact fun h => hq (he.mp h)
      simp only [this, hq, decide_false]
      exact ih fun e he => h e (List.mem_cons_of_mem _ he)

theorem alone_range : Alone RangeText := by
  refine ⟨?_, ?_, ?_⟩
  · rintro t r ⟨-, -, base, sub, ps, h, -⟩
    exact mediaText_bal (mediaPref_text h)
  · rintro t r ⟨h1, h2, base, sub, ps, h, -⟩
    refine ⟨?_, h1, h2⟩
    rintro rfl
    obtain ⟨w1, w2, pt, -, -, -, -, -, he⟩ := mediaPref_text h
    simp at he
  · rintro t ⟨b, s, q, k⟩ ⟨b', s', q', k'⟩ ⟨-, -, base, sub, ps, h, h1, h2, h3⟩ ⟨-, -, base', sub', ps', h', h1', h2', h3'⟩
    simp only at h h' h1 h2 h3 h1' h2' h3'
    have hp := (parts_text (mediaPref_text h)).1.symm.trans (parts_text (mediaPref_text h')).1
    simp only [Option.some.injEq, Prod.mk.injEq] at hp
    obtain ⟨e1, e2, e3⟩ := hp
    have hv : firstValue ps s!!"q" = firstValue ps' s!!"q" := by
      rw [firstValue_lower (mediaText_names (mediaPref_text h)).2.2,
        firstValue_lower (mediaText_names (mediaPref_text h')).2.2, e3]
    have hk : k = k' := by
      cases h with
      | bare _ hn =>
        cases h' with
        | bare _ _ => rfl
        | weighted _ hn' _ => rw [hv, hn'] at hn; cases hn
      | weighted _ hn ht =>
        cases h' with
        | bare _ hn' => rw [hv, hn'] at hn; cases hn
        | weighted _ hn' ht' =>
          rw [hv, hn'] at hn
          cases hn
          exact qvalue_one ht ht'
    rw [h1, h2, h3, h1', h2', h3', e1, e2, e3, hk]

theorem paramsText_append {s t : Str} {ps qs : List (Str × Str)} (h : ParamsText s ps) (h' : ParamsText t qs) :
    ParamsText (s ++ t) (ps ++ qs) := by
  induction h with
  | nil => exact h'
  | cons h1 h2 h3 h4 _ ih => simpa using ParamsText.cons h1 h2 h3 h4 ih

/-- A media type with a weight after it. -/
theorem weighted_text {m : Mime} (h : MimeWF m) {k : Nat} (hk : k ≤ 1000) :
    MediaText (m.display ++ s!!";q=" ++ weightText k) m.basetype m.subtype (allParams m ++ [(s!!"q", weightText k)]) := by
  obtain ⟨w1, w2, pt, h1, h2, h3, h4, h5, he⟩ := display_text h
  have w : HttpWs [] := by intro c hc; cases hc
  obtain ⟨g1, g2⟩ := weightText_token k (by omega)
  have hq := ParamsText.cons (w1 := []) (w2 := []) w (n := s!!"q") q_token.1
    (.inl ⟨rfl, g2, fun c hc => (Mime.isToken_iff _).mp (List.all_eq_true.mp g1 c hc)⟩) w (ps := []) .nil
  refine ⟨w1, w2, _, h1, h2, h3, h4, paramsText_append h5 hq, ?_⟩
  rw [he]
  simp

theorem weighted_trimmed {m : Mime} (h : MimeWF m) {k : Nat} (hk : k ≤ 1000) :
    Trimmed (m.display ++ s!!";q=" ++ weightText k) := by
  obtain ⟨h1, h2⟩ := weightText_last k (by omega) m.display
  refine ⟨?_, by rw [h1]; exact h2⟩
  intro c hc
  refine (display_trimmed h).1.1 c ?_
  cases hd : m.display with
  | nil => have := (display_trimmed h).2; rw [hd] at this; cases this
  | cons x xs => rw [hd] at hc; simpa using hc

theorem allParams_names {m : Mime} (h : MimeWF m) : ∀ e ∈ allParams m, isAscii e.1 = true :=
  (mediaText_names (display_text h)).2.2

theorem allParams_find {m : Mime} (hq : ∀ e ∈ m.params, e.1 ≠ s!!"q") : ∀ e ∈ allParams m, e.1 ≠ s!!"q" := by
  intro e he
  unfold allParams at he
  rcases List.mem_append.mp he with he | he
  · split at he
    · rw [List.mem_singleton.mp he]; decide
    · cases he
  · exact hq e he

theorem sameName_q {m : Mime} (h : MimeWF m) {e : Str × Str} (he : e ∈ allParams m) : sameName e.1 s!!"q" = decide (e.1 = s!!"q") := by
  have h1 := sameName_low (allParams_names h e he) (show isAscii s!!"q" = true ∧ lower s!!"q" = s!!"q" by decide)
  have h2 : lower e.1 = e.1 := by
    have h3 := allParams_lower h
    have h4 : (allParams m).map (fun e => (lower e.1, e.2)) = (allParams m).map id := by rw [h3, List.map_id]
    have := List.map_inj_left.mp h4 e he
    exact congrArg Prod.fst this
  rw [h2] at h1
  by_cases hq : e.1 = s!!"q"
  · rw [h1.mpr hq, decide_eq_true hq]
  · rw [decide_eq_false hq, Bool.eq_false_iff]
    exact fun h => hq (h1.mp h)

/-- What others read of one media type. -/
theorem range_display (p : Proposal Mime) (hp : WeightOk p) (h : MimeWF p.item) (hq : ∀ e ∈ p.item.params, e.1 ≠ s!!"q") :
    ∃ r, SameRange p r ∧ RangeText (p.display Mime.display) r := by
  obtain ⟨m, w⟩ := p
  simp only at h hq
  have hb := Mime.lower_of_noUpper h.base.2
  have hs := Mime.lower_of_noUpper h.sub.2
  have hown : (allParams m).filter (fun e => !sameName e.1 s!!"q") = allParams m := by
    rw [List.filter_eq_self]
    intro e he
    rw [sameName_q h he, decide_eq_false (allParams_find hq e he)]
    rfl
  have hnone : (allParams m).find? (fun e => sameName e.1 s!!"q") = none := by
    rw [List.find?_eq_none]
    intro e he
    rw [sameName_q h he, decide_eq_false (allParams_find hq e he)]
    decide
  cases w with
  | none =>
    refine ⟨⟨m.basetype, m.subtype, allParams m, 1000⟩, ⟨rfl, rfl, hown, rfl⟩, (display_trimmed h).1.1, (display_trimmed h).1.2,
      m.basetype, m.subtype, allParams m, .bare (display_text h) ?_, hb.symm, hs.symm, (allParams_lower h).symm⟩
    unfold firstValue
    rw [hnone]
    rfl
  | some w =>
    obtain ⟨k, h1, h2⟩ := weight_written (hp w rfl)
    have hk := h1.choose_spec.2.1
    have hd : (⟨m, some w⟩ : Proposal Mime).display Mime.display = m.display ++ s!!";q=" ++ weightText k := by
      rw [← h2]; rfl
    rw [hd]
    refine ⟨⟨m.basetype, m.subtype, allParams m ++ [(s!!"q", weightText k)], k⟩, ⟨rfl, rfl, ?_, h1⟩, (weighted_trimmed h hk).1,
      (weighted_trimmed h hk).2, m.basetype, m.subtype, allParams m ++ [(s!!"q", weightText k)],
      .weighted (weighted_text h hk) ?_ (qvalue_weightText hk), hb.symm, hs.symm, ?_⟩
    · unfold MediaRange.own
      rw [List.filter_append, hown]
      simp [allParams, show sameName s!!"q" s!!"q" = true by decide]
    · unfold firstValue
      rw [List.find?_append, hnone]
      simp [show sameName s!!"q" s!!"q" = true by decide]
    · rw [List.map_append, allParams_lower h]
      rfl

/-- C109 for `Accept`: without wildcard, and if no media type has a parameter `q` of its own, others read the media types
that were put in, in order, with all parameters, each with its weight to the nearest thousandth, and nothing else. Partial:
with the wildcard nothing can be read, and a parameter `q` is read as the weight. -/
theorem C109_accept_partial (a : AcceptList Mime) (v : HeaderValue) (hp : ∀ p ∈ a.entries, WeightOk p)
    (hm : ∀ p ∈ a.entries, MimeWF p.item ∧ ∀ e ∈ p.item.params, e.1 ≠ s!!"q") (hw : a.wildcard = false)
    (hv : Accept.value a = .ok v) :
    ∃ rs, List.Forall₂ SameRange a.entries rs ∧ OnlyAs (AnyListed RangeText v) rs := by
  obtain ⟨rs, hrs⟩ := forall₂_exists fun p h => range_display p (hp p h) (hm p h).1 (hm p h).2
  refine ⟨rs, hrs.imp fun _ _ h => h.1, ?_⟩
  unfold Accept.value at hv
  rw [accept_value _ _ fun p h => by
    obtain ⟨r, -, hr⟩ := range_display p (hp p h) (hm p h).1 (hm p h).2
    exact (alone_range.trimmed _ _ hr).1, hw] at hv
  cases hv
  rw [if_neg (by decide), List.append_nil]
  refine anyListed_only alone_range ?_
  rw [List.forall₂_map_left_iff]
  exact hrs.imp fun _ _ h => h.2

example : Accept.value ⟨false, [⟨⟨s!!"a/b", s!!"a", s!!"b", true, [(s!!"x", s!!"1,2")]⟩, some (.fin false (2 ^ 148))⟩,
    ⟨⟨s!!"c/d", s!!"c", s!!"d", false, []⟩, none⟩]⟩ = .ok s!!"a/b;charset=utf-8;x=\"1,2\";q=0.500, c/d" := by
  decide +kernel

theorem alone_range_star : Alone (OrStar RangeText) := by
  have hs : ∀ {x : MediaRange}, ¬ RangeText s!!"*" x := by
    rintro x ⟨-, -, base, sub, ps, h, -⟩
    obtain ⟨w1, w2, pt, -, -, -, -, -, he⟩ := mediaPref_text h
    have : '/' ∈ s!!"*" := by rw [he]; simp
    revert this; decide
  refine ⟨?_, ?_, ?_⟩
  · intro t x h
    cases x with
    | none => rw [show t = s!!"*" from h]; exact bal_plain (by decide)
    | some x => exact alone_range.bal t x h
  · intro t x h
    cases x with
    | none => rw [show t = s!!"*" from h]; exact ⟨by decide, by decide, by decide⟩
    | some x => exact alone_range.trimmed t x h
  · intro t x x' h h'
    cases x with
    | none =>
      cases x' with
      | none => rfl
      | some x' => rw [show t = s!!"*" from h] at h'; exact absurd h' hs
    | some x =>
      cases x' with
      | none => rw [show t = s!!"*" from h'] at h; exact absurd h hs
      | some x' => rw [alone_range.one t x x' h h']

/-- C109 is violated by the wildcard of `Accept`: it is written `*`, which is not a media range, so others cannot read the
value at all. -/
theorem C109_violated_accept_star (a : AcceptList Mime) (v : HeaderValue) (hp : ∀ p ∈ a.entries, WeightOk p)
    (hm : ∀ p ∈ a.entries, MimeWF p.item ∧ ∀ e ∈ p.item.params, e.1 ≠ s!!"q") (hw : a.wildcard = true)
    (hv : Accept.value a = .ok v) (rs : List MediaRange) : ¬ AnyListed RangeText v rs := by
  obtain ⟨rs', hrs⟩ := forall₂_exists fun p h => range_display p (hp p h) (hm p h).1 (hm p h).2
  unfold Accept.value at hv
  rw [accept_value _ _ fun p h => by
    obtain ⟨r, -, hr⟩ := range_display p (hp p h) (hm p h).1 (hm p h).2
    exact (alone_range.trimmed _ _ hr).1, hw] at hv
  cases hv
  rw [if_pos rfl]
  have hf : List.Forall₂ (OrStar RangeText) (a.entries.map (Proposal.display Mime.display) ++ [s!!"*"]) (rs'.map some ++ [none]) := by
    refine List.rel_append (R := OrStar RangeText) ?_ (.cons rfl .nil)
    rw [List.forall₂_map_right_iff, List.forall₂_map_left_iff]
    exact hrs.imp fun _ _ h => h.2
  have hl := listed_join hf (by simp)
  rintro ⟨ms, h1, -⟩
  have hl' : Listed (OrStar RangeText) [join s!!", " (a.entries.map (Proposal.display Mime.display) ++ [s!!"*"])]
      (ms.map (Option.map some)) := by
    obtain ⟨pss, g1, g2, g3⟩ := h1
    refine ⟨pss, g1, g2, ?_⟩
    rw [List.forall₂_map_right_iff]
    refine g3.imp ?_
    rintro p m ⟨x, t, b, hx, hb, rfl, hm⟩
    refine ⟨x, t, b, hx, hb, rfl, ?_⟩
    cases m <;> exact hm
  have := listed_alone alone_range_star hl' hl
  have hmem : some none ∈ ms.map (Option.map some) := by rw [this]; simp
  obtain ⟨m, -, hm⟩ := List.mem_map.mp hmem
  cases m <;> simp at hm

example : Accept.value ⟨true, [⟨⟨s!!"a/b", s!!"a", s!!"b", false, []⟩, none⟩]⟩ = .ok s!!"a/b, *" := by decide +kernel

/-- C109 is violated by media types with a parameter `q` of their own: others take it for the weight, whatever weight was
put in. -/
theorem C109_violated_q (m : Mime) (w : Option Fl) (t : Str) (k : Nat) (v : HeaderValue) (hm : MimeWF m) (hp : WeightOk ⟨m, w⟩)
    (hq : (s!!"q", t) ∈ m.params) (ht : QValue t k) (hv : Accept.value ⟨false, [⟨m, w⟩]⟩ = .ok v) :
    ∃ r : MediaRange, r.weight = k ∧ OnlyAs (AnyListed RangeText v) [r] := by
  have hb := Mime.lower_of_noUpper hm.base.2
  have hs := Mime.lower_of_noUpper hm.sub.2
  have hfind : (allParams m).find? (fun e => sameName e.1 s!!"q") = some (s!!"q", t) := by
    have hmem : (s!!"q", t) ∈ allParams m := List.mem_append_right _ hq
    cases hf : (allParams m).find? (fun e => sameName e.1 s!!"q") with
    | none => exact absurd (show sameName s!!"q" s!!"q" = true by decide) (List.find?_eq_none.mp hf _ hmem)
    | some e =>
      have h1 := List.find?_some hf
      have h2 := List.mem_of_find?_eq_some hf
      simp only [sameName_q hm h2, decide_eq_true_eq] at h1
      congr 1
      have h3 : e ∈ m.params := by
        unfold allParams at h2
        rcases List.mem_append.mp h2 with h2 | h2
        · split at h2
          · rw [List.mem_singleton.mp h2] at h1; exact absurd h1 (by decide)
          · cases h2
        · exact h2
      exact List.inj_on_of_nodup_map hm.nodup h3 hq h1
  have key : ∃ r : MediaRange, r.weight = k ∧ RangeText ((⟨m, w⟩ : Proposal Mime).display Mime.display) r := by
    cases w with
    | none =>
      refine ⟨⟨m.basetype, m.subtype, allParams m, k⟩, rfl, (display_trimmed hm).1.1, (display_trimmed hm).1.2,
        m.basetype, m.subtype, allParams m, .weighted (display_text hm) ?_ ht, hb.symm, hs.symm, (allParams_lower hm).symm⟩
      unfold firstValue
      rw [hfind]
      rfl
    | some w =>
      obtain ⟨j, h1, h2⟩ := weight_written (hp w rfl)
      have hj := h1.choose_spec.2.1
      have hd : (⟨m, some w⟩ : Proposal Mime).display Mime.display = m.display ++ s!!";q=" ++ weightText j := by
        rw [← h2]; rfl
      rw [hd]
      refine ⟨⟨m.basetype, m.subtype, allParams m ++ [(s!!"q", weightText j)], k⟩, rfl, (weighted_trimmed hm hj).1,
        (weighted_trimmed hm hj).2, m.basetype, m.subtype, allParams m ++ [(s!!"q", weightText j)],
        .weighted (weighted_text hm hj) ?_ ht, hb.symm, hs.symm, ?_⟩
      · unfold firstValue
        rw [List.find?_append, hfind]
        rfl
      · rw [List.map_append, allParams_lower hm]
        rfl
  obtain ⟨r, hr, hR⟩ := key
  refine ⟨r, hr, ?_⟩
  unfold Accept.value at hv
  rw [accept_value _ _ fun p h => by
    rw [List.mem_singleton.mp h]
    exact (alone_range.trimmed _ _ hR).1] at hv
  cases hv
  exact anyListed_only alone_range (.cons hR .nil)

example : Accept.value ⟨false, [⟨⟨s!!"a/b", s!!"a", s!!"b", false, [(s!!"q", s!!"0")]⟩, some (.fin false (2 ^ 149))⟩]⟩ =
    .ok s!!"a/b;q=0;q=1.000" ∧ QValue s!!"0" 0 := ⟨by decide +kernel, .zero⟩

/-! ### one coding -/

theorem coding_only {α : Type} {table : List (Str × α)} {n : Str} {e : α} (hn : Token n) (h : ∀ e', (codingName n, e') ∈ table ↔ e' = e) :
    OnlyAs (ReadCoding table n) e := by
  have one : Alone CodingText := by
    refine ⟨fun t x h => token_bal h.1, fun t x h => ⟨h.1.1, trimmed_of_forall fun c hc => (tchar_not (h.1.2 c hc)).1⟩, ?_⟩
    rintro t x x' ⟨-, rfl⟩ ⟨-, rfl⟩
    rfl
  intro e'
  constructor
  · rintro ⟨ms, h1, n', h2, h3⟩
    cases h1 with
    | cons h1 h4 =>
      cases h4
      rw [listed_alone one h1 (coding_one hn)] at h2
      cases h2
      exact (h e').mp h3
  · rintro rfl
    exact ⟨[[some n]], .cons (coding_one hn) .nil, n, rfl, (h e').mpr rfl⟩

/-- C109: others read what `Content-Encoding` and `Transfer-Encoding` write as the coding that was put in. -/
theorem C109_coding : (∀ e : Encoding, OnlyAs (ReadCoding contentCodings e.display) e) ∧
    ∀ e : TEncoding, OnlyAs (ReadCoding transferCodings e.display) e := by
  constructor
  · intro e
    refine coding_only ?_ ?_
    · cases e <;> exact Mime.token_of (by decide) (by decide)
    · cases e <;> intro e' <;> cases e' <;> decide
  · intro e
    refine coding_only ?_ ?_
    · cases e <;> exact Mime.token_of (by decide) (by decide)
    · cases e <;> intro e' <;> cases e' <;> decide

example : Encoding.display .brotli = s!!"br" ∧ TEncoding.display .chunked = s!!"chunked" := ⟨rfl, rfl⟩

end HT
