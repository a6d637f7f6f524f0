import Verif.Props.ServerTiming

/-! Writing Server-Timing: C57. -/

namespace HT
open Spec

namespace Metric

/-- The parameters a metric is written with. -/
def piecesOf (f : Duration → Str) (m : Metric) : List Str :=
  (m.dur.toList.map fun d => s!!" dur=" ++ f d) ++ (m.desc.toList.map fun t => s!!" desc=\"" ++ t ++ s!!"\"")

def pieces (m : Metric) : List Str := piecesOf millis m

theorem textOf_eq (f : Duration → Str) (m : Metric) : textOf f m = join s!!";" (m.name :: piecesOf f m) := by
  obtain ⟨n, d, t⟩ := m
  cases d <;> cases t <;> simp [textOf, piecesOf, join]

theorem piecesOf_cons (f : Duration → Str) (m : Metric) {d : Duration} (hd : m.dur = some d) :
    piecesOf f m = (s!!" dur=" ++ f d) :: m.desc.toList.map fun t => s!!" desc=\"" ++ t ++ s!!"\"" := by
  simp [piecesOf, hd]

theorem text_eq (m : Metric) : text m = join s!!";" (m.name :: m.pieces) := textOf_eq millis m

theorem millis_spec (d : Duration) (hs : d.secs < 2 ^ 64) (hn : d.nanos < 1000000000) :
    Fl.parse f64Format (millis d) = some (.fin false d.millisMag) ∧
      ∀ c ∈ millis d, isDigit c = true ∨ c = '.' := by
  obtain ⟨h1, h2⟩ := Duration.millisMag_lt d hs hn
  exact Fl.parse_display (F := f64Format) (m := d.millisMag) (by decide) h1 h2

theorem digit_dot {c : Char} (h : isDigit c = true ∨ c = '.') :
    isWs c = false ∧ c ≠ ',' ∧ c ≠ ';' ∧ c ≠ '=' ∧ isAsciiC c = true := by
  rcases h with h | rfl
  · have hd : 48 ≤ c.toNat ∧ c.toNat ≤ 57 := by simpa [isDigit] using h
    refine ⟨isWs_of_isDigit h, ?_, ?_, ?_, ?_⟩
    all_goals first | (rintro rfl; revert hd; decide) | (simp [isAsciiC]; omega)
  · decide

theorem parse_nil : Fl.parse f64Format [] = none := by decide

/-- The characters of what is written for a duration. -/
def DurText (v : Str) : Prop := v ≠ [] ∧ ∀ c ∈ v, isDigit c = true ∨ c = '.'

theorem durText_of {v : Str} {x : Fl} (h : Fl.parse f64Format v = some x) (hc : ∀ c ∈ v, isDigit c = true ∨ c = '.') :
    DurText v := by
  refine ⟨?_, hc⟩
  rintro rfl
  rw [parse_nil] at h
  cases h

theorem durText_millis (d : Duration) (hs : d.secs < 2 ^ 64) (hn : d.nanos < 1000000000) : DurText (millis d) :=
  durText_of (millis_spec d hs hn).1 (millis_spec d hs hn).2

theorem shape_dur {v : Str} (h1 : '=' ∉ v) (h2 : ∀ c, v.head? = some c → isWs c = false) :
    Shape (s!!" dur=" ++ v) s!!"dur" v :=
  ⟨s!!" ", [], [], [], by simp, by decide, by simp, by simp, by decide, h1, .inl rfl, by decide, by decide, h2⟩

theorem shape_desc {v : Str} (h1 : '=' ∉ v) (h2 : ∀ c, v.head? = some c → isWs c = false) :
    Shape (s!!" desc=" ++ v) s!!"desc" v :=
  ⟨s!!" ", [], [], [], by simp, by decide, by simp, by simp, by decide, h1, .inl rfl, by decide, by decide, h2⟩

theorem paramOf_durText {v : Str} {x : Fl} (h1 : Fl.parse f64Format v = some x)
    (h2 : ∀ c ∈ v, isDigit c = true ∨ c = '.') :
    paramOf (s!!" dur=" ++ v) = (Duration.fromSecsF64 x).bind fun d => .ok (.dur (d.divU32 1000)) := by
  rw [paramOf_shape (shape_dur (fun h => (digit_dot (h2 _ h)).2.2.2.1 rfl)
    (fun c hc => (digit_dot (h2 c (List.mem_of_mem_head? hc))).1)), if_pos rfl, h1]
  rfl

theorem bind_map_dur (r : Res Duration) (k : Nat) :
    (r.bind fun d => .ok (Said.dur (d.divU32 k))) = (r.map fun d => d.divU32 k).map Said.dur := by
  cases r <;> rfl

theorem paramOf_dur (d : Duration) (hs : d.secs < 2 ^ 64) (hn : d.nanos < 1000000000) :
    paramOf (s!!" dur=" ++ millis d) = d.back.map .dur :=
  (paramOf_durText (millis_spec d hs hn).1 (millis_spec d hs hn).2).trans (bind_map_dur _ 1000)

theorem paramOf_desc (t : Str) (h : '=' ∉ t) : paramOf (s!!" desc=\"" ++ t ++ s!!"\"") = .ok (.desc t) := by
  have : s!!" desc=\"" ++ t ++ s!!"\"" = s!!" desc=" ++ (s!!"\"" ++ t ++ s!!"\"") := by simp
  rw [this, (paramOf_iff _).1]
  refine ⟨s!!"desc", _, shape_desc (by simp [h]) (by simp; decide), .inr (.inl ⟨rfl, t, rfl, .inl rfl⟩)⟩

theorem textOf_trimmed (f : Duration → Str) (m : Metric) (hf : ∀ d, m.dur = some d → DurText (f d))
    (hn : Trimmed m.name) : Trimmed (textOf f m) := by
  obtain ⟨n, d, t⟩ := m
  obtain ⟨hn1, hn2⟩ := hn
  have hhead : ∀ x : Str, x ≠ [] → (∀ c, x.head? = some c → isWs c = false) →
      ∀ c, (n ++ x).head? = some c → isWs c = false := by
    intro x hx h c hc
    cases n with
    | nil => exact h c hc
    | cons a n => exact hn1 c (by simpa using hc)
  cases d with
  | none =>
    cases t with
    | none => exact ⟨hn1, hn2⟩
    | some t =>
      simp only [textOf]
      refine ⟨?_, ?_⟩
      · rw [List.append_assoc, List.append_assoc]
        exact hhead _ (by simp) (by simp; decide)
      · intro c hc
        rw [List.getLast?_append] at hc
        simp at hc
        subst hc
        decide
  | some d =>
    obtain ⟨hne, hd⟩ := hf d rfl
    cases t with
    | none =>
      simp only [textOf]
      refine ⟨?_, ?_⟩
      · rw [List.append_assoc]
        exact hhead _ (by simp) (by simp; decide)
      · intro c hc
        rw [List.getLast?_append_of_ne_nil _ hne] at hc
        exact (digit_dot (hd c (List.mem_of_getLast? hc))).1
    | some t =>
      simp only [textOf]
      refine ⟨?_, ?_⟩
      · simp only [List.append_assoc]
        exact hhead _ (by simp) (by simp; decide)
      · intro c hc
        rw [List.getLast?_append] at hc
        simp at hc
        subst hc
        decide

theorem text_trimmed (m : Metric) (hok : MetricOk m) (hn : Trimmed m.name) : Trimmed m.text :=
  textOf_trimmed millis m (fun d hd => durText_millis d (hok.2.2 d hd).1 (hok.2.2 d hd).2) hn

theorem textOf_ascii (f : Duration → Str) (n : Str) (d : Option Duration) (t : Option Str)
    (hf : ∀ d', d = some d' → DurText (f d')) (hn : isAscii n = true) (ht : ∀ t', t = some t' → isAscii t' = true) :
    isAscii (textOf f ⟨n, d, t⟩) = true := by
  have hd : ∀ d', d = some d' → isAscii (f d') = true := by
    intro d' he
    unfold isAscii
    rw [List.all_eq_true]
    exact fun c hc => (digit_dot ((hf d' he).2 c hc)).2.2.2.2
  cases d with
  | none =>
    cases t with
    | none => exact hn
    | some t => simp only [textOf, isAscii_append, hn, ht t rfl]; rfl
  | some d =>
    cases t with
    | none => simp only [textOf, isAscii_append, hn, hd d rfl]; rfl
    | some t => simp only [textOf, isAscii_append, hn, hd d rfl, ht t rfl]; rfl

theorem text_ascii (m : Metric) (hok : MetricOk m) : isAscii m.text = true :=
  textOf_ascii millis m.name m.dur m.desc (fun d hd => durText_millis d (hok.2.2 d hd).1 (hok.2.2 d hd).2)
    (isAscii_iff.mpr hok.1) (fun t ht => isAscii_iff.mpr (hok.2.1 t ht))

theorem textOf_comma (f : Duration → Str) (m : Metric) (hf : ∀ d, m.dur = some d → DurText (f d)) :
    ',' ∉ textOf f m ↔ ',' ∉ m.name ∧ ∀ t, m.desc = some t → ',' ∉ t := by
  obtain ⟨n, d, t⟩ := m
  cases d with
  | none => cases t <;> simp [textOf]
  | some d =>
    have : ',' ∉ f d := fun h => (digit_dot ((hf d rfl).2 _ h)).2.1 rfl
    cases t <;> simp [textOf, this]

theorem text_comma (m : Metric) (hok : MetricOk m) :
    ',' ∉ m.text ↔ ',' ∉ m.name ∧ ∀ t, m.desc = some t → ',' ∉ t :=
  textOf_comma millis m (fun d hd => durText_millis d (hok.2.2 d hd).1 (hok.2.2 d hd).2)

theorem piecesOf_clean (f : Duration → Str) (m : Metric) (hf : ∀ d, m.dur = some d → DurText (f d))
    (ht : ∀ t, m.desc = some t → ';' ∉ t) : ∀ p ∈ piecesOf f m, ';' ∉ p := by
  intro p hp
  unfold piecesOf at hp
  rw [List.mem_append, List.mem_map, List.mem_map] at hp
  rcases hp with ⟨d, hd, rfl⟩ | ⟨t, hd, rfl⟩
  · have hd : m.dur = some d := by simpa using hd
    rw [List.mem_append, not_or]
    exact ⟨by decide, fun h => (digit_dot ((hf d hd).2 _ h)).2.2.1 rfl⟩
  · have hd : m.desc = some t := by simpa using hd
    simp only [List.mem_append, not_or]
    exact ⟨⟨by decide, ht t hd⟩, by decide⟩

theorem split_text (m : Metric) (hok : MetricOk m) (hn : ';' ∉ m.name) (ht : ∀ t, m.desc = some t → ';' ∉ t) :
    split ';' m.text = m.name :: m.pieces := by
  rw [text_eq, split_join (t := []) (by simp)]
  · simp only [List.nil_append, List.map_id']
  · intro p hp
    rcases List.mem_cons.mp hp with rfl | hp
    · exact hn
    · exact piecesOf_clean millis m (fun d hd => durText_millis d (hok.2.2 d hd).1 (hok.2.2 d hd).2) ht p hp

/-- What has to hold of a metric to be read back from its own text. -/
def Fine (m : Metric) : Prop :=
  ';' ∉ m.name ∧ Trimmed m.name ∧ (∀ t, m.desc = some t → ';' ∉ t ∧ '=' ∉ t) ∧ ∀ d, m.dur = some d → d.back = .ok d

theorem mapM_two {α β : Type} (f : α → Res β) (a b : List α) (xs ys : List β)
    (h1 : Res.mapM f a = .ok xs) (h2 : Res.mapM f b = .ok ys) : Res.mapM f (a ++ b) = .ok (xs ++ ys) := by
  rw [mapM_append, h1, h2]; rfl

theorem entry_iff (m : Metric) (hok : MetricOk m) : EntryText (trim m.text) m ↔ m.Fine := by
  constructor
  · rintro ⟨n, ps, ss, hs, hf, h1, h2, h3⟩
    have hnm : ';' ∉ n := not_mem_of_mem_split (s := trim m.text) (by rw [hs]; simp)
    obtain ⟨w, hw, hww⟩ := trimEnd_prefix n
    have hname : ';' ∉ m.name := by
      rw [h1]
      intro h
      apply hnm
      rw [hw]
      simp [h]
    have htn : Trimmed m.name := by
      refine ⟨fun c hc => ?_, fun c hc => ?_⟩
      · rw [h1] at hc
        have hcn : n.head? = some c := by
          rw [hw]
          cases he : trimEnd n with
          | nil => rw [he] at hc; cases hc
          | cons a l => rw [he] at hc; simpa using hc
        have : (trim m.text).head? = some c := by
          rw [← join_split ';' (trim m.text), hs]
          cases n with
          | nil => cases hcn
          | cons a n => cases ps <;> simpa [join] using hcn
        exact (trimmed_trim m.text).1 c this
      · rw [h1] at hc
        exact trimEnd_last c hc
    have hdesc : ∀ t, m.desc = some t → ';' ∉ t ∧ '=' ∉ t := by
      intro t ht
      rw [h3] at ht
      have hm : Said.desc t ∈ ss := by
        unfold lastDesc at ht
        have := List.mem_of_getLast? ht
        rw [List.mem_filterMap] at this
        obtain ⟨s, hs1, hs2⟩ := this
        cases s with
        | desc u => simp only [Option.some.injEq] at hs2; subst hs2; exact hs1
        | dur d => cases hs2
        | other => cases hs2
      obtain ⟨p, hp, k, v, ⟨w, w', w'', rest, he, -, -, -, -, hv, -⟩, hP⟩ := forall₂_left hf.flip _ hm
      have hsub : ∀ c ∈ t, c ∈ v := by
        intro c hc
        rcases hP with ⟨-, x, d, -, -, h⟩ | ⟨-, u, h, hu⟩ | ⟨-, -, h⟩
        · cases h
        · cases h
          rcases hu with rfl | ⟨rfl, -⟩
          · simp [hc]
          · exact hc
        · cases h
      have hps : ';' ∉ p := not_mem_of_mem_split (s := trim m.text) (by rw [hs]; simp [hp])
      refine ⟨fun h => hps ?_, fun h => hv (hsub _ h)⟩
      rw [he]
      simp [hsub _ h]
    refine ⟨hname, htn, hdesc, ?_⟩
    intro d hd
    rw [trim_of_trimmed (text_trimmed m hok htn), split_text m hok hname fun t ht => (hdesc t ht).1] at hs
    simp only [List.cons.injEq] at hs
    obtain ⟨rfl, rfl⟩ := hs
    obtain ⟨k1, k2⟩ := hok.2.2 d hd
    have hpc : ∃ tl, m.pieces = (s!!" dur=" ++ millis d) :: tl ∧ ∀ p ∈ tl, ∃ t, m.desc = some t ∧ p = s!!" desc=\"" ++ t ++ s!!"\"" := by
      refine ⟨m.desc.toList.map fun t => s!!" desc=\"" ++ t ++ s!!"\"", piecesOf_cons millis m hd, ?_⟩
      intro p hp
      rw [List.mem_map] at hp
      obtain ⟨t, ht, rfl⟩ := hp
      exact ⟨t, by simpa using ht, rfl⟩
    obtain ⟨tl, hpc, htl⟩ := hpc
    rw [hpc] at hf
    cases hf with
    | cons ha hb =>
      rename_i s ss
      rw [← (paramOf_iff _).1, paramOf_dur d k1 k2] at ha
      have hnd : (ss.filterMap fun s => match s with | .dur d => some d | _ => none) = [] := by
        rw [List.filterMap_eq_nil_iff]
        intro s hs
        obtain ⟨p, hp, hP⟩ := forall₂_left hb.flip s hs
        obtain ⟨t, ht, rfl⟩ := htl p hp
        have hP : TimingParam (s!!" desc=\"" ++ t ++ s!!"\"") s := hP
        rw [← (paramOf_iff _).1, paramOf_desc t (hdesc t ht).2] at hP
        cases hP
        rfl
      cases hb' : d.back with
      | ok d' =>
        rw [hb'] at ha
        cases ha
        rw [hd] at h2
        unfold lastDur at h2
        rw [List.filterMap_cons_some (by rfl)] at h2
        erw [hnd] at h2
        cases h2
        rfl
      | err e => rw [hb'] at ha; cases ha
      | panic => rw [hb'] at ha; cases ha
  · rintro ⟨h1, h2, h3, h4⟩
    rw [← (parseEntry_iff _).1]
    rw [parseEntry_eq m.text (n := m.name) (ps := m.pieces)]
    · rw [trimEnd_of_last h2.2]
      unfold pieces piecesOf
      obtain ⟨n, d, t⟩ := m
      simp only at *
      have ha : Res.mapM paramOf (d.toList.map fun d => s!!" dur=" ++ millis d) = .ok (d.toList.map .dur) := by
        cases d with
        | none => rfl
        | some d =>
          obtain ⟨k1, k2⟩ := hok.2.2 d rfl
          simp only [Option.toList_some, List.map_cons, List.map_nil, Res.mapM_cons, Res.mapM_nil]
          rw [paramOf_dur d k1 k2, h4 d rfl]
          rfl
      have hb : Res.mapM paramOf (t.toList.map fun t => s!!" desc=\"" ++ t ++ s!!"\"") = .ok (t.toList.map .desc) := by
        cases t with
        | none => rfl
        | some t =>
          simp only [Option.toList_some, List.map_cons, List.map_nil, Res.mapM_cons, Res.mapM_nil]
          rw [paramOf_desc t (h3 t rfl).2]
          rfl
      rw [mapM_two paramOf _ _ _ _ ha hb]
      cases d <;> cases t <;> rfl
    · rw [trim_of_trimmed (text_trimmed m hok h2)]
      exact split_text m hok h1 fun t ht => (h3 t ht).1

end Metric

theorem split_length (c : Char) (s : Str) : (split c s).length = s.count c + 1 := by
  induction s with
  | nil => rfl
  | cons a s ih =>
    unfold split
    by_cases h : a = c
    · subst h
      simp [ih]
    · rw [if_neg h, List.count_cons_of_ne h]
      cases hs : split c s with
      | nil => exact absurd hs (split_ne_nil _ _)
      | cons p ps => rw [hs] at ih; simpa using ih

theorem count_join (x : Str) (xs : List Str) :
    (join s!!", " (x :: xs)).count ',' = ((x :: xs).map (List.count ',')).sum + xs.length := by
  induction xs generalizing x with
  | nil => simp [join]
  | cons y ys ih =>
    rw [join, List.count_append, List.count_append, ih, List.map_cons (l := y :: ys), List.sum_cons]
    have : List.count ',' s!!", " = 1 := by decide
    rw [this, List.length_cons]
    omega

theorem le_sum {l : List Nat} {n : Nat} (h : n ∈ l) : n ≤ l.sum := by
  induction l with
  | nil => cases h
  | cons a l ih =>
    rw [List.sum_cons]
    rcases List.mem_cons.mp h with rfl | h
    · omega
    · have := ih h
      omega

/-- As many members as texts, when the texts have no commas. -/
theorem comma_free {texts : List Str} (hne : texts ≠ [])
    (h : (listItems [join s!!", " texts]).length = texts.length) : ∀ t ∈ texts, ',' ∉ t := by
  cases texts with
  | nil => exact absurd rfl hne
  | cons x xs =>
    unfold listItems at h
    rw [List.flatMap_cons, List.flatMap_nil, List.append_nil, List.length_map, split_length, count_join,
      List.length_cons] at h
    have h0 : ((x :: xs).map (List.count ',')).sum = 0 := by omega
    intro t ht hc
    have h1 : t.count ',' ∈ (x :: xs).map (List.count ',') := List.mem_map.mpr ⟨t, ht, rfl⟩
    have h2 := List.count_pos_iff.mpr hc
    have h3 := le_sum h1
    omega

theorem listItems_join_trim {texts : List Str} (hne : texts ≠ []) (hc : ∀ t ∈ texts, ',' ∉ t) :
    listItems [join s!!", " texts] = texts.map trim := by
  cases texts with
  | nil => exact absurd rfl hne
  | cons x xs =>
    unfold listItems
    rw [List.flatMap_cons, List.flatMap_nil, List.append_nil, split_join (by decide) hc]
    simp only [List.map_cons, List.map_map]
    congr 1

namespace ServerTiming

theorem roundtrip_back (ms : List Metric) (hok : ∀ m ∈ ms, MetricOk m) :
    RoundTrips s!!"server-timing" (value ms) fromHeaders ms ↔
      ms ≠ [] ∧ ∀ m ∈ ms, PlainMetric m ∧ ∀ d, m.dur = some d → d.back = .ok d := by
  have hval : value ms = .ok (join s!!", " (ms.map Metric.text)) := by
    unfold value
    rw [writeLoop_eq]
  have hasc : isAscii (join s!!", " (ms.map Metric.text)) = true := by
    apply isAscii_join (by decide)
    intro x hx
    rw [List.mem_map] at hx
    obtain ⟨m, hm, rfl⟩ := hx
    exact Metric.text_ascii m (hok m hm)
  have hread : ∀ h : Headers, h.get s!!"server-timing" = some [join s!!", " (ms.map Metric.text)] →
      (fromHeaders h = .ok (some ms) ↔ List.Forall₂ EntryText (listItems [join s!!", " (ms.map Metric.text)]) ms) :=
    fun h hg => (C57_reads_partial h _ hg).1 ms
  have hF : ∀ (l : List Metric), List.Forall₂ EntryText ((l.map Metric.text).map trim) l ↔
      ∀ m ∈ l, EntryText (trim m.text) m := by
    intro l
    induction l with
    | nil => simp
    | cons m l ih => simp only [List.map_cons, List.forall₂_cons, ih, List.forall_mem_cons]
  have hP : ∀ m ∈ ms, (PlainMetric m ∧ ∀ d, m.dur = some d → d.back = .ok d) ↔ m.Fine ∧ ',' ∉ m.text := by
    intro m hm
    rw [Metric.text_comma m (hok m hm)]
    unfold PlainMetric Metric.Fine Trimmed
    constructor
    · rintro ⟨⟨⟨h1, h2, h3, h4⟩, h5⟩, h6⟩
      exact ⟨⟨h2, ⟨h3, h4⟩, fun t ht => (h5 t ht).2, h6⟩, h1, fun t ht => (h5 t ht).1⟩
    · rintro ⟨⟨h2, ⟨h3, h4⟩, h5, h6⟩, h1, h7⟩
      exact ⟨⟨⟨h1, h2, h3, h4⟩, fun t ht => ⟨h7 t ht, h5 t ht⟩⟩, h6⟩
  constructor
  · intro h
    obtain ⟨h', v, h1, -, -, h4⟩ := h []
    rw [hval] at h1
    cases h1
    have h4 := (hread _ (get_set_self _ _ _)).mp h4
    have hne : ms ≠ [] := by
      rintro rfl
      simp only [List.map_nil, join, listItems_nil] at h4
      cases h4
    have hlen := h4.length_eq
    have hc := comma_free (texts := ms.map Metric.text) (by simpa using hne) (by simpa using hlen)
    rw [listItems_join_trim (by simpa using hne) hc, hF] at h4
    refine ⟨hne, fun m hm => (hP m hm).mpr ⟨(Metric.entry_iff m (hok m hm)).mp (h4 m hm), ?_⟩⟩
    exact hc _ (List.mem_map.mpr ⟨m, hm, rfl⟩)
  · rintro ⟨hne, h⟩
    refine roundTrips_of _ hval hasc fun h' hg => ?_
    rw [hread h' hg, listItems_join_trim (by simpa using hne), hF]
    · intro m hm
      exact (Metric.entry_iff m (hok m hm)).mpr ((hP m hm).mp (h m hm)).1
    · intro t ht
      rw [List.mem_map] at ht
      obtain ⟨m, hm, rfl⟩ := ht
      exact ((hP m hm).mp (h m hm)).2

theorem plain_a (d : Option Duration) : PlainMetric ⟨s!!"a", d, none⟩ := by
  refine ⟨⟨?_, ?_, ?_, ?_⟩, fun t h => by cases h⟩
  all_goals (simp only; decide)

theorem ascii_a : Ascii s!!"a" := by unfold Ascii; decide

theorem survives_iff (d : Duration) (hs : d.secs < 2 ^ 64) (hn : d.nanos < 1000000000) :
    Survives d ↔ d.back = .ok d := by
  unfold Survives
  rw [roundtrip_back]
  · constructor
    · exact fun h => (h.2 _ (List.mem_singleton.mpr rfl)).2 d rfl
    · intro h
      refine ⟨by simp, fun m hm => ?_⟩
      rw [List.mem_singleton] at hm
      subst hm
      exact ⟨plain_a (some d), fun d' he => by cases he; exact h⟩
  · intro m hm
    simp only [List.mem_singleton] at hm
    subst hm
    refine ⟨ServerTiming.ascii_a, by simp, ?_⟩
    intro d' he
    cases he
    exact ⟨hs, hn⟩

end ServerTiming

/-- C57 (making): a metric is made from any ASCII texts, and refused with status 500 otherwise. -/
theorem C57_new (n : Str) (d : Option Duration) (t : Option Str) :
    (∀ m, Metric.new n d t = .ok m ↔ m = ⟨n, d, t⟩ ∧ Ascii n ∧ ∀ u, t = some u → Ascii u) ∧
    ((∃ m, Metric.new n d t = .ok m) ∨ Metric.new n d t = .err 500) := by
  unfold Metric.new Ascii
  have hi : ∀ s : Str, (∀ c ∈ s, c.toNat < 128) ↔ isAscii s = true := fun s => isAscii_iff.symm
  rw [hi n]
  have ht : (∀ u, t = some u → ∀ c ∈ u, c.toNat < 128) ↔ ∀ u, t = some u → isAscii u = true :=
    forall_congr' fun u => forall_congr' fun _ => hi u
  rw [ht]
  by_cases hn : isAscii n = true
  · rw [if_pos hn]
    cases t with
    | none => exact ⟨fun m => by simp [hn, eq_comm (a := m)], .inl ⟨_, rfl⟩⟩
    | some u =>
      by_cases hu : isAscii u = true
      · exact ⟨fun m => by simp [hn, hu, eq_comm (a := m)], .inl ⟨_, by simp [hu]; rfl⟩⟩
      · simp [hn, hu]
  · rw [if_neg hn]
    simp [hn]

example : Metric.new s!!"db" (some ⟨1, 500000000⟩) (some s!!"Database") =
    .ok ⟨s!!"db", some ⟨1, 500000000⟩, some s!!"Database"⟩ := by decide
example : Metric.new s!!"é" none none = .err 500 := by decide

/-- C57 (round trip): exactly the non-empty lists whose texts avoid the separators and whose durations survive
come back. Missing: separators in descriptions, long durations and the empty list. -/
theorem C57_roundtrip_iff_partial (ms : List Metric) (hok : ∀ m ∈ ms, MetricOk m) :
    RoundTrips s!!"server-timing" (ServerTiming.value ms) ServerTiming.fromHeaders ms ↔
      ms ≠ [] ∧ ∀ m ∈ ms, PlainMetric m ∧ ∀ d, m.dur = some d → Survives d := by
  rw [ServerTiming.roundtrip_back ms hok]
  refine and_congr Iff.rfl ?_
  refine forall_congr' fun m => forall_congr' fun hm => and_congr Iff.rfl ?_
  refine forall_congr' fun d => forall_congr' fun hd => ?_
  obtain ⟨h1, h2⟩ := (hok m hm).2.2 d hd
  rw [ServerTiming.survives_iff d h1 h2]

example : ServerTiming.value [⟨s!!"db", none, some s!!"x"⟩, ⟨s!!"cache", none, none⟩] = .ok s!!"db; desc=\"x\", cache" := by
  decide +kernel

/-- C57 (durations): every duration below 4096 seconds survives to the nanosecond. Missing: longer ones, see
`C57_violated_duration`. -/
theorem C57_duration_partial (d : Duration) (hs : d.secs < 4096) (hn : d.nanos < 1000000000) : Survives d := by
  rw [ServerTiming.survives_iff d (by omega) hn]
  exact Duration.back_small d hs hn

example : Survives ⟨4095, 999999999⟩ := C57_duration_partial _ (by decide) (by decide)

/-- C57 (violated): 4096.12912903 s comes back a nanosecond short. -/
theorem C57_violated_duration : ¬ Survives ⟨4096, 129129030⟩ := by
  rw [ServerTiming.survives_iff _ (by decide) (by decide)]
  decide +kernel

/-- C57 (violated): what is written for a duration of 2^64 milliseconds or more panics the reader. -/
theorem C57_violated_huge (d : Duration) (hs : 18446744073709552 ≤ d.secs) (h64 : d.secs < 2 ^ 64)
    (hn : d.nanos < 1000000000) (h : Headers) :
    ∃ h', applyHeader h s!!"server-timing" (ServerTiming.value [⟨s!!"a", some d, none⟩]) = .ok h' ∧
      ServerTiming.fromHeaders h' = .panic := by
  refine ⟨_, rfl, ?_⟩
  have hm : MetricOk ⟨s!!"a", some d, none⟩ :=
    ⟨ServerTiming.ascii_a, by simp, fun d' he => by cases he; exact ⟨h64, hn⟩⟩
  have hmap : [Metric.mk s!!"a" (some d) none].map Metric.text = [Metric.text ⟨s!!"a", some d, none⟩] := rfl
  rw [ServerTiming.read_eq (get_set_self _ _ _), writeLoop_eq, hmap]
  have hc : ',' ∉ Metric.text ⟨s!!"a", some d, none⟩ := (Metric.text_comma _ hm).mpr ⟨show ',' ∉ s!!"a" by decide, by simp⟩
  rw [listItems_join_trim (by simp) (by simpa using hc)]
  simp only [List.map_cons, List.map_nil, Res.mapM_cons, Res.mapM_nil]
  rw [Metric.parseEntry_eq (n := s!!"a") (ps := [s!!" dur=" ++ Metric.millis d])]
  · simp only [Res.mapM_cons, Res.mapM_nil]
    rw [Metric.paramOf_dur d h64 hn, Duration.back_huge d hs hn]
    rfl
  · rw [trim_trim, trim_of_trimmed (Metric.text_trimmed _ hm (show Trimmed s!!"a" by decide)),
      Metric.split_text _ hm (show ';' ∉ s!!"a" by decide) (by simp)]
    rfl

example : (18446744073709552 : Nat) ≤ 18446744073709552 ∧ 18446744073709552 < 2 ^ 64 := by decide

/-- C57 (violated): separators in a description, the empty list, blanks after a value, and numbers that make
the reader panic. -/
theorem C57_violated_texts :
    (∀ c ∈ [',', ';', '='], ¬ RoundTrips s!!"server-timing" (ServerTiming.value [⟨s!!"a", none, some [c]⟩])
      ServerTiming.fromHeaders [⟨s!!"a", none, some [c]⟩]) ∧
    (∀ h, ∃ h', applyHeader h s!!"server-timing" (ServerTiming.value []) = .ok h' ∧
      ServerTiming.fromHeaders h' = .ok (some [⟨[], none, none⟩])) ∧
    ServerTiming.fromHeaders (oneHeader s!!"server-timing" s!!"a; dur=1000 ; desc=x") = .err 400 ∧
    ∀ v ∈ [s!!"-1", s!!"nan", s!!"inf", s!!"1e20"],
      ServerTiming.fromHeaders (oneHeader s!!"server-timing" (s!!"a; dur=" ++ v)) = .panic := by
  refine ⟨?_, ?_, by decide +kernel, by decide +kernel⟩
  · intro c hc h
    have hok : ∀ m ∈ [Metric.mk s!!"a" none (some [c])], MetricOk m := by
      intro m hm
      simp only [List.mem_singleton] at hm
      subst hm
      refine ⟨ServerTiming.ascii_a, ?_, by simp⟩
      intro t ht
      cases ht
      clear h
      unfold Ascii
      revert c
      decide
    have := ((C57_roundtrip_iff_partial _ hok).mp h).2 _ (List.mem_singleton.mpr rfl)
    have := this.1.2 _ rfl
    simp at hc
    rcases hc with rfl | rfl | rfl <;> simp at this
  · intro h
    refine ⟨_, rfl, ?_⟩
    rw [ServerTiming.read_eq (get_set_self _ _ _)]
    decide +kernel

end HT
