import Verif.Spec.Listed
import Verif.Props.Lists
import Verif.Props.Allow
import Verif.Props.Prefs
import Verif.Props.Split

/-!
C99: lists in the form of the standards are read with their meaning.
-/

namespace HT

open Spec

/-! ### elements -/

/-- What stands between the commas. -/
def Item {α : Type} (P : Str → α → Prop) (t : Str) : Option α → Prop
  | none => t = []
  | some x => P t x

theorem split_join_flat {ps : List Str} (h : ps ≠ []) : split ',' (join [','] ps) = ps.flatMap (split ',') := by
  induction ps with
  | nil => exact absurd rfl h
  | cons p ps ih =>
    cases ps with
    | nil => simp [join]
    | cons q ps =>
      have : join [','] (p :: q :: ps) = p ++ ',' :: join [','] (q :: ps) := by simp [join]
      rw [this, split_concat, ih (by simp)]
      rfl

theorem listed_parts {α : Type} {P : Str → α → Prop} {vs : List Str} {ms : List (Option α)} (h : Listed P vs ms) :
    ∃ ps, (vs.flatMap fun v => split ',' v) = ps.flatMap (split ',') ∧ List.Forall₂ (Element P) ps ms := by
  obtain ⟨pss, h1, rfl, h2⟩ := h
  refine ⟨pss.flatten, ?_, h2⟩
  clear h2
  induction pss with
  | nil => rfl
  | cons ps pss ih =>
    rw [List.map_cons, List.flatMap_cons, ih (fun q hq => h1 q (List.mem_cons_of_mem _ hq)),
      split_join_flat (h1 ps List.mem_cons_self), List.flatten_cons, List.flatMap_append]

theorem listItems_flat (vs : List Str) : listItems vs = (vs.flatMap fun v => split ',' v).map trim := by
  unfold listItems
  rw [List.map_flatMap]

/-- Splitting at commas finds the elements that contain none. -/
theorem listed_items {α : Type} {P : Str → α → Prop} {vs : List Str} {ms : List (Option α)} (h : Listed P vs ms)
    (hP : ∀ t x, some x ∈ ms → P t x → ',' ∉ t ∧ Trimmed t) : List.Forall₂ (Item P) (listItems vs) ms := by
  obtain ⟨ps, h1, h2⟩ := listed_parts h
  rw [listItems_flat, h1]
  clear h1 h
  induction h2 with
  | nil => exact .nil
  | @cons p m ps ms hp _ ih =>
    obtain ⟨a, t, b, ha, hb, rfl, ht⟩ := hp
    have hc : ',' ∉ t ∧ Trimmed t ∧ Item P t m := by
      cases m with
      | none => exact ⟨by rw [show t = [] from ht]; simp, by rw [show t = [] from ht]; decide, ht⟩
      | some x => obtain ⟨h3, h4⟩ := hP t x List.mem_cons_self ht; exact ⟨h3, h4, ht⟩
    have hn : ',' ∉ a ++ (t ++ b) := by
      simp only [List.mem_append, not_or]
      exact ⟨ows_not_mem ha (by decide) (by decide), hc.1, ows_not_mem hb (by decide) (by decide)⟩
    rw [List.flatMap_cons, split_of_not_mem hn, List.singleton_append, List.map_cons, ← List.append_assoc,
      trim_surround (ows_ws ha) (ows_ws hb) hc.2.1]
    exact .cons hc.2.2 (ih fun t x hx => hP t x (List.mem_cons_of_mem _ hx))

/-- An element with a comma is cut there. -/
theorem listed_cut {α : Type} {P : Str → α → Prop} {vs : List Str} {ms : List (Option α)} (h : Listed P vs ms)
    {x : α} (hx : some x ∈ ms) : ∃ a t b, Ows a ∧ Ows b ∧ P t x ∧
      ∀ q ∈ split ',' (a ++ (t ++ b)), trim q ∈ listItems vs := by
  obtain ⟨ps, h1, h2⟩ := listed_parts h
  rw [listItems_flat, h1]
  clear h1 h
  induction h2 with
  | nil => cases hx
  | @cons p m ps ms hp _ ih =>
    rcases List.mem_cons.mp hx with rfl | hx
    · obtain ⟨a, t, b, ha, hb, rfl, ht⟩ := hp
      refine ⟨a, t, b, ha, hb, ht, fun q hq => ?_⟩
      rw [List.flatMap_cons, List.map_append]
      exact List.mem_append_left _ (List.mem_map_of_mem hq)
    · obtain ⟨a, t, b, ha, hb, ht, hq⟩ := ih hx
      refine ⟨a, t, b, ha, hb, ht, fun q hm => ?_⟩
      rw [List.flatMap_cons, List.map_append]
      exact List.mem_append_right _ (hq q hm)

/-- The piece before the first comma of a quoted text has only the one quote. -/
theorem cut_quote {a b x y : Str} (ha : Ows a) (hx : '"' ∉ x) (hc : ',' ∉ x)
    (pre : Str) (hp : pre = [] ∨ pre = s!!"W/") :
    ∃ q ∈ split ',' (a ++ ((pre ++ '"' :: (x ++ ',' :: y)) ++ b)),
      (trim q).count '"' = 1 ∧ trim q ≠ s!!"*" := by
  have hpc : ',' ∉ pre ∧ pre.count '"' = 0 ∧ '*' ∉ pre := by rcases hp with rfl | rfl <;> decide
  refine ⟨a ++ (pre ++ '"' :: x), ?_, ?_, ?_⟩
  · have : a ++ ((pre ++ '"' :: (x ++ ',' :: y)) ++ b) = (a ++ (pre ++ '"' :: x)) ++ ',' :: (y ++ b) := by simp
    rw [this, split_append_sep]
    · exact List.mem_cons_self
    · simp only [List.mem_append, List.mem_cons, not_or]
      exact ⟨ows_not_mem ha (by decide) (by decide), hpc.1, by decide, hc⟩
  all_goals
    obtain ⟨w, w', h1, h2, h3⟩ := trim_spec (a ++ (pre ++ '"' :: x))
    have hcnt := congrArg (List.count '"') h1
    have hw : w.count '"' = 0 := List.count_eq_zero.mpr fun hm => by have := h2 _ hm; revert this; decide
    have hw' : w'.count '"' = 0 := List.count_eq_zero.mpr fun hm => by have := h3 _ hm; revert this; decide
    have ha' : a.count '"' = 0 := List.count_eq_zero.mpr (ows_not_mem ha (by decide) (by decide))
    have hx' : x.count '"' = 0 := List.count_eq_zero.mpr hx
    simp only [List.count_append, List.count_cons_self, ha', hpc.2.1, hx', hw, hw'] at hcnt
  · omega
  · intro hs
    rw [hs] at hcnt
    revert hcnt
    decide

/-! ### entity tags -/

theorem etagText_split (e : ETag) : ∃ pre, (pre = [] ∨ pre = s!!"W/") ∧ etagText e = pre ++ '"' :: (etagBody e ++ ['"']) := by
  cases e with
  | strong s => exact ⟨[], .inl rfl, rfl⟩
  | weak s => exact ⟨s!!"W/", .inr rfl, rfl⟩

theorem etagText_count {e : ETag} (h : EtagLegal e) : (etagText e).count '"' = 2 := by
  obtain ⟨pre, hp, he⟩ := etagText_split e
  have h0 : (etagBody e).count '"' = 0 := List.count_eq_zero.mpr fun hm => (h _ hm).2.1 rfl
  have h1 : pre.count '"' = 0 := by rcases hp with rfl | rfl <;> decide
  rw [he]
  simp [h0, h1]

theorem etagText_comma (e : ETag) : ',' ∈ etagText e ↔ ',' ∈ etagBody e := by
  cases e <;> simp [etagText, etagBody]

theorem items_some {α : Type} {P : Str → α → Prop} {ts : List Str} {ms : List (Option α)} (h : List.Forall₂ (Item P) ts ms)
    (hn : none ∉ ms) : List.Forall₂ P ts (ms.filterMap id) := by
  induction h with
  | nil => exact .nil
  | @cons t m ts ms ht _ ih =>
    cases m with
    | none => exact absurd List.mem_cons_self hn
    | some x => exact .cons ht (ih fun h => hn (List.mem_cons_of_mem _ h))

theorem items_none {α : Type} {P : Str → α → Prop} {ts : List Str} {ms : List (Option α)} (h : List.Forall₂ (Item P) ts ms)
    (hn : none ∈ ms) : [] ∈ ts := by
  induction h with
  | nil => cases hn
  | @cons t m ts ms ht _ ih =>
    rcases List.mem_cons.mp hn with rfl | hn
    · rw [show t = [] from ht]; exact List.mem_cons_self
    · exact List.mem_cons_of_mem _ (ih hn)

theorem forall₂_imp_mem {α β : Type} {R : α → β → Prop} {xs : List α} {ys : List β} (h : List.Forall₂ R xs ys) :
    ∀ x ∈ xs, ∃ y ∈ ys, R x y := by
  induction h with
  | nil => intro x hx; cases hx
  | @cons a b xs ys hr _ ih =>
    intro x hx
    rcases List.mem_cons.mp hx with rfl | hx
    · exact ⟨b, List.mem_cons_self, hr⟩
    · obtain ⟨y, hy, hxy⟩ := ih x hx
      exact ⟨y, List.mem_cons_of_mem _ hy, hxy⟩

/-- A list of entity tags, strong or weak, is read as these tags in order exactly if no tag contains a comma and no
element is empty; otherwise it is rejected with 400. If-Match and If-None-Match are alike. -/
theorem C99_tags_iff_partial (h : Headers) (vs : List Str) (ms : List (Option ETag)) (isNone : Bool)
    (hv : h.get (if isNone then s!!"if-none-match" else s!!"if-match") = some vs) (hl : Listed TagText vs ms) :
    let read := if isNone then IfMatch.noneFromHeaders h else IfMatch.fromHeaders h
    ((none ∉ ms ∧ ∀ e, some e ∈ ms → ',' ∉ etagBody e) → read = .ok (some ⟨ms.filterMap id, false⟩)) ∧
    (¬ (none ∉ ms ∧ ∀ e, some e ∈ ms → ',' ∉ etagBody e) → read = .err 400) := by
  intro read
  obtain ⟨hr1, hr2⟩ := C34_reads h vs isNone hv
  have good : (∀ e, some e ∈ ms → ',' ∉ etagBody e) → List.Forall₂ (Item TagText) (listItems vs) ms := fun hc =>
    listed_items hl fun t e he ht => ⟨by rw [ht.1, etagText_comma]; exact hc e he, by rw [ht.1]; exact etagText_trimmed e⟩
  have bad : ∀ t ∈ listItems vs, t ≠ s!!"*" → (∀ e, ¬ TagText t e) → read = .err 400 := by
    intro t ht hs hn
    rcases hr2 with ⟨l, hl⟩ | he
    · obtain ⟨-, hf⟩ := (hr1 l).mp hl
      obtain ⟨e, -, he⟩ := forall₂_imp_mem hf t (List.mem_filter.mpr ⟨ht, by simpa using hs⟩)
      exact absurd he (hn e)
    · exact he
  constructor
  · rintro ⟨hn, hc⟩
    have hf := items_some (good hc) hn
    have hstar : s!!"*" ∉ listItems vs := fun hm => by
      obtain ⟨e, -, he, -⟩ := forall₂_imp_mem hf _ hm
      exact etagText_ne_star e he.symm
    refine (hr1 _).mpr ⟨by simp [hstar], ?_⟩
    rw [List.filter_eq_self.mpr]
    · exact hf
    · intro t ht
      have : t ≠ s!!"*" := fun e => hstar (e ▸ ht)
      simpa using this
  · intro hno
    by_cases hc : ∀ e, some e ∈ ms → ',' ∉ etagBody e
    · have hn : none ∈ ms := by
        by_contra hn
        exact hno ⟨hn, hc⟩
      refine bad [] (items_none (good hc) hn) (by decide) fun e he => ?_
      obtain ⟨pre, -, hp⟩ := etagText_split e
      have := he.1.trans hp
      simp at this
    · push Not at hc
      obtain ⟨e, he, hm⟩ := hc
      obtain ⟨a, t, b, ha, hb, ht, hq⟩ := listed_cut hl he
      obtain ⟨pre, hp, hpt⟩ := etagText_split e
      obtain ⟨x, y, hxy⟩ := List.append_of_mem hm
      obtain ⟨x, y, hxy, hx⟩ : ∃ x y, etagBody e = x ++ ',' :: y ∧ ',' ∉ x := by
        cases hs : splitOnce ',' (etagBody e) with
        | none => exact absurd hm (splitOnce_eq_none.mp hs)
        | some p => exact ⟨p.1, p.2, (splitOnce_eq_some hs).1, (splitOnce_eq_some hs).2⟩
      have hxq : '"' ∉ x := fun h => (ht.2 '"' (by rw [hxy]; simp [h])).2.1 rfl
      obtain ⟨q, hqm, hq1, hq2⟩ := cut_quote (y := y ++ ['"']) (b := b) ha hxq hx pre hp
      have he : a ++ ((pre ++ '"' :: (x ++ ',' :: (y ++ ['"']))) ++ b) = a ++ (t ++ b) := by
        rw [ht.1, hpt, hxy]; simp
      rw [he] at hqm
      refine bad _ (hq q hqm) hq2 fun e' he' => ?_
      have := etagText_count he'.2
      rw [← he'.1, hq1] at this
      cases this

theorem listed_one {α : Type} {P : Str → α → Prop} {t : Str} {x : α} (h : P t x) : Listed P [t] [some x] :=
  ⟨[[t]], by simp, by simp [join], by simpa using ⟨[], t, [], by simp [Ows], by simp [Ows], by simp, h⟩⟩

theorem listed_trailing {α : Type} {P : Str → α → Prop} {t : Str} {x : α} (h : P t x) :
    Listed P [t ++ s!!","] [some x, none] :=
  ⟨[[t, []]], by simp, by simp [join],
    .cons ⟨[], t, [], by simp [Ows], by simp [Ows], by simp, h⟩ (.cons ⟨[], [], [], by simp [Ows], by simp [Ows], rfl, rfl⟩ .nil)⟩

example : Listed TagText [s!!"\"a\" ,\tW/\"b\"", s!!"\"\""] [some (.strong s!!"a"), some (.weak s!!"b"), some (.strong [])] := by
  refine ⟨[[s!!"\"a\" ", s!!"\tW/\"b\""], [s!!"\"\""]], by simp, by decide, ?_⟩
  exact .cons ⟨[], s!!"\"a\"", s!!" ", by simp [Ows], by simp [Ows], rfl, rfl, by unfold EtagLegal; decide⟩
    (.cons ⟨s!!"\t", s!!"W/\"b\"", [], by simp [Ows], by simp [Ows], rfl, rfl, by unfold EtagLegal; decide⟩
      (.cons ⟨[], s!!"\"\"", [], by simp [Ows], by simp [Ows], rfl, rfl, by unfold EtagLegal; decide⟩ .nil))

/-- Every entity tag with a comma is legal but cannot be sent in If-Match or If-None-Match. -/
theorem C99_violated_tag_comma {e : ETag} (hl : EtagLegal e) (hc : ',' ∈ etagBody e) (h : Headers) (isNone : Bool)
    (hv : h.get (if isNone then s!!"if-none-match" else s!!"if-match") = some [etagText e]) :
    Listed TagText [etagText e] [some e] ∧
    (if isNone then IfMatch.noneFromHeaders h else IfMatch.fromHeaders h) = .err 400 := by
  have hl := listed_one (P := TagText) ⟨rfl, hl⟩
  exact ⟨hl, (C99_tags_iff_partial h _ _ isNone hv hl).2 fun hn => hn.2 e (by simp) hc⟩

example : EtagLegal (.strong s!!"a,b") ∧ ',' ∈ etagBody (.strong s!!"a,b") := by unfold EtagLegal; decide

/-- An empty element, which the standard has recipients pass over, makes the whole list an error. -/
theorem C99_violated_tag_empty {e : ETag} (hl : EtagLegal e) (h : Headers) (isNone : Bool)
    (hv : h.get (if isNone then s!!"if-none-match" else s!!"if-match") = some [etagText e ++ s!!","]) :
    Listed TagText [etagText e ++ s!!","] [some e, none] ∧
    (if isNone then IfMatch.noneFromHeaders h else IfMatch.fromHeaders h) = .err 400 := by
  have hl := listed_trailing (P := TagText) ⟨rfl, hl⟩
  exact ⟨hl, (C99_tags_iff_partial h _ _ isNone hv hl).2 fun hn => hn.1 (by simp)⟩

example : EtagLegal (.weak s!!"a") := by unfold EtagLegal; decide

/-! ### field names -/

theorem token_no_comma {t : Str} (h : Token t) : ',' ∉ t ∧ Trimmed t :=
  ⟨fun hm => (tchar_not (h.2 _ hm)).2.2.1 rfl, trimmed_of_forall fun c hc => (tchar_not (h.2 c hc)).1⟩

theorem mem_join_comma {c : Char} {ps : List Str} (h : c ∈ join [','] ps) : c = ',' ∨ ∃ p ∈ ps, c ∈ p := by
  induction ps with
  | nil => cases h
  | cons p ps ih =>
    cases ps with
    | nil => exact .inr ⟨p, by simp, by simpa [join] using h⟩
    | cons q ps =>
      have h : c ∈ p ++ ',' :: join [','] (q :: ps) := by simpa [join] using h
      rcases List.mem_append.mp h with h | h
      · exact .inr ⟨p, by simp, h⟩
      · rcases List.mem_cons.mp h with h | h
        · exact .inl h
        · rcases ih h with h | ⟨r, hr, h⟩
          · exact .inl h
          · exact .inr ⟨r, List.mem_cons_of_mem _ hr, h⟩

theorem listed_ascii {α : Type} {P : Str → α → Prop} {vs : List Str} {ms : List (Option α)} (h : Listed P vs ms)
    (hP : ∀ t x, P t x → Ascii t) : ∀ v ∈ vs, Ascii v := by
  obtain ⟨pss, -, rfl, hf⟩ := h
  intro v hv c hc
  obtain ⟨ps, hps, rfl⟩ := List.mem_map.mp hv
  have ows : ∀ w, Ows w → c ∈ w → c.toNat < 128 := by
    intro w hw hc
    rcases hw c hc with rfl | rfl <;> decide
  rcases mem_join_comma hc with rfl | ⟨p, hp, hc⟩
  · decide
  · obtain ⟨m, -, a, t, b, ha, hb, rfl, ht⟩ := forall₂_imp_mem hf p (List.mem_flatten_of_mem hps hp)
    rcases List.mem_append.mp hc with hc | hc
    · exact ows a ha hc
    · rcases List.mem_append.mp hc with hc | hc
      · cases m with
        | none => rw [show t = [] from ht] at hc; cases hc
        | some x => exact hP t x ht c hc
      · exact ows b hb hc

theorem getD_eq_filterMap {α : Type} (d : α) (ms : List (Option α)) :
    ms.map (·.getD d) = ms.filterMap id ↔ none ∉ ms := by
  have hle : ∀ ms : List (Option α), (ms.filterMap id).length ≤ ms.length := fun ms => List.length_filterMap_le _ _
  induction ms with
  | nil => simp
  | cons m ms ih =>
    cases m with
    | none =>
      simp only [List.mem_cons, true_or, not_true_eq_false, iff_false]
      intro he
      have h1 := congrArg List.length he
      have h2 := hle ms
      rw [List.filterMap_cons_none rfl, List.length_map, List.length_cons] at h1
      omega
    | some x => simpa using ih

/-- A list of field names is read as these names, whatever their case, but each empty element is read as a name without
characters. So it is read with its meaning exactly if no element is empty. -/
theorem C99_vary_iff_partial (h : Headers) (vs : List Str) (ms : List (Option HeaderName))
    (hv : h.get s!!"vary" = some vs) (hl : Listed NameText vs ms) :
    Vary.fromHeaders h = .ok (some ⟨ms.map (·.getD []), false⟩) ∧
    (Vary.fromHeaders h = .ok (some ⟨ms.filterMap id, false⟩) ↔ none ∉ ms) := by
  have hr := C35_reads h vs hv (listed_ascii hl fun t x ht => (isAscii_iff.mp (Mime.token_ascii ht.1)))
  have hf := listed_items hl fun t x _ ht => token_no_comma ht.1
  have hstar : s!!"*" ∉ listItems vs := fun hm => by
    obtain ⟨m, -, hm⟩ := forall₂_imp_mem hf _ hm
    cases m with
    | none => exact absurd hm (by simp [Item])
    | some n => exact hm.2.1 rfl
  have hmap : ∀ {ts : List Str} {ms : List (Option HeaderName)}, List.Forall₂ (Item NameText) ts ms →
      ts.map lower = ms.map (·.getD []) := by
    intro ts ms hf
    induction hf with
    | nil => rfl
    | @cons t m ts ms ht _ ih =>
      rw [List.map_cons, List.map_cons, ih]
      cases m with
      | none => rw [show t = [] from ht]; rfl
      | some n => rw [ht.2.2]; rfl
  have hread : Vary.fromHeaders h = .ok (some ⟨ms.map (·.getD []), false⟩) := by
    rw [hr, List.filter_eq_self.mpr, hmap hf]
    · simp [hstar]
    · intro t ht
      have : t ≠ s!!"*" := fun e => hstar (e ▸ ht)
      simpa using this
  refine ⟨hread, ?_⟩
  rw [hread]
  simp only [Res.ok.injEq, Option.some.injEq, StarList.mk.injEq, and_true]
  exact getD_eq_filterMap [] ms

example : Listed NameText [s!!"Accept , Cookie"] [some s!!"accept", some s!!"cookie"] := by
  refine ⟨[[s!!"Accept ", s!!" Cookie"]], by simp, by decide, ?_⟩
  exact .cons ⟨[], s!!"Accept", s!!" ", by simp [Ows], by simp [Ows], rfl, ⟨Mime.token_of (by decide) (by decide), by decide, by decide⟩⟩
    (.cons ⟨s!!" ", s!!"Cookie", [], by simp [Ows], by simp [Ows], rfl, ⟨Mime.token_of (by decide) (by decide), by decide, by decide⟩⟩ .nil)

/-- An empty element of Vary is read as a name without characters. -/
theorem C99_violated_vary_empty {t n : Str} (ht : NameText t n) (h : Headers) (hv : h.get s!!"vary" = some [t ++ s!!","]) :
    Listed NameText [t ++ s!!","] [some n, none] ∧ Vary.fromHeaders h = .ok (some ⟨[n, []], false⟩) :=
  ⟨listed_trailing ht, (C99_vary_iff_partial h _ _ hv (listed_trailing ht)).1⟩

example : NameText s!!"Accept" s!!"accept" := ⟨Mime.token_of (by decide) (by decide), by decide, by decide⟩

/-! ### methods -/

/-- A list of methods is read exactly if every element is one of the known methods up to case and none is empty;
otherwise it is rejected with 500. What is read is the set of the methods named, but names that differ from a known
one in case stand for other methods by the standard. -/
theorem C99_allow_iff_partial (h : Headers) (vs : List Str) (ms : List (Option Str)) (hv : h.get s!!"allow" = some vs)
    (hl : Listed MethodText vs ms) :
    ((none ∉ ms ∧ ∀ n, some n ∈ ms → ∃ m : Method, sameName n m.asStr = true) →
      ∃ s, Allow.fromHeaders h = .ok (some s) ∧ s.Nodup ∧ (∀ m, m ∈ s ↔ ∃ n, some n ∈ ms ∧ sameName n m.asStr = true) ∧
        ((∀ n, some n ∈ ms → ∃ m : Method, n = m.asStr) → ∀ m, m ∈ s ↔ some m.asStr ∈ ms)) ∧
    (¬ (none ∉ ms ∧ ∀ n, some n ∈ ms → ∃ m : Method, sameName n m.asStr = true) → Allow.fromHeaders h = .err 500) := by
  have hf := listed_items hl fun t x _ ht => token_no_comma ht.1
  have hmem : ∀ t, t ∈ listItems vs ↔ (t = [] ∧ none ∈ ms) ∨ some t ∈ ms := by
    have : ∀ {ts : List Str} {ms : List (Option Str)}, List.Forall₂ (Item MethodText) ts ms →
        ∀ t, t ∈ ts ↔ (t = [] ∧ none ∈ ms) ∨ some t ∈ ms := by
      intro ts ms hf
      induction hf with
      | nil => simp
      | @cons t m ts ms ht _ ih =>
        intro t'
        cases m with
        | none =>
          have ht : t = [] := ht
          subst ht
          simp only [List.mem_cons, ih, true_or, and_true, reduceCtorEq, false_or]
          tauto
        | some n =>
          have ht : n = t := ht.2
          subst ht
          simp only [List.mem_cons, ih, reduceCtorEq, false_or, Option.some.injEq]
          tauto
    exact this hf
  have hempty : ∀ m : Method, sameName [] m.asStr = false := by
    have : ∀ m ∈ Method.all, sameName [] m.asStr = false := by decide
    exact fun m => this m m.mem_all
  have hcase : ∀ m m' : Method, sameName m.asStr m'.asStr = true → m = m' := by
    intro m m' hs
    have h1 := ((C17_parse_iff m.asStr m').1).mpr hs
    rw [(C17_round_trip m m').1] at h1
    cases h1
    rfl
  have hsame : ∀ m : Method, sameName m.asStr m.asStr = true := fun m => ((C17_parse_iff m.asStr m).1).mp (C17_round_trip m m).1
  obtain ⟨h1, h2⟩ := C44_reads h vs hv
  constructor
  · rintro ⟨hn, hk⟩
    obtain ⟨s, hs, hd, hm⟩ := h1 fun t ht => by
      rcases (hmem t).mp ht with ⟨-, h⟩ | h
      · exact absurd h hn
      · exact hk t h
    have hm : ∀ m, m ∈ s ↔ ∃ n, some n ∈ ms ∧ sameName n m.asStr = true := by
      intro m
      rw [hm m]
      constructor
      · rintro ⟨t, ht, hs⟩
        rcases (hmem t).mp ht with ⟨-, h⟩ | h
        · exact absurd h hn
        · exact ⟨t, h, hs⟩
      · rintro ⟨t, ht, hs⟩
        exact ⟨t, (hmem t).mpr (.inr ht), hs⟩
    refine ⟨s, hs, hd, hm, fun he m => ?_⟩
    rw [hm m]
    constructor
    · rintro ⟨n, hn, hs⟩
      obtain ⟨m', rfl⟩ := he n hn
      rw [← hcase m' m hs]; exact hn
    · exact fun hn => ⟨_, hn, hsame m⟩
  · intro hno
    apply h2
    by_cases hn : none ∈ ms
    · exact ⟨[], (hmem []).mpr (.inl ⟨rfl, hn⟩), hempty⟩
    · have : ¬ ∀ n, some n ∈ ms → ∃ m : Method, sameName n m.asStr = true := fun h => hno ⟨hn, h⟩
      push Not at this
      obtain ⟨n, hn, hm⟩ := this
      exact ⟨n, (hmem n).mpr (.inr hn), fun m => by simpa using hm m⟩

example : Listed MethodText [s!!"GET, PUT"] [some s!!"GET", some s!!"PUT"] := by
  refine ⟨[[s!!"GET", s!!" PUT"]], by simp, by decide, ?_⟩
  exact .cons ⟨[], s!!"GET", [], by simp [Ows], by simp [Ows], rfl, ⟨Mime.token_of (by decide) (by decide), rfl⟩⟩
    (.cons ⟨s!!" ", s!!"PUT", [], by simp [Ows], by simp [Ows], rfl, ⟨Mime.token_of (by decide) (by decide), rfl⟩⟩ .nil)

/-- An empty Allow, by which a server says that it allows no methods, is an error. -/
theorem C99_violated_allow_empty (h : Headers) (hv : h.get s!!"allow" = some [[]]) :
    Listed MethodText [[]] [none] ∧ Allow.fromHeaders h = .err 500 := by
  have hl : Listed MethodText [[]] [none] :=
    ⟨[[[]]], by simp, by simp [join], by simpa using ⟨[], [], [], by simp [Ows], by simp [Ows], rfl, rfl⟩⟩
  exact ⟨hl, (C99_allow_iff_partial h _ _ hv hl).2 fun hn => hn.1 (by simp)⟩

/-- A method that is not registered makes the whole list an error. -/
theorem C99_violated_allow_unknown {n : Str} (hn : Token n) (hu : ∀ m : Method, sameName n m.asStr = false) (h : Headers)
    (hv : h.get s!!"allow" = some [n]) : Listed MethodText [n] [some n] ∧ Allow.fromHeaders h = .err 500 := by
  have hl := listed_one (P := MethodText) ⟨hn, rfl⟩
  refine ⟨hl, (C99_allow_iff_partial h _ _ hv hl).2 fun hk => ?_⟩
  obtain ⟨m, hm⟩ := hk.2 n (by simp)
  rw [hu m] at hm
  cases hm

example : Token s!!"FETCH" ∧ ∀ m : Method, sameName s!!"FETCH" m.asStr = false := by
  refine ⟨Mime.token_of (by decide) (by decide), fun m => ?_⟩
  have : ∀ m ∈ Method.all, sameName s!!"FETCH" m.asStr = false := by decide
  exact this m m.mem_all

/-- A name in another case stands for another method, but is read as the known one. -/
theorem C99_violated_allow_case {n : Str} {m : Method} (hn : Token n) (hs : sameName n m.asStr = true) (hne : n ≠ m.asStr)
    (h : Headers) (hv : h.get s!!"allow" = some [n]) :
    Listed MethodText [n] [some n] ∧ some m.asStr ∉ [some n] ∧ ∃ s, Allow.fromHeaders h = .ok (some s) ∧ m ∈ s := by
  have hl := listed_one (P := MethodText) ⟨hn, rfl⟩
  refine ⟨hl, by simpa using Ne.symm hne, ?_⟩
  obtain ⟨s, h1, -, h2, -⟩ := (C99_allow_iff_partial h _ _ hv hl).1 ⟨by simp, fun n' hn' => ⟨m, by
    simp only [List.mem_singleton, Option.some.injEq] at hn'
    rw [hn']; exact hs⟩⟩
  exact ⟨s, h1, (h2 m).mpr ⟨n, by simp, hs⟩⟩

example : Token s!!"get" ∧ sameName s!!"get" Method.get.asStr = true ∧ s!!"get" ≠ Method.get.asStr :=
  ⟨Mime.token_of (by decide) (by decide), by decide, by decide⟩

/-! ### Clear-Site-Data -/

theorem quotedName_trimmed {t n : Str} (h : QuotedName t n) : Trimmed t := by
  rw [h.1]
  refine ⟨fun c hc => ?_, fun c hc => ?_⟩
  · simp only [List.head?_cons, Option.some.injEq] at hc
    rw [← hc]; decide
  · rw [show '"' :: (n ++ ['"']) = ('"' :: n) ++ ['"'] from rfl, List.getLast?_concat, Option.some.injEq] at hc
    rw [← hc]; decide

theorem clearName_iff {n : Str} {o : Option ClearDirective} (h : (n, o) ∈ clearNames) :
    '"' :: (n ++ ['"']) = (match o with | some d => d.asStr | none => s!!"\"*\"") ∧ clearNames.lookup n = some o ∧ ',' ∉ n := by
  revert h
  simp only [clearNames, List.mem_cons, Prod.mk.injEq, List.not_mem_nil, or_false]
  rintro (⟨rfl, rfl⟩ | ⟨rfl, rfl⟩ | ⟨rfl, rfl⟩ | ⟨rfl, rfl⟩ | ⟨rfl, rfl⟩) <;> decide

theorem clearName_of {n : Str} (h : ∀ o, (n, o) ∉ clearNames) :
    '"' :: (n ++ ['"']) ≠ s!!"\"*\"" ∧ ∀ d : ClearDirective, '"' :: (n ++ ['"']) ≠ d.asStr := by
  have inj : ∀ k : Str, '"' :: (n ++ ['"']) = '"' :: (k ++ ['"']) → n = k := by
    intro k hk
    simpa using hk
  refine ⟨fun he => ?_, fun d hd => ?_⟩
  · have := inj s!!"*" he
    subst this
    exact h none (by decide)
  · cases d
    · have := inj s!!"cache" hd; subst this; exact h _ (by decide : (s!!"cache", some .cache) ∈ clearNames)
    · have := inj s!!"cookies" hd; subst this; exact h _ (by decide : (s!!"cookies", some .cookies) ∈ clearNames)
    · have := inj s!!"storage" hd; subst this; exact h _ (by decide : (s!!"storage", some .storage) ∈ clearNames)
    · have := inj s!!"executionContexts" hd; subst this
      exact h _ (by decide : (s!!"executionContexts", some .executionContexts) ∈ clearNames)

/-- A list of quoted names is read as the kinds of data these name exactly if all of them are known and no element is
empty; otherwise reading panics. -/
theorem C99_clear_iff_partial (h : Headers) (vs : List Str) (ms : List (Option Str))
    (hv : h.get s!!"clear-site-data" = some vs) (hl : Listed QuotedName vs ms) :
    ((none ∉ ms ∧ ∀ n, some n ∈ ms → ∃ o, (n, o) ∈ clearNames) → ClearSiteData.fromHeaders h = .ok (some (clearOf ms))) ∧
    (¬ (none ∉ ms ∧ ∀ n, some n ∈ ms → ∃ o, (n, o) ∈ clearNames) → ClearSiteData.fromHeaders h = .panic) := by
  obtain ⟨h1, h2, -⟩ := C32_reads h vs hv
  have good : (∀ n, some n ∈ ms → ',' ∉ n) → List.Forall₂ (Item QuotedName) (listItems vs) ms := fun hc =>
    listed_items hl fun t n hn ht => ⟨by rw [ht.1]; simpa using hc n hn, quotedName_trimmed ht⟩
  constructor
  · rintro ⟨hn, hk⟩
    have hf := good fun n hm => (clearName_iff (hk n hm).choose_spec).2.2
    rw [h1]
    have key : ∀ {ts : List Str} {ms : List (Option Str)}, List.Forall₂ (Item QuotedName) ts ms → none ∉ ms →
        (∀ n, some n ∈ ms → ∃ o, (n, o) ∈ clearNames) → (s!!"\"*\"" ∈ ts ↔ some s!!"*" ∈ ms) ∧
        ts.filter (· ≠ s!!"\"*\"") = (clearOf ms).entries.map ClearDirective.asStr := by
      intro ts ms hf
      induction hf with
      | nil => intro _ _; exact ⟨by simp, rfl⟩
      | @cons t m ts ms ht _ ih =>
        intro hn hk
        obtain ⟨i1, i2⟩ := ih (fun h => hn (List.mem_cons_of_mem _ h)) (fun n h => hk n (List.mem_cons_of_mem _ h))
        cases m with
        | none => exact absurd List.mem_cons_self hn
        | some n =>
          obtain ⟨o, ho⟩ := hk n List.mem_cons_self
          obtain ⟨e1, e2, -⟩ := clearName_iff ho
          have ht : t = '"' :: (n ++ ['"']) := ht.1
          have hstar : t = s!!"\"*\"" ↔ n = s!!"*" := by
            rw [ht]
            constructor
            · intro h
              exact List.append_cancel_right (bs := ['"']) (List.cons.inj h).2
            · rintro rfl; rfl
          refine ⟨by rw [List.mem_cons, List.mem_cons, i1, eq_comm, hstar, Option.some.injEq, eq_comm], ?_⟩
          simp only [clearOf, List.filterMap_cons, Option.bind_some, e2, id] at i2 ⊢
          cases o with
          | none =>
            rw [List.filter_cons_of_neg (by simp [ht, e1]), i2]
          | some d =>
            have hd : t ≠ s!!"\"*\"" := by
              rw [ht, e1]
              show d.asStr ≠ _
              clear ho e1 e2
              cases d <;> decide
            rw [List.filter_cons_of_pos (by simpa using hd), i2, List.map_cons, ht, e1]
    obtain ⟨k1, k2⟩ := key hf hn hk
    exact ⟨by simp [clearOf, k1], k2⟩
  · intro hno
    rw [h2]
    by_cases hc : ∀ n, some n ∈ ms → ',' ∉ n
    · have hf := good hc
      by_cases hn : none ∈ ms
      · exact ⟨[], items_none hf hn, by decide, fun d => by cases d <;> decide⟩
      · have : ¬ ∀ n, some n ∈ ms → ∃ o, (n, o) ∈ clearNames := fun h => hno ⟨hn, h⟩
        push Not at this
        obtain ⟨n, hm, ho⟩ := this
        obtain ⟨k1, k2⟩ := clearName_of ho
        obtain ⟨t, ht, h3⟩ := forall₂_imp_mem hf.flip (some n) hm
        have h3 : QuotedName t n := h3
        exact ⟨t, ht, by rw [h3.1]; exact k1, by rw [h3.1]; exact k2⟩
    · push Not at hc
      obtain ⟨n, he, hm⟩ := hc
      obtain ⟨a, t, b, ha, hb, ht, hq⟩ := listed_cut hl he
      obtain ⟨x, y, hxy, hx⟩ : ∃ x y, n = x ++ ',' :: y ∧ ',' ∉ x := by
        cases hs : splitOnce ',' n with
        | none => exact absurd hm (splitOnce_eq_none.mp hs)
        | some p => exact ⟨p.1, p.2, (splitOnce_eq_some hs).1, (splitOnce_eq_some hs).2⟩
      have hxq : '"' ∉ x := fun h => (ht.2 '"' (by rw [hxy]; simp [h])).1 rfl
      obtain ⟨q, hqm, hq1, -⟩ := cut_quote (y := y ++ ['"']) (b := b) ha hxq hx [] (.inl rfl)
      have he : a ++ (([] ++ '"' :: (x ++ ',' :: (y ++ ['"']))) ++ b) = a ++ (t ++ b) := by
        rw [ht.1, hxy]; simp
      rw [he] at hqm
      refine ⟨_, hq q hqm, fun e => ?_, fun d e => ?_⟩
      · rw [e] at hq1; revert hq1; decide
      · rw [e] at hq1; revert hq1; cases d <;> decide

example : Listed QuotedName [s!!"\"cache\", \"*\""] [some s!!"cache", some s!!"*"] ∧
    clearOf [some s!!"cache", some s!!"*"] = ⟨[.cache], true⟩ := by
  refine ⟨⟨[[s!!"\"cache\"", s!!" \"*\""]], by simp, by decide, ?_⟩, by decide⟩
  exact .cons ⟨[], s!!"\"cache\"", [], by simp [Ows], by simp [Ows], rfl, rfl, by decide⟩
    (.cons ⟨s!!" ", s!!"\"*\"", [], by simp [Ows], by simp [Ows], rfl, rfl, by decide⟩ .nil)

/-- Names that are not known have to be ignored, but every one of them makes reading panic. -/
theorem C99_violated_clear_unknown {n : Str} (hn : ∀ c ∈ n, c ≠ '"' ∧ c ≠ '\\') (hu : ∀ o, (n, o) ∉ clearNames) (h : Headers)
    (hv : h.get s!!"clear-site-data" = some ['"' :: (n ++ ['"'])]) :
    Listed QuotedName ['"' :: (n ++ ['"'])] [some n] ∧ ClearSiteData.fromHeaders h = .panic := by
  have hl := listed_one (P := QuotedName) ⟨rfl, hn⟩
  refine ⟨hl, (C99_clear_iff_partial h _ _ hv hl).2 fun hk => ?_⟩
  obtain ⟨o, ho⟩ := hk.2 n (by simp)
  exact hu o ho

example : (∀ c ∈ s!!"clientHints", c ≠ '"' ∧ c ≠ '\\') ∧ ∀ o, (s!!"clientHints", o) ∉ clearNames := by
  refine ⟨by decide, ?_⟩
  intro o h
  simp [clearNames] at h

/-! ### Timing-Allow-Origin -/

theorem originText_ok {Url : Type} {parse : Str → Option Url} {t : Str} {x : TimingOrigin Url} (h : OriginText parse t x) :
    t ≠ [] ∧ ∀ c ∈ t, isWs c = false ∧ c ≠ ',' := by
  cases h with
  | star => decide
  | null => decide
  | origin h1 h2 h3 => exact ⟨h1, h2⟩

/-- A list of origins is read as these origins exactly if no element is empty, none is `null`, and no blank follows a
`*`; otherwise it is rejected with 400. -/
theorem C99_origins_iff_partial {Url : Type} (parse : Str → Option Url) (hp : UrlParser parse) (h : Headers) (vs : List Str)
    (ms : List (Option (TimingOrigin Url))) (hv : h.get s!!"timing-allow-origin" = some vs)
    (hl : Listed (OriginText parse) vs ms) :
    let plain := none ∉ ms ∧ some .null ∉ ms ∧ ∀ v ∈ vs, ∀ p ∈ split ',' v, trim p = s!!"*" → trimStart p = s!!"*"
    (plain → ∃ l, TimingAllowOrigin.fromHeaders parse h = .ok (some l) ∧ l.entries = originsOf ms ∧
      (l.wildcard = true ↔ some .star ∈ ms)) ∧
    (¬ plain → TimingAllowOrigin.fromHeaders parse h = .err 400) := by
  intro plain
  obtain ⟨h1, h2⟩ := C52_reads parse h vs hv
  obtain ⟨ps, hps, hf⟩ := listed_parts hl
  have hsplit : ∀ {ps : List Str} {ms : List (Option (TimingOrigin Url))}, List.Forall₂ (Element (OriginText parse)) ps ms →
      ps.flatMap (split ',') = ps := by
    intro ps ms hf
    induction hf with
    | nil => rfl
    | @cons p m ps ms hp _ ih =>
      obtain ⟨a, t, b, ha, hb, rfl, ht⟩ := hp
      have : ',' ∉ t := by
        cases m with
        | none => rw [show t = [] from ht]; simp
        | some x => exact fun hm => ((originText_ok ht).2 _ hm).2 rfl
      rw [List.flatMap_cons, ih, split_of_not_mem]
      · rfl
      · simp only [List.mem_append, not_or]
        exact ⟨ows_not_mem ha (by decide) (by decide), this, ows_not_mem hb (by decide) (by decide)⟩
  rw [hsplit hf] at hps
  have hitems : (vs.flatMap fun v => (split ',' v).map trimStart) = ps.map trimStart := by
    rw [← hps, List.map_flatMap]
  have hthird : (∀ v ∈ vs, ∀ p ∈ split ',' v, trim p = s!!"*" → trimStart p = s!!"*") ↔
      ∀ p ∈ ps, trim p = s!!"*" → trimStart p = s!!"*" := by
    rw [← hps]
    simp only [List.mem_flatMap, forall_exists_index, and_imp]
    exact ⟨fun h p v hv hp => h v hv p hp, fun h v hv p hp => h p v hv hp⟩
  rw [hitems] at h1
  have hstart : ∀ {a t b : Str}, Ows a → t ≠ [] → (∀ c ∈ t, isWs c = false ∧ c ≠ ',') →
      trimStart (a ++ (t ++ b)) = t ++ b := by
    intro a t b ha ht hw
    rw [trimStart_ws_append (ows_ws ha)]
    apply trimStart_of_head
    intro c hc
    cases t with
    | nil => exact absurd rfl ht
    | cons x t =>
      simp only [List.cons_append, List.head?_cons, Option.some.injEq] at hc
      rw [← hc]; exact (hw x List.mem_cons_self).1
  have htrim : ∀ {a t b : Str}, Ows a → Ows b → (∀ c ∈ t, isWs c = false ∧ c ≠ ',') → trim (a ++ (t ++ b)) = t := by
    intro a t b ha hb hw
    rw [← List.append_assoc, trim_surround (ows_ws ha) (ows_ws hb) (trimmed_of_forall fun c hc => (hw c hc).1)]
  constructor
  · rintro ⟨hn, hnull, hb⟩
    rw [hthird] at hb
    have key : ∀ {ps : List Str} {ms : List (Option (TimingOrigin Url))}, List.Forall₂ (Element (OriginText parse)) ps ms →
        none ∉ ms → some .null ∉ ms → (∀ p ∈ ps, trim p = s!!"*" → trimStart p = s!!"*") →
        (s!!"*" ∈ ps.map trimStart ↔ some .star ∈ ms) ∧
        List.Forall₂ (fun t u => parse t = some u) ((ps.map trimStart).filter fun t => t ≠ s!!"*" ∧ t ≠ s!!"\"null\"") (originsOf ms) := by
      intro ps ms hf
      induction hf with
      | nil => intro _ _ _; exact ⟨by simp, .nil⟩
      | @cons p m ps ms hpm _ ih =>
        intro hn hnull hb
        obtain ⟨i1, i2⟩ := ih (fun h => hn (List.mem_cons_of_mem _ h)) (fun h => hnull (List.mem_cons_of_mem _ h))
          (fun p h => hb p (List.mem_cons_of_mem _ h))
        have hbp := hb p List.mem_cons_self
        obtain ⟨a, t, b, ha, hb', rfl, ht⟩ := hpm
        cases m with
        | none => exact absurd List.mem_cons_self hn
        | some x =>
          obtain ⟨o1, o2⟩ := originText_ok ht
          cases ht with
          | null => exact absurd List.mem_cons_self hnull
          | star =>
            have := hbp (htrim ha hb' o2)
            rw [List.map_cons, this]
            refine ⟨by simp, ?_⟩
            rw [List.filter_cons_of_neg (by simp)]
            exact i2
          | @origin _ u _ _ hu =>
            have hcol : ∀ k : Str, ':' ∉ k → t ++ b ≠ k := by
              intro k hk he
              have := hp.blanks t b hb'
              rw [he, hp.relative k hk, hu] at this
              cases this
            have e1 := hcol s!!"*" (by decide)
            have e2 := hcol s!!"\"null\"" (by decide)
            rw [List.map_cons, hstart ha o1 o2]
            refine ⟨by rw [List.mem_cons, i1]; simp [Ne.symm e1], ?_⟩
            rw [List.filter_cons_of_pos (by simp [e1, e2])]
            exact .cons ((hp.blanks t b hb').trans hu) i2
    obtain ⟨k1, k2⟩ := key hf hn hnull hb
    refine ⟨⟨originsOf ms, decide (s!!"*" ∈ ps.map trimStart)⟩, (h1 _).mpr ⟨rfl, k2⟩, rfl, ?_⟩
    rw [decide_eq_true_iff, k1]
  · intro hno
    have bad : ∀ p ∈ ps, trimStart p ≠ s!!"*" → trimStart p ≠ s!!"\"null\"" → ':' ∉ trimStart p →
        TimingAllowOrigin.fromHeaders parse h = .err 400 := by
      intro p hm e1 e2 hc
      rcases h2 with ⟨l, hl⟩ | he
      · obtain ⟨-, hff⟩ := (h1 l).mp hl
        obtain ⟨u, -, hu⟩ := forall₂_imp_mem hff (trimStart p)
          (List.mem_filter.mpr ⟨List.mem_map_of_mem hm, by simp [e1, e2]⟩)
        rw [hp.relative _ hc] at hu
        cases hu
      · exact he
    by_cases hn : none ∈ ms
    · obtain ⟨p, hpm, a, t, b, ha, hb, rfl, ht⟩ := forall₂_imp_mem hf.flip none hn
      have ht : t = [] := ht
      subst ht
      have he : trimStart (a ++ ([] ++ b)) = [] := by
        rw [trimStart_ws_append (ows_ws ha), List.nil_append]
        have := trimStart_ws_append (ows_ws hb) []
        rwa [List.append_nil] at this
      exact bad _ hpm (by rw [he]; decide) (by rw [he]; decide) (by rw [he]; simp)
    · by_cases hnull : some .null ∈ ms
      · obtain ⟨p, hpm, a, t, b, ha, hb, rfl, ht⟩ := forall₂_imp_mem hf.flip _ hnull
        have ht : OriginText parse t .null := ht
        cases ht
        have he : trimStart (a ++ (s!!"null" ++ b)) = s!!"null" ++ b := hstart ha (by decide) (by decide)
        refine bad _ hpm (by rw [he]; simp) (by rw [he]; simp) ?_
        rw [he]
        simp only [List.mem_append, not_or]
        exact ⟨by decide, ows_not_mem hb (by decide) (by decide)⟩
      · have : ¬ ∀ p ∈ ps, trim p = s!!"*" → trimStart p = s!!"*" := fun h => hno ⟨hn, hnull, hthird.mpr h⟩
        push Not at this
        obtain ⟨p, hpm, e1, e2⟩ := this
        have hmem : ∀ c ∈ trimStart p, c ∈ trim p ∨ isWs c = true := by
          intro c hc
          obtain ⟨w, hw, hw'⟩ := trimEnd_prefix (trimStart p)
          rw [hw] at hc
          rcases List.mem_append.mp hc with hc | hc
          · exact .inl hc
          · exact .inr (hw' c hc)
        rw [e1] at hmem
        refine bad p hpm e2 (fun e => ?_) fun hc => ?_
        · have := hmem '"' (by rw [e]; decide)
          revert this; decide
        · have := hmem _ hc
          revert this; decide

/-- A parser of URLs: texts with a colon, without blanks at the end. -/
def toyParser (t : Str) : Option Str :=
  if ':' ∈ t then some (t.reverse.dropWhile (fun c => c = ' ' ∨ c = '\t')).reverse else none

example : UrlParser toyParser ∧ OriginText toyParser s!!"https://a.b" (.origin s!!"https://a.b") := by
  refine ⟨⟨fun t b hb => ?_, fun t ht => by simp [toyParser, ht]⟩, .origin (by decide) (by decide) (by decide)⟩
  have h1 : (':' ∈ t ++ b) = (':' ∈ t) := by
    simp [ows_not_mem hb (c := ':') (by decide) (by decide)]
  have h2 : (t ++ b).reverse.dropWhile (fun c => c = ' ' ∨ c = '\t') = t.reverse.dropWhile (fun c => c = ' ' ∨ c = '\t') := by
    rw [List.reverse_append, List.dropWhile_append, List.dropWhile_eq_nil_iff.mpr]
    · simp
    · intro c hc
      simpa using hb c (by simpa using hc)
  unfold toyParser
  rw [h2]
  simp only [h1]

/-- `null` stands for an opaque origin, but is an error. -/
theorem C99_violated_null {Url : Type} (parse : Str → Option Url) (hp : UrlParser parse) (h : Headers)
    (hv : h.get s!!"timing-allow-origin" = some [s!!"null"]) :
    Listed (OriginText parse) [s!!"null"] [some .null] ∧ TimingAllowOrigin.fromHeaders parse h = .err 400 := by
  have hl := listed_one (OriginText.null (parse := parse))
  exact ⟨hl, (C99_origins_iff_partial parse hp h _ _ hv hl).2 fun hn => hn.2.1 (by simp)⟩

/-- A blank after `*` makes it an error. -/
theorem C99_violated_star_blank {Url : Type} (parse : Str → Option Url) (hp : UrlParser parse) (h : Headers)
    {t : Str} {u : Url} (ht : OriginText parse t (.origin u)) (hv : h.get s!!"timing-allow-origin" = some [s!!"* ," ++ t]) :
    Listed (OriginText parse) [s!!"* ," ++ t] [some .star, some (.origin u)] ∧
    TimingAllowOrigin.fromHeaders parse h = .err 400 := by
  have hl : Listed (OriginText parse) [s!!"* ," ++ t] [some .star, some (.origin u)] :=
    ⟨[[s!!"* ", t]], by simp, by simp [join], .cons ⟨[], s!!"*", s!!" ", by simp [Ows], by simp [Ows], rfl, .star⟩
      (.cons ⟨[], t, [], by simp [Ows], by simp [Ows], by simp, ht⟩ .nil)⟩
  refine ⟨hl, (C99_origins_iff_partial parse hp h _ _ hv hl).2 fun hn => ?_⟩
  have := hn.2.2 (s!!"* ," ++ t) (by simp) s!!"* " (by
    rw [show s!!"* ," ++ t = s!!"* " ++ ',' :: t by simp, split_append_sep (by decide)]; simp) (by decide)
  revert this
  decide

end HT
