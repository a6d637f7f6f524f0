import Verif.Spec.Written
import Verif.Props.Listed
import Verif.Props.Directives
import Verif.Props.Build

/-!
C108: what list and directive headers write is read by others as what was put in.
-/

namespace HT
open Spec

/-! ### texts with delimiters -/

theorem cut_inj {c : Char} {a a' b b' : Str} (h : c ∉ a) (h' : c ∉ a') (he : a ++ c :: b = a' ++ c :: b') : a = a' ∧ b = b' := by
  induction a generalizing a' with
  | nil =>
    cases a' with
    | nil => exact ⟨rfl, (List.cons.inj he).2⟩
    | cons x a' => exact absurd (List.cons.inj he).1 fun hx => h' (hx ▸ List.mem_cons_self)
  | cons y a ih =>
    cases a' with
    | nil => exact absurd (List.cons.inj he).1.symm fun hx => h (hx ▸ List.mem_cons_self)
    | cons x a' =>
      obtain ⟨h1, h2⟩ := List.cons.inj he
      obtain ⟨h3, h4⟩ := ih (fun hm => h (List.mem_cons_of_mem _ hm)) (fun hm => h' (List.mem_cons_of_mem _ hm)) h2
      exact ⟨by rw [h1, h3], h4⟩

/-- Nothing, or a blank or a comma next. -/
def Stops (r : Str) : Prop := ∀ c, r.head? = some c → c = ' ' ∨ c = '\t' ∨ c = ','

/-- Nothing or a comma next. -/
def EndsAt (r : Str) : Prop := ∀ c, r.head? = some c → c = ','

/-- Does not start with a blank. -/
def NoLead (r : Str) : Prop := ∀ c, r.head? = some c → c ≠ ' ' ∧ c ≠ '\t'

theorem lead_inj {a a' x x' : Str} (h : Ows a) (h' : Ows a') (hx : NoLead x) (hx' : NoLead x') (he : a ++ x = a' ++ x') :
    a = a' ∧ x = x' := by
  induction a generalizing a' with
  | nil =>
    cases a' with
    | nil => exact ⟨rfl, he⟩
    | cons y a' =>
      exfalso
      have := hx y (by rw [show x = y :: (a' ++ x') from he]; rfl)
      rcases h' y List.mem_cons_self with h | h
      · exact this.1 h
      · exact this.2 h
  | cons z a ih =>
    cases a' with
    | nil =>
      exfalso
      have := hx' z (by rw [← show z :: (a ++ x) = x' from he]; rfl)
      rcases h z List.mem_cons_self with h | h
      · exact this.1 h
      · exact this.2 h
    | cons y a' =>
      obtain ⟨h1, h2⟩ := List.cons.inj he
      obtain ⟨h3, h4⟩ := ih (fun c hc => h c (List.mem_cons_of_mem _ hc)) (fun c hc => h' c (List.mem_cons_of_mem _ hc)) h2
      exact ⟨by rw [h1, h3], h4⟩

/-- Elements whose end can be told from what they are. -/
structure Delimited {α : Type} (P : Str → α → Prop) : Prop where
  start : ∀ t x, P t x → ∃ c s, t = c :: s ∧ c ≠ ' ' ∧ c ≠ '\t' ∧ c ≠ ','
  stop : ∀ t x t' x' r r', P t x → P t' x' → Stops r → Stops r' → t ++ r = t' ++ r' → t = t' ∧ x = x'

theorem ends_noLead {r : Str} (h : EndsAt r) : NoLead r := fun c hc => by rw [h c hc]; decide

theorem ows_stops {b r : Str} (hb : Ows b) (hr : EndsAt r) : Stops (b ++ r) := by
  intro c hc
  cases b with
  | nil => exact .inr (.inr (hr c hc))
  | cons x b =>
    cases hc
    rcases hb _ List.mem_cons_self with h | h
    · exact .inl h
    · exact .inr (.inl h)

theorem element_inj {α : Type} {P : Str → α → Prop} (hP : Delimited P) {p p' r r' : Str} {m m' : Option α}
    (h : Element P p m) (h' : Element P p' m') (hr : EndsAt r) (hr' : EndsAt r') (he : p ++ r = p' ++ r') : p = p' ∧ m = m' := by
  have mixed : ∀ {a b a' t' b' r r' : Str} {x' : α}, Ows a → Ows b → Ows a' → EndsAt r → P t' x' →
      (a ++ ([] ++ b)) ++ r = (a' ++ (t' ++ b')) ++ r' → False := by
    intro a b a' t' b' r r' x' ha hb ha' hr ht' he
    obtain ⟨c, s, rfl, h1, h2, h3⟩ := hP.start _ _ ht'
    have ho : Ows (a ++ b) := fun c hc => (List.mem_append.mp hc).elim (ha c) (hb c)
    have := (lead_inj (x := r) (x' := (c :: s) ++ (b' ++ r')) ho ha' (ends_noLead hr)
      (by intro d hd; cases hd; exact ⟨h1, h2⟩) (by simpa using he)).2
    exact h3 (hr c (by rw [this]; rfl))
  obtain ⟨a, t, b, ha, hb, rfl, hm⟩ := h
  obtain ⟨a', t', b', ha', hb', rfl, hm'⟩ := h'
  cases m with
  | none =>
    cases m' with
    | none =>
      subst hm hm'
      have ho : Ows (a ++ b) := fun c hc => (List.mem_append.mp hc).elim (ha c) (hb c)
      have ho' : Ows (a' ++ b') := fun c hc => (List.mem_append.mp hc).elim (ha' c) (hb' c)
      have := (lead_inj (x := r) (x' := r') ho ho' (ends_noLead hr) (ends_noLead hr') (by simpa using he)).1
      exact ⟨by simpa using this, rfl⟩
    | some x' =>
      subst hm
      exact (mixed ha hb ha' hr hm' he).elim
  | some x =>
    cases m' with
    | none =>
      subst hm'
      exact (mixed ha' hb' ha hr' hm he.symm).elim
    | some x' =>
      have nl : ∀ {t : Str} {x : α} (b : Str), P t x → NoLead (t ++ b) := by
        intro t x b ht
        obtain ⟨c, s, rfl, h1, h2, -⟩ := hP.start _ _ ht
        intro d hd
        cases hd
        exact ⟨h1, h2⟩
      obtain ⟨h1, h2⟩ := lead_inj (x := t ++ (b ++ r)) (x' := t' ++ (b' ++ r')) ha ha' (nl _ hm) (nl _ hm') (by simpa using he)
      obtain ⟨h3, h4⟩ := hP.stop _ _ _ _ _ _ hm hm' (ows_stops hb hr) (ows_stops hb' hr') h2
      subst h3
      have h5 := (lead_inj hb hb' (ends_noLead hr) (ends_noLead hr') (List.append_cancel_left h2)).1
      exact ⟨by rw [h1, h5], by rw [h4]⟩

theorem join_comma (p : Str) (ps : List Str) : ∃ r, EndsAt r ∧ join [','] (p :: ps) = p ++ r ∧
    (ps = [] ∧ r = [] ∨ ps ≠ [] ∧ r = ',' :: join [','] ps) := by
  cases ps with
  | nil => exact ⟨[], by intro c hc; simp at hc, by simp [join], .inl ⟨rfl, rfl⟩⟩
  | cons q ps => exact ⟨',' :: join [','] (q :: ps), by intro c hc; simpa using hc.symm, by simp [join], .inr ⟨by simp, rfl⟩⟩

theorem elements_inj {α : Type} {P : Str → α → Prop} (hP : Delimited P) {ps ps' : List Str} {ms ms' : List (Option α)}
    (h : List.Forall₂ (Element P) ps ms) (h' : List.Forall₂ (Element P) ps' ms') (hn : ps ≠ []) (hn' : ps' ≠ [])
    (he : join [','] ps = join [','] ps') : ms = ms' := by
  induction h generalizing ps' ms' with
  | nil => exact absurd rfl hn
  | @cons p m ps ms hp hps ih =>
    cases h' with
    | nil => exact absurd rfl hn'
    | @cons p' m' ps' ms' hp' hps' =>
      obtain ⟨r, hr, h1, h2⟩ := join_comma p ps
      obtain ⟨r', hr', h1', h2'⟩ := join_comma p' ps'
      rw [h1, h1'] at he
      obtain ⟨rfl, rfl⟩ := element_inj hP hp hp' hr hr' he
      have hrr := List.append_cancel_left he
      subst hrr
      rcases h2 with ⟨rfl, rfl⟩ | ⟨hne, rfl⟩
      · rcases h2' with ⟨rfl, -⟩ | ⟨-, h⟩
        · cases hps; cases hps'; rfl
        · cases h
      · rcases h2' with ⟨-, h⟩ | ⟨hne', h⟩
        · cases h
        · rw [ih hps' hne hne' (List.cons.inj h).2]

theorem listed_value {α : Type} {P : Str → α → Prop} {v : Str} {ms : List (Option α)} (h : Listed P [v] ms) :
    ∃ ps, ps ≠ [] ∧ v = join [','] ps ∧ List.Forall₂ (Element P) ps ms := by
  obtain ⟨pss, h1, h2, h3⟩ := h
  cases pss with
  | nil => cases h2
  | cons ps pss =>
    cases pss with
    | nil => exact ⟨ps, h1 ps (by simp), by simpa using h2, by simpa using h3⟩
    | cons q pss => simp at h2

/-- A value has one reading. -/
theorem listed_inj {α : Type} {P : Str → α → Prop} (hP : Delimited P) {v : Str} {ms ms' : List (Option α)}
    (h : Listed P [v] ms) (h' : Listed P [v] ms') : ms = ms' := by
  obtain ⟨ps, hn, rfl, hf⟩ := listed_value h
  obtain ⟨ps', hn', he, hf'⟩ := listed_value h'
  exact elements_inj hP hf hf' hn hn' he

/-- What is joined with commas and blanks is a list. -/
theorem listed_join {α : Type} {P : Str → α → Prop} {ts : List Str} {xs : List α} (h : List.Forall₂ P ts xs) (hn : ts ≠ []) :
    Listed P [join s!!", " ts] (xs.map some) := by
  cases h with
  | nil => exact absurd rfl hn
  | @cons t x ts xs ht hts =>
    refine ⟨[t :: ts.map fun s => ' ' :: s], by simp, ?_, ?_⟩
    · have : ∀ t : Str, join s!!", " (t :: ts) = join [','] (t :: ts.map fun s => ' ' :: s) := by
        clear ht hts hn
        induction ts with
        | nil => intro t; rfl
        | cons u ts ih =>
          intro t
          rw [List.map_cons, join, join, ih u]
          cases ts with
          | nil => simp [join]
          | cons w ts => simp [join]
      simp [this t]
    · rw [List.flatten_singleton, List.map_cons]
      refine .cons ⟨[], t, [], ows_nil, ows_nil, by simp, ht⟩ ?_
      clear ht hn
      induction hts with
      | nil => exact .nil
      | @cons u y ts xs hu _ ih => exact .cons ⟨s!!" ", u, [], ows_space, ows_nil, by simp, hu⟩ ih

theorem filterMap_some {α : Type} (xs : List α) : (xs.map some).filterMap id = xs := by simp

theorem someListed_only {α : Type} {P : Str → α → Prop} (hP : Delimited P) {ts : List Str} {xs : List α}
    (h : List.Forall₂ P ts xs) (hn : xs ≠ []) : OnlyAs (SomeListed P (join s!!", " ts)) xs := by
  have hl := listed_join h (by rintro rfl; cases h; exact hn rfl)
  intro ys
  constructor
  · rintro ⟨ms, h1, rfl, -⟩
    rw [listed_inj hP h1 hl, filterMap_some]
  · rintro rfl
    exact ⟨_, hl, (filterMap_some _).symm, hn⟩

theorem infix_join {p : Str} {ps : List Str} (h : p ∈ ps) : p <:+: join [','] ps := by
  induction ps with
  | nil => cases h
  | cons q ps ih =>
    obtain ⟨r, -, h1, h2⟩ := join_comma q ps
    rw [h1]
    rcases List.mem_cons.mp h with rfl | h
    · exact (List.prefix_append _ _).isInfix
    · rcases h2 with ⟨rfl, -⟩ | ⟨-, rfl⟩
      · cases h
      · exact ((ih h).trans (List.suffix_cons _ _).isInfix).trans (List.suffix_append _ _).isInfix

/-- Each element is somewhere in the value. -/
theorem someListed_mem {α : Type} {P : Str → α → Prop} {v : Str} {xs : List α} (h : SomeListed P v xs) :
    ∀ x ∈ xs, ∃ t, P t x ∧ t <:+: v := by
  obtain ⟨ms, h1, rfl, -⟩ := h
  obtain ⟨ps, -, rfl, h2⟩ := listed_value h1
  intro x hx
  obtain ⟨m, hm, hmx⟩ := List.mem_filterMap.mp hx
  obtain ⟨p, hp, hpm⟩ := forall₂_imp_mem h2.flip m hm
  obtain rfl : m = some x := hmx
  obtain ⟨a, t, b, -, -, rfl, ht⟩ := hpm
  exact ⟨t, ht, List.IsInfix.trans ⟨a, b, by simp⟩ (infix_join hp)⟩

/-! ### the kinds of elements -/

theorem delimited_plain {α : Type} {P : Str → α → Prop} (h : ∀ t x, P t x → t ≠ [] ∧ ∀ c ∈ t, c ≠ ' ' ∧ c ≠ '\t' ∧ c ≠ ',')
    (hf : ∀ t x x', P t x → P t x' → x = x') : Delimited P := by
  refine ⟨fun t x ht => ?_, fun t x t' x' r r' ht ht' hr hr' he => ?_⟩
  · obtain ⟨h1, h2⟩ := h t x ht
    cases t with
    | nil => exact absurd rfl h1
    | cons c s => exact ⟨c, s, rfl, h2 c List.mem_cons_self⟩
  · have : t = t' := by
      have h1 := (h t x ht).2
      have h2 := (h t' x' ht').2
      clear ht ht'
      induction t generalizing t' with
      | nil =>
        cases t' with
        | nil => rfl
        | cons c s =>
          exfalso
          have h3 := h2 c List.mem_cons_self
          rcases hr c (by rw [show r = c :: (s ++ r') from he]; rfl) with h | h | h
          · exact h3.1 h
          · exact h3.2.1 h
          · exact h3.2.2 h
      | cons d t ih =>
        cases t' with
        | nil =>
          exfalso
          have h3 := h1 d List.mem_cons_self
          rcases hr' d (by rw [← show d :: (t ++ r) = r' from he]; rfl) with h | h | h
          · exact h3.1 h
          · exact h3.2.1 h
          · exact h3.2.2 h
        | cons c s =>
          obtain ⟨rfl, h4⟩ := List.cons.inj he
          rw [ih s h4 (fun c hc => h1 c (List.mem_cons_of_mem _ hc)) fun c hc => h2 c (List.mem_cons_of_mem _ hc)]
    subst this
    exact ⟨rfl, hf _ _ _ ht ht'⟩

theorem token_plain {t : Str} (h : Token t) : t ≠ [] ∧ ∀ c ∈ t, c ≠ ' ' ∧ c ≠ '\t' ∧ c ≠ ',' := by
  refine ⟨h.1, fun c hc => ?_⟩
  have := tchar_not (h.2 c hc)
  refine ⟨?_, ?_, this.2.2.1⟩
  · rintro rfl; exact absurd this.1 (by decide)
  · rintro rfl; exact absurd this.1 (by decide)

theorem delimited_name : Delimited NameText :=
  delimited_plain (fun _ _ h => token_plain h.1) fun _ _ _ h h' => h.2.2.trans h'.2.2.symm

theorem delimited_method : Delimited MethodText :=
  delimited_plain (fun _ _ h => token_plain h.1) fun _ _ _ h h' => h.2.trans h'.2.symm

theorem delimited_quoted : Delimited QuotedName := by
  refine ⟨?_, ?_⟩
  · rintro t x ⟨rfl, -⟩
    exact ⟨'"', _, rfl, by decide, by decide, by decide⟩
  · rintro t x t' x' r r' ⟨rfl, h⟩ ⟨rfl, h'⟩ - - he
    have he' : x ++ '"' :: r = x' ++ '"' :: r' := by simpa using he
    obtain ⟨rfl, -⟩ := cut_inj (fun hm => (h _ hm).1 rfl) (fun hm => (h' _ hm).1 rfl) he'
    exact ⟨rfl, rfl⟩

theorem delimited_tag : Delimited TagText := by
  refine ⟨?_, ?_⟩
  · rintro t x ⟨rfl, -⟩
    cases x with
    | strong s => exact ⟨'"', _, rfl, by decide, by decide, by decide⟩
    | weak s => exact ⟨'W', _, rfl, by decide, by decide, by decide⟩
  · rintro t x t' x' r r' ⟨rfl, h⟩ ⟨rfl, h'⟩ - - he
    have hq : '"' ∉ etagBody x := fun hm => (h _ hm).2.1 rfl
    have hq' : '"' ∉ etagBody x' := fun hm => (h' _ hm).2.1 rfl
    cases x with
    | strong s =>
      cases x' with
      | strong s' =>
        obtain ⟨h1, -⟩ := cut_inj (a := s) (a' := s') (b := r) (b' := r') hq hq' (by simpa [etagText] using he)
        subst h1
        exact ⟨rfl, rfl⟩
      | weak s' => exact absurd (List.cons.inj he).1 (by decide)
    | weak s =>
      cases x' with
      | strong s' => exact absurd (List.cons.inj he).1 (by decide)
      | weak s' =>
        obtain ⟨h1, -⟩ := cut_inj (a := s) (a' := s') (b := r) (b' := r') hq hq' (by simpa [etagText] using he)
        subst h1
        exact ⟨rfl, rfl⟩

/-! ### lists with a wildcard that stands alone -/

/-- No element is a star between blanks. -/
def NoStar {α : Type} (P : Str → α → Prop) : Prop :=
  ∀ t x, P t x → (∃ c ∈ t, c ≠ '*' ∧ c ≠ ' ' ∧ c ≠ '\t') ∨ 2 ≤ t.count '*'

theorem star_not_list {α : Type} {P : Str → α → Prop} (hs : NoStar P) {a b t : Str} {x : α} (ha : Ows a) (hb : Ows b)
    (ht : P t x) (hi : t <:+: a ++ '*' :: b) : False := by
  rcases hs t x ht with ⟨c, hc, h1, h2, h3⟩ | h
  · have := hi.subset hc
    rcases List.mem_append.mp this with h | h
    · exact (ha c h).elim h2 h3
    · rcases List.mem_cons.mp h with h | h
      · exact h1 h
      · exact (hb c h).elim h2 h3
  · have h1 := hi.sublist.count_le '*'
    have h2 : a.count '*' = 0 := List.count_eq_zero.mpr (ows_not_mem ha (by decide) (by decide))
    have h3 : b.count '*' = 0 := List.count_eq_zero.mpr (ows_not_mem hb (by decide) (by decide))
    rw [List.count_append, List.count_cons_self, h2, h3] at h1
    omega

/-- The wildcard alone. -/
theorem starText_star {α : Type} {P : Str → α → Prop} (hs : NoStar P) : OnlyAs (StarText P s!!"*") ⟨[], true⟩ := by
  intro y
  constructor
  · rintro (⟨-, -, -⟩ | ⟨h⟩)
    · rfl
    · rename_i xs
      exfalso
      obtain ⟨ms, h1, rfl, h2⟩ := id h
      obtain ⟨x, hx⟩ := List.exists_mem_of_ne_nil _ h2
      obtain ⟨t, ht, hi⟩ := someListed_mem h x hx
      exact star_not_list hs ows_nil ows_nil ht hi
  · rintro rfl
    exact .star ows_nil ows_nil rfl

/-- Elements without the wildcard. -/
theorem starText_list {α : Type} {P : Str → α → Prop} (hs : NoStar P) (hP : Delimited P) {ts : List Str} {xs : List α}
    (h : List.Forall₂ P ts xs) (hn : xs ≠ []) : OnlyAs (StarText P (join s!!", " ts)) ⟨xs, false⟩ := by
  have ho := someListed_only hP h hn
  intro y
  constructor
  · rintro (⟨ha, hb, he⟩ | ⟨h'⟩)
    · exfalso
      obtain ⟨x, hx⟩ := List.exists_mem_of_ne_nil _ hn
      obtain ⟨t, ht, hi⟩ := someListed_mem ((ho xs).mpr rfl) x hx
      rw [he] at hi
      exact star_not_list hs ha hb ht hi
    · rw [(ho _).mp h']
  · rintro rfl
    exact .list ((ho xs).mpr rfl)

/-- An element or the star. -/
def OrStar {α : Type} (P : Str → α → Prop) (t : Str) : Option α → Prop
  | none => t = s!!"*"
  | some x => P t x

/-- With the wildcard at the end nothing can be read. -/
theorem starText_mixed {α : Type} {P : Str → α → Prop} (hs : NoStar P) (hP : Delimited (OrStar P)) {ts : List Str} {xs : List α}
    (h : List.Forall₂ P ts xs) (hn : xs ≠ []) (y : StarList α) : ¬ StarText P (join s!!", " (ts ++ [s!!"*"])) y := by
  have hf : List.Forall₂ (OrStar P) (ts ++ [s!!"*"]) (xs.map some ++ [none]) := by
    refine List.rel_append (R := OrStar P) ?_ (.cons rfl .nil)
    rw [List.forall₂_map_right_iff]
    exact h
  have hl := listed_join hf (by simp)
  rintro (⟨ha, hb, he⟩ | ⟨ms, h1, rfl, h2⟩)
  · obtain ⟨x, hx⟩ := List.exists_mem_of_ne_nil _ hn
    obtain ⟨t, ht, hi⟩ := someListed_mem ⟨_, hl, (filterMap_some _).symm, by simp⟩ (some x) (by simp [hx])
    rw [he] at hi
    exact star_not_list hs ha hb ht hi
  · have hl' : Listed (OrStar P) [join s!!", " (ts ++ [s!!"*"])] (ms.map (Option.map some)) := by
      obtain ⟨pss, g1, g2, g3⟩ := h1
      refine ⟨pss, g1, g2, ?_⟩
      rw [List.forall₂_map_right_iff]
      refine g3.imp ?_
      rintro p m ⟨a, t, b, ha, hb, rfl, hm⟩
      refine ⟨a, t, b, ha, hb, rfl, ?_⟩
      cases m <;> exact hm
    have := listed_inj hP hl' hl
    have hmem : some none ∈ ms.map (Option.map some) := by rw [this]; simp
    obtain ⟨m, -, hm⟩ := List.mem_map.mp hmem
    cases m <;> simp at hm

/-! ### entity tags -/

theorem noStar_tag : NoStar TagText := by
  rintro t x ⟨rfl, -⟩
  exact .inl ⟨'"', by cases x <;> simp [etagText], by decide, by decide, by decide⟩

theorem delimited_tag_star : Delimited (OrStar TagText) := by
  refine ⟨?_, ?_⟩
  · intro t x h
    cases x with
    | none => exact ⟨'*', [], h, by decide, by decide, by decide⟩
    | some x => exact delimited_tag.start t x h
  · intro t x t' x' r r' h h' hr hr' he
    have mixed : ∀ {t t' : Str} {x' : ETag} {r r' : Str}, t = s!!"*" → TagText t' x' → t ++ r = t' ++ r' → False := by
      rintro t t' x' r r' rfl ⟨rfl, -⟩ he
      cases x' <;> exact absurd (List.cons.inj he).1 (by decide)
    cases x with
    | none =>
      cases x' with
      | none => exact ⟨(show t = _ from h).trans (show t' = _ from h').symm, rfl⟩
      | some x' => exact (mixed h h' he).elim
    | some x =>
      cases x' with
      | none => exact (mixed h' h he.symm).elim
      | some x' =>
        obtain ⟨h1, h2⟩ := delimited_tag.stop _ _ _ _ _ _ h h' hr hr' he
        exact ⟨h1, by rw [h2]⟩

theorem tag_texts {es : List ETag} (h : ∀ e ∈ es, EtagLegal e) : List.Forall₂ TagText (es.map etagText) es := by
  induction es with
  | nil => exact .nil
  | cons e es ih => exact .cons ⟨rfl, h e List.mem_cons_self⟩ (ih fun e he => h e (List.mem_cons_of_mem _ he))

theorem ifMatch_value (l : StarList ETag) :
    IfMatch.value l = .ok (join s!!", " (l.entries.map etagText ++ if l.wildcard then [s!!"*"] else [])) :=
  (C84_written (Url := Unit) (fun _ => s!!"-") (by simp) l ⟨[], false⟩ ⟨[], false⟩ [] []).1

/-- C108: what `If-Match` and `If-None-Match` write is read by others as the list that was put in and as nothing else,
exactly if the list is the wildcard alone or one or more legal tags without it. -/
theorem C108_tags_iff_partial (l : StarList ETag) (v : HeaderValue) (hv : IfMatch.value l = .ok v) :
    OnlyAs (StarText TagText v) l ↔
      l = ⟨[], true⟩ ∨ l.wildcard = false ∧ l.entries ≠ [] ∧ ∀ e ∈ l.entries, EtagLegal e := by
  rw [ifMatch_value] at hv
  constructor
  · intro h
    rcases (h l).mpr rfl with ⟨-, -, -⟩ | ⟨h'⟩
    · exact .inl rfl
    · refine .inr ⟨rfl, ?_, fun e he => ?_⟩
      · obtain ⟨-, -, -, hne⟩ := h'; exact hne
      · obtain ⟨t, ht, -⟩ := someListed_mem h' e he
        exact ht.2
  · rintro (rfl | ⟨hw, hn, hl⟩)
    · cases hv
      exact starText_star noStar_tag
    · obtain ⟨es, w⟩ := l
      simp only at hw hn hl
      subst hw
      simp only [Bool.false_eq_true, if_false, List.append_nil, Res.ok.injEq] at hv
      subst hv
      exact starText_list noStar_tag delimited_tag (tag_texts hl) hn

example : IfMatch.value ⟨[.strong s!!"a", .weak s!!"b,c"], false⟩ = .ok s!!"\"a\", W/\"b,c\"" ∧
    ∀ e ∈ [ETag.strong s!!"a", .weak s!!"b,c"], EtagLegal e := by
  refine ⟨rfl, ?_⟩
  simp only [EtagLegal]
  decide

/-- C108 (broken): with the wildcard after tags the value is outside of the standard and cannot be read. -/
theorem C108_violated_tags_star (es : List ETag) (hn : es ≠ []) (hl : ∀ e ∈ es, EtagLegal e) (v : HeaderValue)
    (hv : IfMatch.value ⟨es, true⟩ = .ok v) (l : StarList ETag) : ¬ StarText TagText v l := by
  rw [ifMatch_value] at hv
  simp only [if_true, Res.ok.injEq] at hv
  subst hv
  exact starText_mixed noStar_tag delimited_tag_star (tag_texts hl) hn l

example : IfMatch.value ⟨[.strong s!!"a"], true⟩ = .ok s!!"\"a\", *" := rfl

/-! ### field names -/

theorem noStar_name : NoStar NameText := by
  rintro t x ⟨h1, h2, -⟩
  by_cases h : ∃ c ∈ t, c ≠ '*'
  · obtain ⟨c, hc, hn⟩ := h
    have := (token_plain h1).2 c hc
    exact .inl ⟨c, hc, hn, this.1, this.2.1⟩
  · right
    push Not at h
    rw [List.count_eq_length.mpr fun c hc => (h c hc).symm]
    match t, h1.1, h2, h with
    | [c], _, h2, h => exact absurd (by rw [h c (by simp)]) h2
    | _ :: _ :: _, _, _, _ => simp

theorem delimited_name_star : Delimited (OrStar NameText) := by
  refine delimited_plain ?_ ?_
  · intro t x h
    cases x with
    | none =>
      rw [show t = s!!"*" from h]
      decide
    | some x => exact token_plain h.1
  · intro t x x' h h'
    cases x with
    | none =>
      cases x' with
      | none => rfl
      | some x' => exact absurd h h'.2.1
    | some x =>
      cases x' with
      | none => exact absurd h' h.2.1
      | some x' => rw [h.2.2, h'.2.2]

theorem lower_is_star {t : Str} (h : lower t = s!!"*") : t = s!!"*" := by
  cases t with
  | nil => cases h
  | cons c t =>
    cases t with
    | nil => rw [(lowerC_eq_iff (by decide) (by decide)).mp (List.cons.inj h).1]
    | cons d t => cases (List.cons.inj h).2

theorem name_texts {ns : List HeaderName} (h : ∀ n ∈ ns, Token n ∧ n ≠ s!!"*" ∧ lower n = n) : List.Forall₂ NameText ns ns := by
  induction ns with
  | nil => exact .nil
  | cons n ns ih =>
    have := h n List.mem_cons_self
    exact .cons ⟨this.1, this.2.1, this.2.2.symm⟩ (ih fun e he => h e (List.mem_cons_of_mem _ he))

theorem vary_value (l : StarList HeaderName) (h : ∀ n ∈ l.entries, Token n) :
    Vary.value l = .ok (join s!!", " (l.entries ++ if l.wildcard then [s!!"*"] else [])) := by
  unfold Vary.value
  rw [Res.mapM_ok_of_forall (g := id)]
  · rw [List.map_id]
    show Res.ok (writeStar s!!"*" (writeLoop [] true l.entries) l.wildcard) = _
    rw [writeStar_eq]
    · rfl
    · rintro ⟨h1, -⟩
      exact (h [] (by rw [h1]; simp)).1 rfl
  · intro n hn
    unfold HeaderValue.fromStr HeaderName.asStr
    rw [if_pos (Mime.token_ascii (h n hn))]
    rfl

/-- C108: what `Vary` writes is read by others as the list that was put in and as nothing else, exactly if the list is the
wildcard alone or one or more field names (tokens in small letters, as names are kept) without it. -/
theorem C108_vary_iff_partial (l : StarList HeaderName) (v : HeaderValue) (hv : Vary.value l = .ok v) :
    OnlyAs (StarText NameText v) l ↔
      l = ⟨[], true⟩ ∨ l.wildcard = false ∧ l.entries ≠ [] ∧ ∀ n ∈ l.entries, Token n ∧ n ≠ s!!"*" ∧ lower n = n := by
  constructor
  · intro h
    rcases (h l).mpr rfl with ⟨-, -, -⟩ | ⟨h'⟩
    · exact .inl rfl
    · refine .inr ⟨rfl, ?_, fun e he => ?_⟩
      · obtain ⟨-, -, -, hne⟩ := h'; exact hne
      · obtain ⟨t, ⟨h1, h2, rfl⟩, -⟩ := someListed_mem h' e he
        refine ⟨Mime.token_lower h1, fun hs => h2 ?_, lower_lower t⟩
        exact lower_is_star hs
  · rintro (rfl | ⟨hw, hn, hl⟩)
    · rw [vary_value _ (by simp)] at hv
      cases hv
      exact starText_star noStar_name
    · obtain ⟨es, w⟩ := l
      simp only at hw hn hl
      subst hw
      rw [vary_value _ fun n hn => (hl n hn).1] at hv
      simp only [Bool.false_eq_true, if_false, List.append_nil, Res.ok.injEq] at hv
      subst hv
      exact starText_list noStar_name delimited_name (name_texts hl) hn

example : Vary.value ⟨[s!!"accept", s!!"cookie"], false⟩ = .ok s!!"accept, cookie" := by decide

/-- C108 (broken): with the wildcard after names the value is outside of the standard and cannot be read. -/
theorem C108_violated_vary_star (ns : List HeaderName) (hn : ns ≠ []) (hl : ∀ n ∈ ns, Token n ∧ n ≠ s!!"*" ∧ lower n = n)
    (v : HeaderValue) (hv : Vary.value ⟨ns, true⟩ = .ok v) (l : StarList HeaderName) : ¬ StarText NameText v l := by
  rw [vary_value _ fun n hn => (hl n hn).1] at hv
  simp only [if_true, Res.ok.injEq] at hv
  subst hv
  exact starText_mixed noStar_name delimited_name_star (name_texts hl) hn l

example : Vary.value ⟨[s!!"accept"], true⟩ = .ok s!!"accept, *" := rfl

/-! ### Cache-Control -/

theorem mem_joined {sep : Str} {c : Char} {p : Str} {ps : List Str} (hp : p ∈ ps) (hc : c ∈ p) : c ∈ join sep ps := by
  induction ps with
  | nil => cases hp
  | cons q ps ih =>
    cases ps with
    | nil => rw [← List.mem_singleton.mp hp]; exact hc
    | cons q' ps =>
      show c ∈ q ++ sep ++ join sep (q' :: ps)
      rcases List.mem_cons.mp hp with rfl | hp
      · simp [hc]
      · simp [ih hp]

theorem not_mem_joined {sep : Str} {c : Char} {ps : List Str} (hs : c ∉ sep) (hc : ∀ p ∈ ps, c ∉ p) : c ∉ join sep ps := by
  induction ps with
  | nil => simp [join]
  | cons q ps ih =>
    cases ps with
    | nil => exact hc q (by simp)
    | cons q' ps =>
      show c ∉ q ++ sep ++ join sep (q' :: ps)
      have h1 := hc q (by simp)
      have h2 := ih fun p hp => hc p (List.mem_cons_of_mem _ hp)
      simp [h1, h2, hs]

/-- Without quotes a directive can be read in one way only. -/
theorem dirText_inj {t : Str} {d d' : Dir} (h : DirText t d) (h' : DirText t d') (hq : '"' ∉ t) : d = d' := by
  have hne : ∀ {n : Str}, Token n → '=' ∉ n := fun h => Mime.token_not_mem h (by decide)
  cases h with
  | bare hn =>
    exact (dirText_flag h' (hne hn)).symm
  | @token n v hn hv =>
    generalize ht : n ++ '=' :: v = t at h' hq
    cases h' with
    | bare hn' => exact absurd (by rw [← ht]; simp) (hne hn')
    | token hn' hv' =>
      obtain ⟨rfl, rfl⟩ := cut_inj (hne hn) (hne hn') ht
      rfl
    | quoted hn' _ _ => exact absurd (by simp) hq
  | quoted _ _ _ => exact absurd (by simp) hq

theorem dirList_inj {sep : Char} {v : Str} {ds ds' : List Dir} (hs : sep = ',' ∨ sep = ';') (hq : '"' ∉ v)
    (h : DirList sep v ds) (h' : DirList sep v ds') : ds = ds' := by
  have hsep : Mime.isToken sep = false ∧ sep ≠ '=' ∧ sep ≠ '"' ∧ sep ≠ '\\' ∧ sep ≠ ' ' ∧ sep ≠ '\t' := by
    rcases hs with rfl | rfl <;> decide
  obtain ⟨s1, s2, s3, s4, s5, s6⟩ := hsep
  have harg : ∀ {ds : List Dir}, DirList sep v ds → ∀ d ∈ ds, ∀ a, d.arg = some a → sep ∉ a := by
    rintro ds ⟨ps, ms, -, rfl, hf, rfl⟩ d hd a ha
    obtain ⟨m, hm, hmd⟩ := List.mem_filterMap.mp hd
    obtain rfl : m = some d := hmd
    obtain ⟨p, hp, hpm⟩ := forall₂_imp_mem hf.flip _ hm
    obtain ⟨x, t, y, -, -, rfl, ht⟩ := hpm
    have hqt : '"' ∉ t := by
      intro hc
      exact hq (mem_joined hp (by simp [hc]))
    cases ht with
    | bare _ => cases ha
    | token _ hv => cases ha; exact Mime.token_not_mem hv s1
    | quoted _ _ _ => exact absurd (by simp) hqt
  obtain ⟨ms, h1, rfl⟩ := dirList_items h s1 s2 s3 s4 s5 s6 (harg h)
  obtain ⟨ms', h1', rfl⟩ := dirList_items h' s1 s2 s3 s4 s5 s6 (harg h')
  have hqs : ∀ t ∈ (split sep v).map trim, '"' ∉ t := by
    intro t ht hc
    obtain ⟨p, hp, rfl⟩ := List.mem_map.mp ht
    obtain ⟨w, w', hs, -, -⟩ := trim_spec p
    exact hq (mem_of_mem_split hp (by rw [hs]; simp [hc]))
  generalize (split sep v).map trim = ts at h1 h1' hqs
  clear h h'
  congr 1
  induction h1 generalizing ms' with
  | nil => cases h1'; rfl
  | @cons t m ts ms ht hts ih =>
    cases h1' with
    | @cons _ m' _ ms' ht' hts' =>
      rw [ih _ hts' fun t ht => hqs t (List.mem_cons_of_mem _ ht)]
      congr 1
      cases m with
      | none =>
        cases m' with
        | none => rfl
        | some d => exact absurd ht (dirText_ne ht')
      | some d =>
        cases m' with
        | none => exact absurd ht' (dirText_ne ht)
        | some d' => rw [dirText_inj ht ht' (hqs t List.mem_cons_self)]

theorem dec_isDigits (n : Nat) : Digits (dec n) := fun c hc => isDigit_iff_le.mp (dec_digits n c hc)

theorem decValue_dec (n : Nat) : decValue (dec n) = n := (decValue_unique (dec_isDigits n) (numeral_dec n)).symm

theorem cache_names {n : Str} (h : n ∈ cacheFlags.map (·.1) ∨ n ∈ cacheTimed.map (·.1) ∨ n = s!!"s-max-age") : Token n := by
  have h1 : ∀ n ∈ cacheFlags.map (·.1) ++ cacheTimed.map (·.1) ++ [s!!"s-max-age"], n ≠ [] ∧ n.all Mime.isToken = true := by
    decide +kernel
  obtain ⟨a, b⟩ := h1 n (by simpa [or_assoc] using h)
  exact Mime.token_of a b

/-- A directive of the standard as it is written. -/
inductive CacheWritten : CacheDirective → Dir → Prop where
  | flag {n c} : (n, c) ∈ cacheFlags → CacheWritten c ⟨n, none, false⟩
  | stale : CacheWritten (.maxStale none) ⟨s!!"max-stale", none, false⟩
  | timed {n f} (d : Duration) : (n, f) ∈ cacheTimed → n ≠ s!!"s-maxage" → CacheWritten (f d) ⟨n, some (dec d.secs), false⟩
  | shared (d : Duration) : CacheWritten (.sMaxAge d) ⟨s!!"s-max-age", some (dec d.secs), false⟩

/-- What others find in a directive. -/
def keptCache : CacheDirective → Option CacheDirective
  | .sMaxAge _ => none
  | d => some (wholeSeconds d)

theorem cache_written (d : CacheDirective) : ∃ x, CacheWritten d x ∧ DirText d.display x ∧ x.quoted = false := by
  have flag : ∀ n : Str, (n, d) ∈ cacheFlags → d.display = n →
      ∃ x, CacheWritten d x ∧ DirText d.display x ∧ x.quoted = false := by
    intro n h hd
    exact ⟨_, .flag h, by rw [hd]; exact .bare (cache_names (.inl (List.mem_map.mpr ⟨_, h, rfl⟩))), rfl⟩
  have timed : ∀ (n : Str) (f : Duration → CacheDirective) (a : Duration), (n, f) ∈ cacheTimed → n ≠ s!!"s-maxage" → f a = d →
      d.display = n ++ '=' :: dec a.secs → ∃ x, CacheWritten d x ∧ DirText d.display x ∧ x.quoted = false := by
    rintro n f a h hn rfl hd
    exact ⟨_, .timed a h hn, by
      rw [hd]
      exact .token (cache_names (.inr (.inl (List.mem_map.mpr ⟨_, h, rfl⟩)))) (digits_token (dec_ne_nil _) (dec_isDigits _)), rfl⟩
  cases d with
  | immutable => exact flag _ (by simp [cacheFlags]; rfl) rfl
  | mustRevalidate => exact flag _ (by simp [cacheFlags]; rfl) rfl
  | noCache => exact flag _ (by simp [cacheFlags]; rfl) rfl
  | noStore => exact flag _ (by simp [cacheFlags]; rfl) rfl
  | noTransform => exact flag _ (by simp [cacheFlags]; rfl) rfl
  | onlyIfCached => exact flag _ (by simp [cacheFlags]; rfl) rfl
  | priv => exact flag _ (by simp [cacheFlags]; rfl) rfl
  | proxyRevalidate => exact flag _ (by simp [cacheFlags]; rfl) rfl
  | publ => exact flag _ (by simp [cacheFlags]; rfl) rfl
  | maxAge a => exact timed s!!"max-age" _ a (by simp [cacheTimed]) (by decide) rfl rfl
  | minFresh a => exact timed s!!"min-fresh" _ a (by simp [cacheTimed]) (by decide) rfl rfl
  | staleIfError a => exact timed s!!"stale-if-error" _ a (by simp [cacheTimed]) (by decide) rfl rfl
  | staleWhileRevalidate a => exact timed s!!"stale-while-revalidate" _ a (by simp [cacheTimed]) (by decide) rfl rfl
  | sMaxAge a =>
    exact ⟨_, .shared a, .token (n := s!!"s-max-age") (cache_names (.inr (.inr rfl))) (digits_token (dec_ne_nil _) (dec_isDigits _)), rfl⟩
  | maxStale a =>
    cases a with
    | none => exact ⟨_, .stale, .bare (cache_names (n := s!!"max-stale") (.inr (.inl (by simp [cacheTimed])))), rfl⟩
    | some a => exact timed s!!"max-stale" (fun d => .maxStale (some d)) a (by simp [cacheTimed]) (by decide) rfl rfl

/-- The names of the standard are different. -/
theorem flag_names {n n' : Str} {c c' : CacheDirective} (h : (n, c) ∈ cacheFlags) (h' : (n', c') ∈ cacheFlags)
    (hs : sameName n n' = true) : c = c' := by
  have : ∀ e ∈ cacheFlags, ∀ e' ∈ cacheFlags, sameName e.1 e'.1 = true → e.2 = e'.2 := by decide +kernel
  exact this _ h _ h' hs

theorem flag_timed {n n' : Str} {c : CacheDirective} {f} (h : (n, c) ∈ cacheFlags) (h' : (n', f) ∈ cacheTimed) :
    sameName n n' = false := by
  have : ∀ n ∈ cacheFlags.map (·.1), ∀ n' ∈ cacheTimed.map (·.1), sameName n n' = false := by decide +kernel
  exact this _ (List.mem_map.mpr ⟨_, h, rfl⟩) _ (List.mem_map.mpr ⟨_, h', rfl⟩)

theorem timed_names {n n' : Str} {f f'} (h : (n, f) ∈ cacheTimed) (h' : (n', f') ∈ cacheTimed)
    (hs : sameName n n' = true) : n = n' ∧ f = f' := by
  have hn : n = n' := by
    have : ∀ n ∈ cacheTimed.map (·.1), ∀ n' ∈ cacheTimed.map (·.1), sameName n n' = true → n = n' := by decide +kernel
    exact this _ (List.mem_map.mpr ⟨_, h, rfl⟩) _ (List.mem_map.mpr ⟨_, h', rfl⟩) hs
  refine ⟨hn, ?_⟩
  subst hn
  simp only [cacheTimed, List.mem_cons, Prod.mk.injEq, List.not_mem_nil, or_false] at h h'
  rcases h with ⟨rfl, rfl⟩ | ⟨rfl, rfl⟩ | ⟨rfl, rfl⟩ | ⟨rfl, rfl⟩ | ⟨rfl, rfl⟩ | ⟨rfl, rfl⟩ <;>
    rcases h' with ⟨h, rfl⟩ | ⟨h, rfl⟩ | ⟨h, rfl⟩ | ⟨h, rfl⟩ | ⟨h, rfl⟩ | ⟨h, rfl⟩ <;>
    first | rfl | exact absurd h (by decide)

theorem sameName_refl_token {n : Str} (h : Token n) : sameName n n = true :=
  (sameName_iff _ _).mpr ⟨Mime.token_ascii h, Mime.token_ascii h, rfl⟩

theorem sameName_swap {n m : Str} (h : sameName n m = true) : sameName m n = true := by
  rw [sameName_iff] at h ⊢
  exact ⟨h.2.1, h.1, h.2.2.symm⟩

/-- What others understand. -/
theorem cacheMeans_written {d : CacheDirective} {x : Dir} (h : CacheWritten d x) (o : Option CacheDirective) :
    CacheMeans x o ↔ o = keptCache d := by
  cases h with
  | @flag n c hc =>
    have hn := sameName_refl_token (cache_names (.inl (List.mem_map.mpr ⟨_, hc, rfl⟩)))
    have hk : keptCache d = some d := by
      have : ∀ e ∈ cacheFlags, keptCache e.2 = some e.2 := by decide +kernel
      exact this _ hc
    rw [hk]
    constructor
    · rintro (⟨h1, h2⟩ | ⟨h1, h2⟩ | ⟨h1, h2, h3, -, -⟩ | ⟨h1, h2⟩)
      · rw [flag_names hc h1 h2]
      · rw [flag_timed hc (n' := s!!"max-stale") (by simp [cacheTimed]; rfl)] at h1; cases h1
      · cases h3
      · rw [h1 _ hc] at hn; cases hn
    · rintro rfl
      exact .flag hc hn
  | stale =>
    have hm : (s!!"max-stale", fun d => CacheDirective.maxStale (some d)) ∈ cacheTimed := by simp [cacheTimed]
    constructor
    · rintro (⟨h1, h2⟩ | ⟨h1, h2⟩ | ⟨h1, h2, h3, -, -⟩ | ⟨h1, h2⟩)
      · have := sameName_swap h2; rw [flag_timed h1 hm] at this; cases this
      · rfl
      · cases h3
      · exact absurd (h2 _ hm) (by decide)
    · rintro rfl
      exact .stale (by decide) rfl
  | @timed n f a hc hne =>
    have hn := sameName_refl_token (cache_names (.inr (.inl (List.mem_map.mpr ⟨_, hc, rfl⟩))))
    have hk : keptCache (f a) = some (f ⟨a.secs, 0⟩) := by
      simp only [cacheTimed, List.mem_cons, Prod.mk.injEq, List.not_mem_nil, or_false] at hc
      rcases hc with ⟨rfl, rfl⟩ | ⟨rfl, rfl⟩ | ⟨rfl, rfl⟩ | ⟨rfl, rfl⟩ | ⟨rfl, rfl⟩ | ⟨rfl, rfl⟩ <;> first | rfl | exact absurd rfl hne
    rw [hk]
    constructor
    · rintro (⟨h1, h2⟩ | ⟨h1, h2⟩ | ⟨h1, h2, h3, -, -⟩ | ⟨h1, h2⟩)
      · have := sameName_swap h2; rw [flag_timed h1 hc] at this; cases this
      · cases h2
      · cases h3
        rw [(timed_names hc h1 h2).2, decValue_dec]
      · rw [h2 _ hc] at hn; cases hn
    · rintro rfl
      have := CacheMeans.timed (d := ⟨n, some (dec a.secs), false⟩) hc hn rfl (dec_ne_nil _) (dec_isDigits _)
      rwa [decValue_dec] at this
  | shared a =>
    have h1 : ∀ e ∈ cacheFlags, sameName s!!"s-max-age" e.1 = false := by decide +kernel
    have h2 : ∀ e ∈ cacheTimed, sameName s!!"s-max-age" e.1 = false := by decide +kernel
    constructor
    · rintro (⟨h, h'⟩ | ⟨h, h'⟩ | ⟨h, h', -, -, -⟩ | ⟨h, h'⟩)
      · rw [h1 _ h] at h'; cases h'
      · exact absurd (show sameName s!!"s-max-age" s!!"max-stale" = true from h) (by decide)
      · rw [h2 _ h] at h'; cases h'
      · rfl
    · rintro rfl
      exact .other h1 h2

theorem cache_value (ds : List CacheDirective) : CacheControl.value ds = .ok (join s!!", " (ds.map CacheDirective.display)) := by
  have := (C84_written (Url := Unit) (fun _ => s!!"-") (by simp) ⟨[], false⟩ ⟨[], false⟩ ⟨[], false⟩ ds []).2.2.2.1
  simpa using this

theorem dirList_of_listed {v : Str} {ms : List (Option Dir)} (h : Listed DirText [v] ms) : DirList ',' v (ms.filterMap id) := by
  obtain ⟨ps, h1, h2, h3⟩ := listed_value h
  refine ⟨ps, ms, h1, h2, h3.imp ?_, rfl⟩
  rintro p m ⟨a, t, b, ha, hb, rfl, hm⟩
  exact ⟨a, t, b, ha, hb, rfl, by cases m <;> exact hm⟩

/-- C108: others read what `Cache-Control` writes as the directives that were put in, in order, durations cut to whole
seconds and `s-maxage` left out. -/
theorem C108_cache (ds : List CacheDirective) (hn : ds ≠ []) (v : HeaderValue) (hv : CacheControl.value ds = .ok v) :
    OnlyAs (CacheText v) ((ds.filter fun d => match d with | .sMaxAge _ => false | _ => true).map wholeSeconds) := by
  rw [cache_value] at hv
  cases hv
  obtain ⟨xs, hxs⟩ : ∃ xs, List.Forall₂ (fun d x => CacheWritten d x ∧ DirText d.display x ∧ x.quoted = false) ds xs := by
    clear hn
    induction ds with
    | nil => exact ⟨[], .nil⟩
    | cons d ds ih =>
      obtain ⟨x, hx⟩ := cache_written d
      obtain ⟨xs, hxs⟩ := ih
      exact ⟨x :: xs, .cons hx hxs⟩
  have hne : xs ≠ [] := by
    rintro rfl
    cases hxs
    exact hn rfl
  have ht : List.Forall₂ DirText (ds.map CacheDirective.display) xs := by
    rw [List.forall₂_map_left_iff]
    exact hxs.imp fun _ _ h => h.2.1
  have hl : DirList ',' (join s!!", " (ds.map CacheDirective.display)) xs := by
    have := dirList_of_listed (listed_join ht (by simpa using hn))
    rwa [filterMap_some] at this
  have hq : '"' ∉ join s!!", " (ds.map CacheDirective.display) := by
    refine not_mem_joined (by decide) ?_
    intro p hp
    obtain ⟨d, -, rfl⟩ := List.mem_map.mp hp
    obtain ⟨x, -, hx, hxq⟩ := cache_written d
    generalize d.display = t at hx
    cases hx with
    | bare h => exact Mime.token_not_mem h (by decide)
    | token h h' =>
      have h1 := Mime.token_not_mem (c := '"') h (by decide)
      have h2 := Mime.token_not_mem (c := '"') h' (by decide)
      simp [h1, h2]
    | quoted _ _ _ => cases hxq
  have hk : (ds.map keptCache).filterMap id =
      (ds.filter fun d => match d with | .sMaxAge _ => false | _ => true).map wholeSeconds := by
    clear hxs ht hl hq hn
    induction ds with
    | nil => rfl
    | cons d ds ih =>
      rw [List.map_cons, List.filterMap_cons, List.filter_cons, ih]
      cases d <;> rfl
  have hm : ∀ os, List.Forall₂ CacheMeans xs os ↔ os = ds.map keptCache := by
    clear hne ht hl hq hk hn
    induction hxs with
    | nil => simp
    | @cons d x ds xs hx _ ih =>
      intro os
      constructor
      · intro h
        cases h with
        | cons h1 h2 => rw [(cacheMeans_written hx.1 _).mp h1, (ih _).mp h2]; rfl
      · rintro rfl
        exact .cons ((cacheMeans_written hx.1 _).mpr rfl) ((ih _).mpr rfl)
  rw [← hk]
  intro ys
  constructor
  · rintro ⟨xs', os, h1, -, h2, rfl⟩
    obtain rfl := dirList_inj (.inl rfl) hq h1 hl
    rw [(hm os).mp h2]
  · rintro rfl
    exact ⟨xs, _, hl, hne, (hm _).mpr rfl, rfl⟩

example : CacheControl.value [.maxAge ⟨60, 500⟩, .sMaxAge ⟨5, 0⟩, .publ] = .ok s!!"max-age=60, s-max-age=5, public" ∧
    ([.maxAge ⟨60, 500⟩, .sMaxAge ⟨5, 0⟩, .publ].filter fun d : CacheDirective => match d with | .sMaxAge _ => false | _ => true).map wholeSeconds =
      [.maxAge ⟨60, 0⟩, .publ] := by decide +kernel

/-- C108: so `Cache-Control` is read as what was put in exactly if there is a directive, none is `s-maxage` and durations
are whole seconds. -/
theorem C108_cache_iff_partial (ds : List CacheDirective) (v : HeaderValue) (hv : CacheControl.value ds = .ok v) :
    OnlyAs (CacheText v) ds ↔ ds ≠ [] ∧ ∀ d ∈ ds, (∀ x, d ≠ .sMaxAge x) ∧ wholeSeconds d = d := by
  by_cases hn : ds = []
  · subst hn
    simp only [ne_eq, not_true_eq_false, false_and, iff_false]
    intro h
    cases hv
    obtain ⟨xs, os, h1, h2, -, -⟩ := (h []).mpr rfl
    refine h2 (dirList_inj (.inl rfl) (by decide) h1 ⟨[[]], [none], by simp, rfl, ?_, rfl⟩)
    exact .cons ⟨[], [], [], by simp, by simp, rfl, rfl⟩ .nil
  · have hc := C108_cache ds hn v hv
    have : OnlyAs (CacheText v) ds ↔ (ds.filter fun d => match d with | .sMaxAge _ => false | _ => true).map wholeSeconds = ds := by
      constructor
      · intro h
        exact (h _).mp ((hc _).mpr rfl)
      · intro h
        rwa [h] at hc
    rw [this]
    constructor
    · intro h
      refine ⟨hn, ?_⟩
      have hl : (ds.filter fun d => match d with | .sMaxAge _ => false | _ => true).length = ds.length := by
        have := congrArg List.length h
        simpa using this
      have hf := List.length_filter_eq_length_iff.mp hl
      rw [List.filter_eq_self.mpr hf] at h
      intro d hd
      refine ⟨?_, ?_⟩
      · rintro x rfl
        exact absurd (hf _ hd) (by simp)
      · exact List.map_inj_left.mp (h.trans (List.map_id ds).symm) d hd
    · rintro ⟨-, h⟩
      rw [List.filter_eq_self.mpr]
      · exact (List.map_congr_left (g := id) fun d hd => (h d hd).2).trans (List.map_id ds)
      · intro d hd
        cases d <;> first | rfl | exact absurd rfl ((h _ hd).1 _)

example : CacheControl.value [.maxAge ⟨5, 0⟩, .noStore] = .ok s!!"max-age=5, no-store" := by decide +kernel

/-- C108 (broken): a shared cache is told nothing by `s-maxage`: the name is misspelt and everybody skips it. -/
theorem C108_violated_s_maxage (d : Duration) (v : HeaderValue) (hv : CacheControl.value [.sMaxAge d] = .ok v) :
    OnlyAs (CacheText v) [] := C108_cache _ (by simp) v hv

example : CacheControl.value [.sMaxAge ⟨60, 0⟩] = .ok s!!"s-max-age=60" := by decide +kernel

/-! ### Strict-Transport-Security -/

/-- The directives of a policy as they are written. -/
def hstsDirs (p : Hsts) : List Dir :=
  ⟨s!!"max-age", some (dec p.maxAge.secs), false⟩ ::
    ((if p.includeSubdomains then [⟨s!!"includeSubdomains", none, false⟩] else []) ++
      if p.preload then [⟨s!!"preload", none, false⟩] else [])

theorem hsts_dirs (p : Hsts) : DirList ';' p.headerValue (hstsDirs p) ∧ '"' ∉ p.headerValue := by
  have ht := digits_token (dec_ne_nil p.maxAge.secs) (dec_isDigits p.maxAge.secs)
  have h1 : DirText (s!!"max-age" ++ '=' :: dec p.maxAge.secs) ⟨s!!"max-age", some (dec p.maxAge.secs), false⟩ :=
    .token (Mime.token_of (by decide) (by decide)) ht
  have h2 : DirText s!!"includeSubdomains" ⟨s!!"includeSubdomains", none, false⟩ := .bare (Mime.token_of (by decide) (by decide))
  have h3 : DirText s!!"preload" ⟨s!!"preload", none, false⟩ := .bare (Mime.token_of (by decide) (by decide))
  have mem : ∀ {t d}, DirText t d → DirMember t (some d) := fun h => ⟨[], _, [], by simp, by simp, by simp, h⟩
  have hq : '"' ∉ natStr 10 p.maxAge.secs := Mime.token_not_mem ht (by decide)
  obtain ⟨a, i, b⟩ := p
  cases i <;> cases b
  · exact ⟨⟨_, [some _], by simp, rfl, .cons (mem h1) .nil, rfl⟩, by simpa [Hsts.headerValue] using hq⟩
  · refine ⟨⟨[_, _], [some _, some _], by simp, ?_, .cons (mem h1) (.cons (mem h3) .nil), rfl⟩, by simpa [Hsts.headerValue] using hq⟩
    simp [Hsts.headerValue, join]; rfl
  · refine ⟨⟨[_, _], [some _, some _], by simp, ?_, .cons (mem h1) (.cons (mem h2) .nil), rfl⟩, by simpa [Hsts.headerValue] using hq⟩
    simp [Hsts.headerValue, join]; rfl
  · refine ⟨⟨[_, _, _], [some _, some _, some _], by simp, ?_, .cons (mem h1) (.cons (mem h2) (.cons (mem h3) .nil)), rfl⟩,
      by simpa [Hsts.headerValue] using hq⟩
    simp [Hsts.headerValue, join]; rfl

/-- C108: others read what `Strict-Transport-Security` writes as the policy that was put in, its age cut to whole seconds. -/
theorem C108_hsts (p : Hsts) : OnlyAs (HstsText p.headerValue) ⟨⟨p.maxAge.secs, 0⟩, p.includeSubdomains, p.preload⟩ := by
  obtain ⟨hl, hq⟩ := hsts_dirs p
  have e1 : sameName s!!"max-age" s!!"max-age" = true := by decide
  have e2 : sameName s!!"includeSubdomains" s!!"includeSubDomains" = true := by decide
  have e3 : sameName s!!"preload" s!!"preload" = true := by decide
  have f1 : sameName s!!"includeSubdomains" s!!"max-age" = false := by decide
  have f2 : sameName s!!"preload" s!!"max-age" = false := by decide
  have f3 : sameName s!!"preload" s!!"includeSubDomains" = false := by decide
  have f4 : sameName s!!"includeSubdomains" s!!"preload" = false := by decide
  have f5 : sameName s!!"max-age" s!!"preload" = false := by decide
  have f6 : sameName s!!"max-age" s!!"includeSubdomains" = false := by decide
  have hsub : (∃ d ∈ hstsDirs p, sameName d.name s!!"includeSubDomains" = true ∧ d.arg = none) ↔ p.includeSubdomains = true := by
    obtain ⟨a, i, b⟩ := p
    cases i <;> cases b <;> simp [hstsDirs, e2, f3]
  have hpre : (∃ d ∈ hstsDirs p, sameName d.name s!!"preload" = true ∧ d.arg = none) ↔ p.preload = true := by
    obtain ⟨a, i, b⟩ := p
    cases i <;> cases b <;> simp [hstsDirs, e3, f4]
  have hage : ∀ k : Duration, (∃ d ∈ hstsDirs p, sameName d.name s!!"max-age" = true ∧
      ∃ v, d.arg = some v ∧ v ≠ [] ∧ Digits v ∧ k = ⟨decValue v, 0⟩) ↔ k = ⟨p.maxAge.secs, 0⟩ := by
    intro k
    constructor
    · rintro ⟨d, hd, hn, v, hv, -, -, rfl⟩
      have : d = ⟨s!!"max-age", some (dec p.maxAge.secs), false⟩ := by
        rcases List.mem_cons.mp hd with h | h
        · exact h
        · exfalso
          rcases List.mem_append.mp h with h | h <;> split at h <;> simp at h <;> subst h
          · rw [f1] at hn; cases hn
          · rw [f2] at hn; cases hn
      subst this
      cases hv
      rw [decValue_dec]
    · rintro rfl
      exact ⟨_, List.mem_cons_self, e1, _, rfl, dec_ne_nil _, dec_isDigits _, by rw [decValue_dec]⟩
  have honce : (hstsDirs p).Pairwise fun a b => sameName a.name b.name = false := by
    obtain ⟨a, i, b⟩ := p
    cases i <;> cases b <;> simp [hstsDirs, f4, f5, f6]
  intro q
  constructor
  · rintro ⟨ds, h1, h2⟩
    obtain rfl := dirList_inj (.inr rfl) hq h1 hl
    have ha := (hage _).mp h2.maxAge
    have hs := h2.subdomains.trans hsub
    have hp := h2.preload.trans hpre
    obtain ⟨a, i, b⟩ := q
    simp only at ha hs hp
    rw [ha, Bool.eq_iff_iff.mpr hs, Bool.eq_iff_iff.mpr hp]
  · rintro rfl
    exact ⟨_, hl, honce, (hage _).mpr rfl, hsub.symm, hpre.symm⟩

example : Hsts.headerValue ⟨⟨60, 5⟩, true, true⟩ = s!!"max-age=60;includeSubdomains;preload" := by decide +kernel

/-! ### Allow -/

theorem method_token (m : Method) : Token m.asStr := by
  cases m <;> exact Mime.token_of (by decide) (by decide)

/-- C108: others read what `Allow` writes as the names of the methods of the set, whatever the order it is visited in. -/
theorem C108_allow (order : List Method) (v : HeaderValue) (hv : Allow.value order = .ok v) :
    OnlyAs (AllowText v) (order.map Method.asStr) := by
  unfold Allow.value at hv
  rw [writeLoop_eq] at hv
  cases hv
  have hf : List.Forall₂ MethodText (order.map Method.asStr) (order.map Method.asStr) := by
    induction order with
    | nil => exact .nil
    | cons m ms ih => exact .cons ⟨method_token m, rfl⟩ ih
  intro ys
  by_cases hn : order = []
  · subst hn
    have hl : Listed MethodText [[]] [none] :=
      ⟨[[[]]], by simp, by simp [join], by simpa using ⟨[], [], [], by simp [Ows], by simp [Ows], rfl, rfl⟩⟩
    constructor
    · rintro ⟨ms, h1, rfl⟩
      rw [listed_inj delimited_method h1 hl]
      rfl
    · rintro rfl
      exact ⟨_, hl, rfl⟩
  · have hl := listed_join hf (by simpa using hn)
    constructor
    · rintro ⟨ms, h1, rfl⟩
      rw [listed_inj delimited_method h1 hl, filterMap_some]
    · rintro rfl
      exact ⟨_, hl, (filterMap_some _).symm⟩

example : Allow.value [.get, .versionControl] = .ok s!!"GET, VERSION-CONTROL" := by decide +kernel

/-! ### Clear-Site-Data -/

theorem clear_value (l : StarList ClearDirective) :
    ClearSiteData.value l = .ok (join s!!", " (l.entries.map ClearDirective.asStr ++ if l.wildcard then [s!!"\"*\""] else [])) :=
  (C84_written (Url := Unit) (fun _ => s!!"-") (by simp) ⟨[], false⟩ l ⟨[], false⟩ [] []).2.1

/-- The name of a kind of data. -/
theorem clear_name (d : ClearDirective) : ∃ n, (n, some d) ∈ clearNames ∧ QuotedName d.asStr n := by
  cases d
  · exact ⟨s!!"cache", by simp [clearNames], rfl, by decide⟩
  · exact ⟨s!!"cookies", by simp [clearNames], rfl, by decide⟩
  · exact ⟨s!!"storage", by simp [clearNames], rfl, by decide⟩
  · exact ⟨s!!"executionContexts", by simp [clearNames], rfl, by decide⟩

/-- C108: others read what `Clear-Site-Data` writes as what was put in and as nothing else, exactly if anything was. -/
theorem C108_clear_iff_partial (l : StarList ClearDirective) (v : HeaderValue) (hv : ClearSiteData.value l = .ok v) :
    OnlyAs (ClearText v) l ↔ l.entries ≠ [] ∨ l.wildcard = true := by
  rw [clear_value] at hv
  obtain ⟨es, w⟩ := l
  cases hv
  by_cases hn : es = [] ∧ w = false
  · obtain ⟨rfl, rfl⟩ := hn
    simp only [ne_eq, not_true_eq_false, Bool.false_eq_true, or_self, iff_false]
    intro h
    obtain ⟨ms, h1, h2, -⟩ := (h _).mpr rfl
    have hl : Listed QuotedName [[]] [none] :=
      ⟨[[[]]], by simp, by simp [join], by simpa using ⟨[], [], [], by simp [Ows], by simp [Ows], rfl, rfl⟩⟩
    have := listed_inj delimited_quoted h1 hl
    subst this
    exact h2 rfl
  · have hn' : es ≠ [] ∨ w = true := by
      by_cases h : es = []
      · right
        cases w with
        | false => exact absurd ⟨h, rfl⟩ hn
        | true => rfl
      · exact .inl h
    simp only [hn', iff_true]
    obtain ⟨ns, hns⟩ : ∃ ns, List.Forall₂ (fun d n => (n, some d) ∈ clearNames ∧ QuotedName (ClearDirective.asStr d) n) es ns := by
      clear hn hn'
      induction es with
      | nil => exact ⟨[], .nil⟩
      | cons d ds ih =>
        obtain ⟨x, hx⟩ := clear_name d
        obtain ⟨xs, hxs⟩ := ih
        exact ⟨x :: xs, .cons hx hxs⟩
    have hf : List.Forall₂ QuotedName (es.map ClearDirective.asStr ++ if w then [s!!"\"*\""] else []) (ns ++ if w then [s!!"*"] else []) := by
      refine List.rel_append ?_ ?_
      · rw [List.forall₂_map_left_iff]
        exact hns.imp fun _ _ h => h.2
      · cases w
        · exact .nil
        · exact .cons ⟨rfl, by decide⟩ .nil
    have hne : (es.map ClearDirective.asStr ++ if w then [s!!"\"*\""] else []) ≠ [] := by
      rcases hn' with h | rfl
      · simp [h]
      · simp
    have hl := listed_join hf hne
    have hc : clearOf ((ns ++ if w then [s!!"*"] else []).map some) = ⟨es, w⟩ := by
      have h1 : ∀ {ds ns}, List.Forall₂ (fun d n => (n, some d) ∈ clearNames ∧ QuotedName (ClearDirective.asStr d) n) ds ns →
          ns.filterMap (fun n => (clearNames.lookup n).bind id) = ds ∧ s!!"*" ∉ ns := by
        intro ds ns h
        induction h with
        | nil => exact ⟨rfl, by simp⟩
        | @cons d n ds ns hx _ ih =>
          obtain ⟨ih1, ih2⟩ := ih
          have hk := (clearName_iff hx.1).2.1
          refine ⟨by rw [List.filterMap_cons, hk, ih1]; rfl, ?_⟩
          intro hm
          rcases List.mem_cons.mp hm with h | h
          · rw [← h] at hk
            exact absurd (show clearNames.lookup s!!"*" = some (some d) from hk) (by cases d <;> decide)
          · exact ih2 h
      obtain ⟨h2, h3⟩ := h1 hns
      unfold clearOf
      cases w
      · simp only [Bool.false_eq_true, if_false, List.append_nil, List.filterMap_map, List.mem_map]
        congr 1
        simpa using h3
      · simp only [if_true, List.map_append, List.filterMap_append, List.filterMap_map]
        congr 1
        · rw [show ns.filterMap ((fun m : Option Str => m.bind fun n => (clearNames.lookup n).bind id) ∘ some) = es from h2]
          exact List.append_nil _
        · simp
    intro y
    constructor
    · rintro ⟨ms, h1, -, rfl⟩
      rw [listed_inj delimited_quoted h1 hl, hc]
    · rintro rfl
      refine ⟨_, hl, ?_, hc.symm⟩
      rw [filterMap_some]
      intro h
      rw [h] at hf
      exact hne (List.forall₂_nil_right_iff.mp hf)

example : ClearSiteData.value ⟨[.cache, .storage], true⟩ = .ok s!!"\"cache\", \"storage\", \"*\"" := by decide +kernel

/-! ### Timing-Allow-Origin -/

/-- A word between commas. -/
def Unspaced (t : Str) : Prop := t ≠ [] ∧ ∀ c ∈ t, c ≠ ' ' ∧ c ≠ '\t' ∧ c ≠ ','

theorem origins_value {Url : Type} (display : Url → Str) (hd : ∀ u, display u ≠ []) (l : StarList Url) :
    TimingAllowOrigin.value display l = .ok (join s!!", " (l.entries.map display ++ if l.wildcard then [s!!"*"] else [])) :=
  (C84_written display hd ⟨[], false⟩ ⟨[], false⟩ l [] []).2.2.1

theorem ows_word {a b p t : Str} (ha : Ows a) (hb : Ows b) (ht : Unspaced t) (hp : Unspaced p) {w : Str} (hw : Ows w)
    (h : w ++ p = a ++ (t ++ b)) : p = t := by
  have ln : ∀ {t r : Str}, Unspaced t → NoLead (t ++ r) := by
    intro t r ht c hc
    cases t with
    | nil => exact absurd rfl ht.1
    | cons x t =>
      cases hc
      have := ht.2 c List.mem_cons_self
      exact ⟨this.1, this.2.1⟩
  obtain ⟨rfl, h2⟩ := lead_inj hw ha (by simpa using ln (r := []) hp) (ln ht) h
  cases b with
  | nil => simpa using h2
  | cons x b =>
    exfalso
    have := hp.2 x (by rw [h2]; simp)
    rcases hb x List.mem_cons_self with h | h
    · exact this.1 h
    · exact this.2.1 h

theorem split_joined (ts : List Str) (h : ∀ t ∈ ts, ',' ∉ t) (p : Str) :
    (p ∈ split ',' (join s!!", " ts) → p = [] ∨ ∃ t ∈ ts, ∃ w, Ows w ∧ p = w ++ t) ∧
    ∀ t ∈ ts, ∃ w, Ows w ∧ w ++ t ∈ split ',' (join s!!", " ts) := by
  cases ts with
  | nil => simp [join, split]
  | cons t ts =>
    rw [show s!!", " = ',' :: s!!" " from rfl, split_join (by decide) h]
    refine ⟨fun hp => ?_, fun u hu => ?_⟩
    · right
      rcases List.mem_cons.mp hp with rfl | hp
      · exact ⟨p, by simp, [], ows_nil, rfl⟩
      · obtain ⟨u, hu, rfl⟩ := List.mem_map.mp hp
        exact ⟨u, List.mem_cons_of_mem _ hu, s!!" ", ows_space, rfl⟩
    · rcases List.mem_cons.mp hu with rfl | hu
      · exact ⟨[], ows_nil, List.mem_cons_self⟩
      · exact ⟨s!!" ", ows_space, List.mem_cons_of_mem _ (List.mem_map_of_mem hu)⟩

/-- C108: which origins others give timing information to: everybody with the wildcard; otherwise those whose text is the
text of a URL of the list. -/
theorem C108_origins_partial {Url : Type} (display : Url → Str) (l : StarList Url)
    (hd : ∀ u, Unspaced (display u) ∧ display u ≠ s!!"*") (v : HeaderValue) (hv : TimingAllowOrigin.value display l = .ok v)
    (o : Str) (ho : Unspaced o) :
    TimingAllows v o ↔ l.wildcard = true ∨ ∃ u ∈ l.entries, display u = o := by
  rw [origins_value display fun u => (hd u).1.1] at hv
  cases hv
  have hstar : Unspaced s!!"*" := ⟨by simp, by decide⟩
  have hts : ∀ t ∈ l.entries.map display ++ (if l.wildcard then [s!!"*"] else []), Unspaced t := by
    intro t ht
    rcases List.mem_append.mp ht with ht | ht
    · obtain ⟨u, -, rfl⟩ := List.mem_map.mp ht
      exact (hd u).1
    · split at ht
      · rw [List.mem_singleton.mp ht]; exact hstar
      · cases ht
  have hcom : ∀ t ∈ l.entries.map display ++ (if l.wildcard then [s!!"*"] else []), ',' ∉ t :=
    fun t ht hc => ((hts t ht).2 _ hc).2.2 rfl
  have hs := split_joined _ hcom
  constructor
  · rintro ⟨p, hp, a, b, ha, hb, he⟩
    have hin : ∀ x : Str, Unspaced x → p = a ++ (x ++ b) →
        x ∈ l.entries.map display ++ (if l.wildcard then [s!!"*"] else []) := by
      intro x hx hpx
      rcases (hs p).1 hp with rfl | ⟨t, ht, w, hw, rfl⟩
      · have := congrArg List.length hpx
        have h1 := List.length_pos_iff.mpr hx.1
        simp at this
        omega
      · rw [← ows_word ha hb hx (hts t ht) hw hpx]
        exact ht
    have hfin : ∀ x, x ∈ l.entries.map display ++ (if l.wildcard then [s!!"*"] else []) →
        (∃ u ∈ l.entries, display u = x) ∨ l.wildcard = true := by
      intro x hx
      rcases List.mem_append.mp hx with h | h
      · exact .inl (List.mem_map.mp h)
      · split at h
        · exact .inr ‹_›
        · cases h
    rcases he with he | he
    · rcases hfin _ (hin _ hstar he) with ⟨u, -, hu⟩ | h
      · exact absurd hu (hd u).2
      · exact .inl h
    · exact (hfin _ (hin _ ho he)).symm
  · rintro (h | ⟨u, hu, rfl⟩)
    · obtain ⟨w, hw, hm⟩ := (hs []).2 s!!"*" (by simp [h])
      exact ⟨_, hm, w, [], hw, ows_nil, .inl rfl⟩
    · obtain ⟨w, hw, hm⟩ := (hs []).2 (display u) (by simp; exact .inl ⟨u, hu, rfl⟩)
      exact ⟨_, hm, w, [], hw, ows_nil, .inr (by simp)⟩

example : TimingAllowOrigin.value (fun u : Str => u) ⟨[s!!"https://a.example/"], true⟩ = .ok s!!"https://a.example/, *" := rfl

/-- C108 (broken): a URL is written with its path, at least a slash, and so is not the text of an origin: without the
wildcard nobody is given timing information. -/
theorem C108_violated_origin {Url : Type} (display : Url → Str) (l : StarList Url) (hw : l.wildcard = false)
    (hd : ∀ u, Unspaced (display u) ∧ ∃ o path, SerializedOrigin o ∧ display u = o ++ '/' :: path)
    (v : HeaderValue) (hv : TimingAllowOrigin.value display l = .ok v) (o : Str) (ho : Unspaced o) (hs : SerializedOrigin o) :
    ¬ TimingAllows v o := by
  have count : ∀ {o : Str}, SerializedOrigin o → o.count '/' = 2 := by
    rintro o ⟨s, h, rfl, h1, h2⟩
    simp only [List.count_append, List.count_eq_zero.mpr h1, List.count_eq_zero.mpr h2]
    rfl
  have more : ∀ u, 3 ≤ (display u).count '/' := by
    intro u
    obtain ⟨-, o', path, ho', hu⟩ := hd u
    rw [hu, List.count_append, count ho', List.count_cons_self]
    omega
  rw [C108_origins_partial display l (fun u => ⟨(hd u).1, fun h => ?_⟩) v hv o ho]
  · rw [hw]
    rintro (h | ⟨u, -, rfl⟩)
    · cases h
    · have := more u
      rw [count hs] at this
      omega
  · have := more u
    rw [h] at this
    exact absurd this (by decide)

example : SerializedOrigin s!!"https://a.example" ∧
    (s!!"https://a.example/" : Str) = s!!"https://a.example" ++ '/' :: [] := by
  exact ⟨⟨s!!"https", s!!"a.example", rfl, by decide, by decide⟩, rfl⟩

/-- C108 (broken): commas, which URLs may have in paths, are written as they are, so that a URL of one site can name the
origin of another. -/
theorem C108_violated_origin_comma {Url : Type} (display : Url → Str) (u : Url) {a o b : Str}
    (hu : display u = a ++ ',' :: (o ++ ',' :: b)) (v : HeaderValue)
    (hv : TimingAllowOrigin.value display ⟨[u], false⟩ = .ok v) (ho : Unspaced o) : TimingAllows v o := by
  have hval : TimingAllowOrigin.value display ⟨[u], false⟩ = .ok (display u) := by
    unfold TimingAllowOrigin.value
    simp [writeStar, writeLoop]
  rw [hval] at hv
  cases hv
  rw [hu]
  refine ⟨o, ?_, [], [], ows_nil, ows_nil, .inr (by simp)⟩
  rw [split_concat, split_append_sep fun h => (ho.2 _ h).2.2 rfl]
  simp

example : (s!!"https://a.example/,https://b.example,/" : Str) = s!!"https://a.example/" ++ ',' :: (s!!"https://b.example" ++ ',' :: s!!"/") := rfl

end HT
