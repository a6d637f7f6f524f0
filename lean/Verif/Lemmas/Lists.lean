import Verif.Spec.Lists
import Verif.Lemmas.Typed
import Mathlib.Data.List.Forall2

/-! Helper lemmas about comma-separated lists. -/

namespace HT
open Spec

/-! ### trimming and splitting -/

theorem trim_append_ws' {w : Str} (hw : ∀ c ∈ w, isWs c = true) (s : Str) : trim (s ++ w) = trim s := by
  obtain ⟨a, b, hs, ha, hb⟩ := trim_spec s
  conv => lhs; rw [hs]
  rw [show a ++ trim s ++ b ++ w = a ++ trim s ++ (b ++ w) by simp]
  rw [trim_surround ha _ (trimmed_trim s)]
  intro c hc
  rcases List.mem_append.mp hc with h | h
  · exact hb c h
  · exact hw c h

theorem split_append_right {c : Char} {w : Str} (hw : c ∉ w) (s : Str) :
    ∃ ps p, split c s = ps ++ [p] ∧ split c (s ++ w) = ps ++ [p ++ w] := by
  induction s with
  | nil => exact ⟨[], [], by simp [split], by simp [split_of_not_mem hw]⟩
  | cons x xs ih =>
    obtain ⟨ps, p, h1, h2⟩ := ih
    by_cases hx : x = c
    · refine ⟨[] :: ps, p, ?_, ?_⟩
      · rw [split, if_pos hx, h1]; simp
      · rw [List.cons_append, split, if_pos hx, h2]; simp
    · cases ps with
      | nil =>
        refine ⟨[], x :: p, ?_, ?_⟩
        · rw [split, if_neg hx, h1]; simp
        · rw [List.cons_append, split, if_neg hx, h2]; simp
      | cons q qs =>
        refine ⟨(x :: q) :: qs, p, ?_, ?_⟩
        · rw [split, if_neg hx, h1]; simp
        · rw [List.cons_append, split, if_neg hx, h2]; simp

/-- Trimming the whole before splitting only affects whitespace around the pieces. -/
theorem split_trim_map {c : Char} (hc : isWs c = false) (v : Str) :
    (split c (trim v)).map trim = (split c v).map trim := by
  obtain ⟨w, w', hv, hw, hw'⟩ := trim_spec v
  have nw : c ∉ w := fun h => by rw [hw c h] at hc; cases hc
  have nw' : c ∉ w' := fun h => by rw [hw' c h] at hc; cases hc
  obtain ⟨p, ps, h1⟩ : ∃ p ps, split c (trim v) = p :: ps := by
    cases h : split c (trim v) with
    | nil => exact absurd h (split_ne_nil c _)
    | cons p ps => exact ⟨p, ps, rfl⟩
  have h2 := split_append_left nw h1
  obtain ⟨qs, q, h3, h4⟩ := split_append_right nw' (w ++ trim v)
  rw [← hv] at h4
  rw [h4, List.map_append, List.map_cons, List.map_nil, trim_append_ws' hw',
    ← List.map_singleton, ← List.map_append, ← h3, h2, h1]
  simp [trim_ws_append hw]

theorem iter_eq (vs : HeaderValues) : HeaderValues.iter vs = vs := by
  unfold HeaderValues.iter
  rw [Values.collect_eq]
  simp [Values.newValues, Values.remaining]

theorem trimmedParts_map (vs : HeaderValues) : (trimmedParts vs).map trim = listItems vs := by
  unfold trimmedParts listItems
  rw [iter_eq, List.map_flatMap]
  congr 1
  funext v
  exact split_trim_map (by decide) v

/-! ### writing -/

theorem writeLoop_false (out : Str) (x : Str) (xs : List Str) :
    writeLoop out false (x :: xs) = out ++ s!!", " ++ join s!!", " (x :: xs) := by
  induction xs generalizing out x with
  | nil => simp [writeLoop, join]
  | cons y ys ih =>
    rw [writeLoop, ih]
    simp [join]

theorem writeLoop_eq (xs : List Str) : writeLoop [] true xs = join s!!", " xs := by
  cases xs with
  | nil => rfl
  | cons x xs =>
    cases xs with
    | nil => rfl
    | cons y ys =>
      rw [writeLoop, writeLoop_false]
      simp [join]

theorem byteLen_eq_zero {s : Str} : byteLen s = 0 ↔ s = [] := by
  cases s with
  | nil => simp [byteLen]
  | cons x xs =>
    have := utf8Len_pos x
    simp [byteLen]
    omega

/-- The texts a list header writes: the entries, then the wildcard. -/
def written (star : Str) (texts : List Str) (wildcard : Bool) : List Str :=
  texts ++ (if wildcard then [star] else [])

theorem join_append_one {sep : Str} {x : Str} {xs : List Str} (hx : xs ≠ []) :
    join sep (xs ++ [x]) = join sep xs ++ (sep ++ x) := by
  induction xs with
  | nil => exact absurd rfl hx
  | cons y ys ih =>
    cases ys with
    | nil => simp [join]
    | cons z zs =>
      have := ih (by simp)
      simp only [List.cons_append] at this ⊢
      rw [join, this, join]
      simp

theorem join_eq_nil {sep : Str} (hs : sep ≠ []) {xs : List Str} : join sep xs = [] ↔ xs = [] ∨ xs = [[]] := by
  cases xs with
  | nil => simp [join]
  | cons x xs =>
    cases xs with
    | nil => simp [join]
    | cons y ys => simp [join, hs]

/-- Unless the only entry is the empty text, the output is the entries and the wildcard joined. -/
theorem writeStar_eq {star : Str} {texts : List Str} {w : Bool} (h : ¬ (texts = [[]] ∧ w = true)) :
    writeStar star (writeLoop [] true texts) w = join s!!", " (written star texts w) := by
  rw [writeLoop_eq]
  unfold writeStar written
  cases w with
  | false => simp
  | true =>
    simp only [if_true, byteLen_eq_zero, join_eq_nil (show s!!", " ≠ [] by decide)]
    simp only [and_true] at h
    by_cases he : texts = []
    · subst he; simp [join]
    · rw [if_neg (by simp [he, h]), join_append_one he]

theorem listItems_nil : listItems [[]] = [[]] := by decide

/-- Reading back a written non-empty list of comma-free trimmed texts. -/
theorem listItems_join {texts : List Str} (hne : texts ≠ []) (hc : ∀ t ∈ texts, ',' ∉ t)
    (ht : ∀ t ∈ texts, Trimmed t) : listItems [join s!!", " texts] = texts := by
  cases texts with
  | nil => exact absurd rfl hne
  | cons x xs =>
    unfold listItems
    rw [List.flatMap_cons, List.flatMap_nil, List.append_nil, split_join (by decide) hc]
    rw [List.map_cons, List.map_map, trim_of_trimmed (ht x (by simp))]
    congr 1
    rw [List.map_congr_left (g := id)]
    · simp
    · intro t htm
      simp [trim_of_trimmed (ht t (by simp [htm]))]

/-- The members of what is written are comma-free and trimmed. -/
theorem listItems_mem {vs : List Str} {t : Str} (h : t ∈ listItems vs) : ',' ∉ t ∧ Trimmed t := by
  unfold listItems at h
  rw [List.mem_flatMap] at h
  obtain ⟨v, -, h⟩ := h
  rw [List.mem_map] at h
  obtain ⟨p, hp, rfl⟩ := h
  exact ⟨fun hm => not_mem_of_mem_split hp (mem_of_mem_trim hm), trimmed_trim p⟩

theorem isAscii_join {sep : Str} (hs : isAscii sep = true) {xs : List Str} (h : ∀ x ∈ xs, isAscii x = true) :
    isAscii (join sep xs) = true := by
  induction xs with
  | nil => rfl
  | cons x xs ih =>
    cases xs with
    | nil => exact h x (by simp)
    | cons y ys =>
      rw [join, isAscii_append, isAscii_append, h x (by simp), hs, ih (fun z hz => h z (by simp [hz]))]
      rfl

theorem isAscii_of_join {sep : Str} {xs : List Str} (h : isAscii (join sep xs) = true) : ∀ x ∈ xs, isAscii x = true := by
  induction xs with
  | nil => simp
  | cons x xs ih =>
    cases xs with
    | nil => simpa [join] using h
    | cons y ys =>
      rw [join, isAscii_append, isAscii_append, Bool.and_eq_true, Bool.and_eq_true] at h
      intro z hz
      rcases List.mem_cons.mp hz with rfl | hz
      · exact h.1.1
      · exact ih h.2 z hz

/-! ### reading with a wildcard -/

theorem starLoop_eq {α : Type} (star : Str) (parse : Str → Res α) (parts : List Str) (acc : StarList α) :
    starLoop star parse parts acc =
      (Res.mapM parse ((parts.map trim).filter (· ≠ star))).map fun es =>
        ⟨acc.entries ++ es, acc.wildcard || decide (star ∈ parts.map trim)⟩ := by
  induction parts generalizing acc with
  | nil => cases acc; simp [starLoop]
  | cons p ps ih =>
    unfold starLoop
    simp only [List.map_cons]
    by_cases h : trim p = star
    · rw [if_pos h, ih, List.filter_cons_of_neg (by simp [h])]
      simp [h]
    · rw [if_neg h, List.filter_cons_of_pos (by simp [h])]
      simp only [Res.mapM_cons]
      cases hp : parse (trim p) with
      | err e => rfl
      | panic => rfl
      | ok e =>
        simp only [Res.bind_ok]
        rw [ih]
        cases Res.mapM parse ((ps.map trim).filter (· ≠ star)) with
        | err e => rfl
        | panic => rfl
        | ok es => simp [Ne.symm h]

/-- What a wildcard list header reads as, in terms of the list members. -/
theorem readStarList_some {α : Type} {name : HeaderName} {star : Str} {parse : Str → Res α} {h : Headers}
    {vs : HeaderValues} (hv : h.get name = some vs) :
    readStarList name star parse h =
      (Res.mapM parse ((listItems vs).filter (· ≠ star))).map fun es =>
        some ⟨es, decide (star ∈ listItems vs)⟩ := by
  unfold readStarList
  rw [hv]
  simp only
  rw [starLoop_eq, trimmedParts_map]
  cases Res.mapM parse ((listItems vs).filter (· ≠ star)) <;> simp [Res.map]

theorem map_some_ok {α β : Type} {r : Res α} {f : α → β} {b : β} :
    r.map (fun a => some (f a)) = .ok (some b) ↔ ∃ a, r = .ok a ∧ f a = b := by
  cases r <;> simp [Res.map]

/-- Round trip of a wildcard list header, from the round trip of one entry. -/
theorem starList_reads_back {α : Type} {name : HeaderName} {star : Str} {parse : Str → Res α} {display : α → Str}
    {h : Headers} {l : StarList α} (hstar : ',' ∉ star ∧ Trimmed star)
    (hne : l.entries ≠ [] ∨ l.wildcard = true)
    (hent : ∀ e ∈ l.entries, ',' ∉ display e ∧ Trimmed (display e) ∧ display e ≠ star ∧ parse (display e) = .ok e)
    (hv : h.get name = some [join s!!", " (written star (l.entries.map display) l.wildcard)]) :
    readStarList name star parse h = .ok (some l) := by
  rw [readStarList_some hv]
  have hl : listItems [join s!!", " (written star (l.entries.map display) l.wildcard)]
      = written star (l.entries.map display) l.wildcard := by
    apply listItems_join
    · unfold written
      rcases hne with h | h
      · simp [h]
      · simp [h]
    all_goals
      intro t ht
      unfold written at ht
      rcases List.mem_append.mp ht with ht | ht
      · rw [List.mem_map] at ht
        obtain ⟨e, he, rfl⟩ := ht
        first | exact (hent e he).1 | exact (hent e he).2.1
      · split at ht
        · simp at ht; subst ht; first | exact hstar.1 | exact hstar.2
        · simp at ht
  rw [hl]
  have hf : (written star (l.entries.map display) l.wildcard).filter (· ≠ star) = l.entries.map display := by
    unfold written
    rw [List.filter_append]
    have h1 : (l.entries.map display).filter (· ≠ star) = l.entries.map display := by
      rw [List.filter_eq_self]
      intro t ht
      rw [List.mem_map] at ht
      obtain ⟨e, he, rfl⟩ := ht
      simp [(hent e he).2.2.1]
    have h2 : (if l.wildcard then [star] else []).filter (· ≠ star) = [] := by
      split <;> simp
    rw [h1, h2, List.append_nil]
  rw [hf]
  have hp : Res.mapM parse (l.entries.map display) = .ok l.entries := by
    clear hf hl hv hne
    obtain ⟨es, w⟩ := l
    simp only at hent ⊢
    induction es with
    | nil => rfl
    | cons e es ih =>
      simp only [List.map_cons, Res.mapM_cons, (hent e (by simp)).2.2.2, Res.bind_ok,
        ih (fun x hx => hent x (by simp [hx]))]
  rw [hp]
  have hw : decide (star ∈ written star (l.entries.map display) l.wildcard) = l.wildcard := by
    unfold written
    have : star ∉ l.entries.map display := by
      intro hm
      rw [List.mem_map] at hm
      obtain ⟨e, he, h⟩ := hm
      exact (hent e he).2.2.1 h
    cases hwc : l.wildcard <;> simp at this ⊢
    exact this
  rw [hw]
  rfl

theorem forall₂_left {α β : Type} {R : α → β → Prop} {l : List α} {m : List β} (h : List.Forall₂ R l m) :
    ∀ a ∈ l, ∃ b ∈ m, R a b := by
  induction h with
  | nil => simp
  | cons h _ ih =>
    intro a ha
    rcases List.mem_cons.mp ha with rfl | ha
    · exact ⟨_, List.mem_cons_self, h⟩
    · obtain ⟨b, hb, hr⟩ := ih a ha
      exact ⟨b, List.mem_cons_of_mem _ hb, hr⟩

end HT
