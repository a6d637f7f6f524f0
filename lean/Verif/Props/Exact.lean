import Verif.Spec.Exact
import Verif.Props.Headers
import Verif.Props.Mime

/-! Exactly when claims that fail in general hold: C05, C06, C24. -/

namespace HT
open Spec

theorem lookup_empty (n : Str) (h : List HOp) : lookup h n = some [] ↔
    ∃ after op before, h = after ++ op :: before ∧ Empties n (lookup before n) op ∧ ∀ o ∈ after, ¬ Fills n o := by
  have key : ∀ op h, lookup (op :: h) n = some [] ↔ Empties n (lookup h n) op ∨ (lookup h n = some [] ∧ ¬ Fills n op) := by
    intro op h
    cases op with
    | insert k a =>
      simp only [lookup, Empties, Fills]
      cases hs : sameName k n <;> cases hw : writeValues a with
      | none => simp
      | some vs => cases vs <;> simp
    | append k a =>
      simp only [lookup, Empties, Fills]
      cases hs : sameName k n <;> cases hw : writeValues a with
      | none => simp
      | some vs =>
        cases vs <;> cases hl : lookup h n <;> simp
    | remove k =>
      simp only [lookup, Empties, Fills]
      cases hs : sameName k n <;> simp
    | extend k vs =>
      simp only [lookup, Empties, Fills]
      cases hs : sameName k n <;> cases hl : lookup h n <;> simp
    | setAt k i v =>
      simp only [lookup, Empties, Fills]
      cases hs : sameName k n <;> cases hl : lookup h n <;> simp
    | drain k o =>
      simp only [lookup, Empties, Fills]
      cases hs : sameName k n <;> cases hl : lookup h n <;> simp
  induction h with
  | nil => simp [lookup]
  | cons op h ih =>
    rw [key]
    constructor
    · rintro (h1 | ⟨h0, h4⟩)
      · exact ⟨[], op, h, rfl, h1, by simp⟩
      · obtain ⟨after, o, before, rfl, h2, h3⟩ := ih.mp h0
        exact ⟨op :: after, o, before, rfl, h2, by simpa using ⟨h4, h3⟩⟩
    · rintro ⟨after, o, before, he, h2, h3⟩
      cases after with
      | nil =>
        simp only [List.nil_append, List.cons.injEq] at he
        obtain ⟨rfl, rfl⟩ := he
        exact .inl h2
      | cons x after =>
        simp only [List.cons_append, List.cons.injEq] at he
        obtain ⟨rfl, rfl⟩ := he
        exact .inr ⟨ih.mpr ⟨after, o, before, rfl, h2, fun y hy => h3 y (by simp [hy])⟩, h3 _ (by simp)⟩

/-- A header is there without a value exactly if some call left it so and no call since then removed it or stored a value
under it. -/
theorem C05_empty_iff_partial (h : List HOp) (n : Str) (hn : Ascii n) :
    (HOp.run h).getStr n = .ok (some []) ↔ ∃ before op after o, h = before ++ op :: after ∧
      (HOp.run before).getStr n = .ok o ∧ Empties n o op ∧ ∀ x ∈ after, ¬ Fills n x := by
  rw [C02_get_run, if_pos hn, Res.ok.injEq, lookup_empty]
  constructor
  · rintro ⟨after, op, before, he, h1, h2⟩
    refine ⟨before.reverse, op, after.reverse, lookup before n, ?_, ?_, h1, by simpa using h2⟩
    · rw [← List.reverse_reverse h, he]
      simp
    · rw [C02_get_run, if_pos hn, List.reverse_reverse]
  · rintro ⟨before, op, after, o, rfl, h1, h2, h3⟩
    rw [C02_get_run, if_pos hn] at h1
    cases h1
    exact ⟨after.reverse, op, before.reverse, by simp, h2, by simpa using h3⟩

example : ∃ before op after o, [HOp.insert s!!"A" (.slice []), .append s!!"b" (.str s!!"1"), .setAt s!!"a" 0 s!!"2"] =
    before ++ op :: after ∧ (HOp.run before).getStr s!!"a" = .ok o ∧ Empties s!!"a" o op ∧ ∀ x ∈ after, ¬ Fills s!!"a" x :=
  ⟨[], _, _, none, rfl, by decide, ⟨by decide, rfl⟩, by
    intro x hx
    simp only [List.mem_cons, List.not_mem_nil, or_false] at hx
    rcases hx with rfl | rfl
    · exact fun h => absurd h.1 (by decide)
    · exact id⟩

theorem next_fresh (vs : HeaderValues) (rest : List HeaderValues) (c : Nat) :
    (⟨some (vs :: rest), none, c⟩ : Values).next = (⟨some rest, some vs, 0⟩ : Values).next := by
  rw [Values.next]

theorem next_item {inner : Option (List HeaderValues)} {vs : HeaderValues} {c : Nat} {v : HeaderValue} (h : vs[c]? = some v) :
    (⟨inner, some vs, c⟩ : Values).next = (some v, ⟨inner, some vs, c + 1⟩) := by
  rw [Values.next]
  simp only [h]

theorem next_over {inner : Option (List HeaderValues)} {vs : HeaderValues} {c : Nat} (h : vs[c]? = none) :
    (⟨inner, some vs, c⟩ : Values).next = (⟨inner, none, c⟩ : Values).next := by
  rw [Values.next]
  simp only [h]

theorem next_end (c : Nat) : (⟨some [], none, c⟩ : Values).next = (none, ⟨some [], none, c⟩) := by
  rw [Values.next]

theorem hint_exact (rest : List HeaderValues) (slot : Option HeaderValues) (c : Nat) :
    HintRight ⟨some rest, slot, c⟩ ↔ rest.length = (Values.remaining ⟨some rest, slot, c⟩).length := by
  rw [HintRight, Values.collect_eq]
  simp only [Values.sizeHint, Option.some.injEq, forall_eq']
  omega

theorem afterTaking_succ {a b : Values} (h : a.next.2 = b.next.2) (k : Nat) : afterTaking (k + 1) a = afterTaking (k + 1) b := by
  show afterTaking k a.next.2 = afterTaking k b.next.2
  rw [h]

theorem short_lists (l : List HeaderValues) : ∀ c, (∀ k, HintRight (afterTaking (k + 1) ⟨some l, none, c⟩)) →
    ∀ vs ∈ l, vs.length ≤ 1 := by
  induction l with
  | nil => simp
  | cons vs rest ih =>
    intro c h
    match vs with
    | [] =>
      have := ih 0 fun k => by
        rw [← afterTaking_succ (a := ⟨some ([] :: rest), none, c⟩)]
        · exact h k
        · rw [next_fresh, next_over rfl]
      simpa using this
    | [v] =>
      have := ih 1 fun k => by
        have h1 := h (k + 1)
        rw [show afterTaking (k + 1 + 1) ⟨some ([v] :: rest), none, c⟩ =
          afterTaking (k + 1) (Values.next ⟨some ([v] :: rest), none, c⟩).2 from rfl, next_fresh, next_item rfl] at h1
        rw [← afterTaking_succ (a := ⟨some rest, some [v], 1⟩)]
        · exact h1
        · rw [next_over rfl]
      simpa using this
    | v :: w :: t =>
      have h1 := h 0
      have h2 := h 1
      rw [show afterTaking (0 + 1) ⟨some ((v :: w :: t) :: rest), none, c⟩ =
        (Values.next ⟨some ((v :: w :: t) :: rest), none, c⟩).2 from rfl, next_fresh, next_item rfl] at h1
      rw [show afterTaking (1 + 1) ⟨some ((v :: w :: t) :: rest), none, c⟩ =
        (Values.next (Values.next ⟨some ((v :: w :: t) :: rest), none, c⟩).2).2 from rfl, next_fresh, next_item rfl,
        next_item rfl] at h2
      rw [hint_exact] at h1 h2
      simp [Values.remaining] at h1 h2
      omega

theorem single_lists (l : List HeaderValues) (h1 : ∀ vs ∈ l, vs.length = 1) : l.length = l.flatten.length := by
  induction l with
  | nil => rfl
  | cons vs l ih =>
    have := h1 vs (by simp)
    have := ih fun v hv => h1 v (by simp [hv])
    simp only [List.length_cons, List.flatten_cons, List.length_append]
    omega

theorem hints_stay (k : Nat) : ∀ (l : List HeaderValues) (slot : Option HeaderValues) (c : Nat), (∀ vs ∈ l, vs.length = 1) →
    (slot = none ∨ ∃ v, slot = some [v] ∧ c = 1) → HintRight (afterTaking k ⟨some l, slot, c⟩) := by
  induction k with
  | zero =>
    intro l slot c hl hs
    rw [show afterTaking 0 ⟨some l, slot, c⟩ = ⟨some l, slot, c⟩ from rfl, hint_exact, single_lists l hl]
    rcases hs with rfl | ⟨v, rfl, rfl⟩ <;> simp [Values.remaining]
  | succ k ih =>
    intro l slot c hl hs
    have : ∀ c, HintRight (afterTaking k (Values.next ⟨some l, none, c⟩).2) := by
      intro c
      match l, hl with
      | [], hl =>
        rw [next_end]
        exact ih [] none c hl (.inl rfl)
      | vs :: rest, hl =>
        match vs, hl vs (by simp) with
        | [v], _ =>
          rw [next_fresh, next_item rfl]
          exact ih rest (some [v]) 1 (fun x hx => hl x (by simp [hx])) (.inr ⟨v, rfl, rfl⟩)
    show HintRight (afterTaking k (Values.next ⟨some l, slot, c⟩).2)
    rcases hs with rfl | ⟨v, rfl, rfl⟩
    · exact this c
    · rw [next_over rfl]
      exact this 1

/-- The bounds announced while iterating over all values are right at every moment exactly if every header has one value. -/
theorem C06_size_hint_iff_partial (m : Headers) :
    (∀ k, HintRight (afterTaking k (Headers.values m))) ↔ ∀ n vs, (n, vs) ∈ m → vs.length = 1 := by
  have hm : (∀ n vs, (n, vs) ∈ m → vs.length = 1) ↔ ∀ vs ∈ FMap.vals m, vs.length = 1 := by
    simp only [FMap.vals, List.mem_map]
    constructor
    · rintro h _ ⟨⟨n, vs⟩, hx, rfl⟩
      exact h n vs hx
    · intro h n vs hx
      exact h vs ⟨_, hx, rfl⟩
  rw [hm, show Headers.values m = ⟨some (FMap.vals m), none, 0⟩ from rfl]
  constructor
  · intro h
    have h1 := short_lists _ 0 fun k => h (k + 1)
    have h0 := h 0
    rw [show afterTaking 0 ⟨some (FMap.vals m), none, 0⟩ = ⟨some (FMap.vals m), none, 0⟩ from rfl, hint_exact] at h0
    simp only [Values.remaining, List.nil_append, Option.getD_some] at h0
    generalize FMap.vals m = l at h1 h0
    have key : ∀ l : List HeaderValues, (∀ vs ∈ l, vs.length ≤ 1) → l.flatten.length ≤ l.length ∧
        (l.length = l.flatten.length → ∀ vs ∈ l, vs.length = 1) := by
      intro l
      induction l with
      | nil => simp
      | cons vs l ih =>
        intro h
        obtain ⟨i1, i2⟩ := ih fun x hx => h x (by simp [hx])
        have := h vs (by simp)
        simp only [List.length_cons, List.flatten_cons, List.length_append, List.mem_cons, forall_eq_or_imp]
        refine ⟨by omega, fun e => ⟨by omega, i2 (by omega)⟩⟩
    exact (key l h1).2 h0
  · intro h k
    exact hints_stay k _ none 0 h (.inl rfl)

example : (∀ n vs, (n, vs) ∈ ([(s!!"a", [s!!"1"]), (s!!"b", [s!!"2"])] : Headers) → vs.length = 1) ∧
    ¬ ∀ n vs, (n, vs) ∈ ([(s!!"a", [s!!"1", s!!"2"]), (s!!"b", [])] : Headers) → vs.length = 1 := by
  refine ⟨fun n vs h => ?_, fun h => absurd (h s!!"b" [] (by simp)) (by decide)⟩
  simp at h
  rcases h with ⟨-, rfl⟩ | ⟨-, rfl⟩ <;> rfl

/-- Every lookup by name gives the first parameter of that name as written exactly if no other charset comes before a
`charset=utf-8`. -/
theorem C24_lookup_iff_partial {s base sub : Str} {ps : List (Str × Str)} (h : MediaText s base sub ps) :
    (∃ m, Mime.parse s = .ok m ∧ ∀ n, Ascii n → m.paramStr n = .ok (firstValue ps n)) ↔
      (hasUtf8 ps = true → firstValue ps s!!"charset" = some s!!"utf-8") := by
  constructor
  · rintro ⟨m, h1, h2⟩ hu
    obtain ⟨m', h1', h2'⟩ := C24_lookup_partial h s!!"charset" (by decide)
    rw [h1] at h1'
    cases h1'
    rw [h2 _ (by decide), if_pos ⟨by decide, hu⟩] at h2'
    exact Res.ok.inj h2'
  · intro hc
    refine ⟨_, C24_parse_text h, fun n hn => ?_⟩
    obtain ⟨m', h1', h2'⟩ := C24_lookup_first_partial h n hn hc
    rw [C24_parse_text h] at h1'
    cases h1'
    exact h2'

example : hasUtf8 [(s!!"a", s!!"1"), (s!!"Charset", s!!"utf-8")] = true ∧
    firstValue [(s!!"a", s!!"1"), (s!!"Charset", s!!"utf-8")] s!!"charset" = some s!!"utf-8" := by decide

/-- Removing makes every name absent exactly if the media type has one charset only. -/
theorem C24_remove_iff_partial {m : Mime} (h : MimeWF m) :
    (∀ n, (m.removeParam n).2.param n = none) ↔ OneCharset m := by
  constructor
  · rintro hr ⟨hu, hc⟩
    have h1 := hr s!!"charset"
    unfold Mime.removeParam at h1
    rw [if_pos ⟨rfl, hu⟩] at h1
    unfold Mime.param at h1
    rw [if_neg (by simp)] at h1
    simp only [Option.map_eq_none_iff, List.find?_eq_none] at h1
    obtain ⟨e, he, hn⟩ := List.mem_map.mp hc
    exact h1 e he (by simpa using hn)
  · intro hc n
    exact (C24_remove_partial h hc n).2.1

example : (Mime.parse s!!"text/html;charset=utf-8;a=b").map (fun m => ((m.removeParam s!!"charset").2.param s!!"charset")) =
    .ok none := by decide +kernel

end HT
