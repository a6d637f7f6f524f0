import Verif.Props.Message
import Verif.Spec.Effective

/-! C16 for every text of a Forwarded header. -/

namespace HT

open Spec

theorem partOf_iff {part s v : Str} (ha : isAscii part = true) : Request.partOf part s = some v ↔ PairOf part s v := by
  unfold Request.partOf PairOf
  constructor
  · intro h
    split at h
    · rename_i k w hs
      split at h
      · rename_i he
        cases h
        have h1 := join_split '=' s
        rw [hs] at h1
        refine ⟨k, by rw [← h1]; simp [join], not_mem_of_mem_split (s := s) (by simp [hs]), not_mem_of_mem_split (s := s) (by simp [hs]), ?_⟩
        have he : lower k = lower part := by simpa [eqIgnoreCase] using he
        refine (sameName_iff _ _).2 ⟨?_, ha, he⟩
        rw [← isAscii_lower, he, isAscii_lower]; exact ha
      · cases h
    · cases h
  · rintro ⟨k, rfl, hk, hv, he⟩
    rw [split_append_sep hk, split_of_not_mem hv]
    simp [eqIgnoreCase, ((sameName_iff _ _).1 he).2.2]

theorem elem_iff {part s v : Str} (ha : isAscii part = true) :
    (split ';' s).findSome? (Request.partOf part) = some v ↔ Elem part s v := by
  rw [List.findSome?_eq_some_iff]
  constructor
  · rintro ⟨l1, x, l2, hs, hx, hl⟩
    refine ⟨l1, x, l2, by rw [← hs]; exact (join_split ';' s).symm, fun y hy => not_mem_of_mem_split (s := s) (hs ▸ hy),
      (partOf_iff ha).1 hx, fun y hy w hw => ?_⟩
    have := hl y hy
    rw [(partOf_iff ha).2 hw] at this
    cases this
  · rintro ⟨l1, x, l2, rfl, hc, hx, hl⟩
    refine ⟨l1, x, l2, split_join_one (by simp) hc, (partOf_iff ha).2 hx, fun y hy => ?_⟩
    cases hp : Request.partOf part y with
    | none => rfl
    | some w => exact absurd ((partOf_iff ha).1 hp) (hl y hy w)

/-- C16 for every Forwarded header: its first value decides exactly if it has, between semicolons, a pair with the key
`for` (or `host`); the first such pair is taken, letter for letter. Otherwise the headers after it in the documented
order decide. Missing: what Forwarded says where its text is not plain, see `C16_violated_*`. -/
theorem C16_exact_partial {h : Headers} {s : Str} (hf : FirstIs h s!!"forwarded" (some s)) :
    (∀ (v : Str) (o : Option Str), Elem s!!"for" s v → Request.remote h o = .ok (some v)) ∧
    (∀ (v : Str) (o : Option Str), Elem s!!"host" s v → Request.host h o = .ok (some v)) ∧
    (∀ (xff o : Option Str), (∀ v, ¬ Elem s!!"for" s v) → FirstIs h s!!"x-forwarded-for" xff →
      Request.remote h o = .ok ((xff.map beforeComma).or o)) ∧
    ∀ (xfh hst o : Option Str), (∀ v, ¬ Elem s!!"host" s v) → FirstIs h s!!"x-forwarded-host" xfh →
      FirstIs h s!!"host" hst → Request.host h o = .ok (((xfh.map beforeComma).or hst).or o) := by
  have hy : ∀ {part v : Str}, isAscii part = true → Elem part s v → Request.forwardedPart h part = .ok (some v) := by
    intro part v ha he
    unfold Request.forwardedPart
    rw [headerFirst_of hf]
    simp [(elem_iff ha).2 he]
  have hn : ∀ {part : Str}, isAscii part = true → (∀ v, ¬ Elem part s v) → Request.forwardedPart h part = .ok none := by
    intro part ha he
    unfold Request.forwardedPart
    rw [headerFirst_of hf]
    simp only [Res.map_ok, Option.bind_some]
    cases hp : (split ';' s).findSome? (Request.partOf part) with
    | none => rfl
    | some w => exact absurd ((elem_iff ha).1 hp) (he w)
  refine ⟨fun v o he => ?_, fun v o he => ?_, fun xff o he hx => ?_, fun xfh hst o he hx hh => ?_⟩
  · unfold Request.remote Request.forwardedFor
    rw [hy (by decide) he]
    rfl
  · unfold Request.host
    rw [hy (by decide) he]
    rfl
  · unfold Request.remote Request.forwardedFor
    rw [hn (by decide) he, headerFirst_of hx]
    cases xff with
    | none => cases o <;> rfl
    | some x => simp [Request.orElse, firstElement_eq]
  · unfold Request.host
    rw [hn (by decide) he, headerFirst_of hx, headerFirst_of hh]
    cases xfh with
    | none => cases hst <;> cases o <;> rfl
    | some x => simp [Request.orElse, firstElement_eq]

example : Elem s!!"for" s!!"by=a=b; for=x;For=y;for=z" s!!"y" :=
  ⟨[s!!"by=a=b", s!!" for=x"], s!!"For=y", [s!!"for=z"], by decide, by decide, ⟨s!!"For", by decide, by decide, by decide, by decide⟩, by
    intro y hy w ⟨k, hk, h1, h2, h3⟩
    have : Request.partOf s!!"for" y = some w := (partOf_iff (by decide)).2 ⟨k, hk, h1, h2, h3⟩
    simp only [List.mem_cons, List.not_mem_nil, or_false] at hy
    rcases hy with rfl | rfl
    · have hn : Request.partOf s!!"for" s!!"by=a=b" = none := by decide +kernel
      rw [hn] at this; cases this
    · have hn : Request.partOf s!!"for" s!!" for=x" = none := by decide +kernel
      rw [hn] at this; cases this⟩

theorem no_blank_key {part y w : Str} (hp : part = s!!"for" ∨ part = s!!"host") : ¬ PairOf part (' ' :: y) w := by
  rintro ⟨k, hk, -, -, hs⟩
  cases k with
  | nil => rcases hp with rfl | rfl <;> simp [sameName] at hs
  | cons a k =>
    simp only [List.cons_append, List.cons.injEq] at hk
    obtain ⟨rfl, -⟩ := hk
    rcases hp with rfl | rfl <;> simp only [sameName, Bool.and_eq_true] at hs <;> exact absurd hs.1 (by decide)

/-- C16 is violated by blanks after the semicolons: of elements so joined only the first is looked at, and if it is not the
one asked for, another header decides whatever the rest says. -/
theorem C16_violated_space {h : Headers} {x : Str} {xs : List Str} (hc : ∀ y ∈ x :: xs, ';' ∉ y)
    (hf : FirstIs h s!!"forwarded" (some (join s!!"; " (x :: xs)))) :
    (∀ (xff o : Option Str), (∀ v, ¬ PairOf s!!"for" x v) → FirstIs h s!!"x-forwarded-for" xff →
      Request.remote h o = .ok ((xff.map beforeComma).or o)) ∧
    ∀ (xfh hst o : Option Str), (∀ v, ¬ PairOf s!!"host" x v) → FirstIs h s!!"x-forwarded-host" xfh →
      FirstIs h s!!"host" hst → Request.host h o = .ok (((xfh.map beforeComma).or hst).or o) := by
  have hno : ∀ {part : Str}, part = s!!"for" ∨ part = s!!"host" → (∀ v, ¬ PairOf part x v) →
      ∀ v, ¬ Elem part (join s!!"; " (x :: xs)) v := by
    intro part hp hx v he
    have ha : isAscii part = true := by rcases hp with rfl | rfl <;> decide
    have := (elem_iff ha).2 he
    rw [split_join (c := ';') (t := s!!" ") (by decide) hc, List.findSome?_eq_some_iff] at this
    obtain ⟨l1, y, l2, hs, hy, -⟩ := this
    have hy := (partOf_iff ha).1 hy
    have hm : y ∈ x :: xs.map (s!!" " ++ ·) := by rw [hs]; simp
    rcases List.mem_cons.1 hm with rfl | hm
    · exact hx _ hy
    · obtain ⟨z, -, rfl⟩ := List.mem_map.1 hm
      exact no_blank_key hp hy
  exact ⟨fun xff o hx h1 => (C16_exact_partial hf).2.2.1 xff o (hno (.inl rfl) hx) h1,
    fun xfh hst o hx h1 h2 => (C16_exact_partial hf).2.2.2 xfh hst o (hno (.inr rfl) hx) h1 h2⟩

example : Request.remote [(s!!"forwarded", [s!!"by=p; for=1.2.3.4"])] (some s!!"peer") = .ok (some s!!"peer") :=
  (C16_violated_space (x := s!!"by=p") (xs := [s!!"for=1.2.3.4"]) (by decide) ⟨[], by decide⟩).1 none _ (by
    intro v hv
    have hn : Request.partOf s!!"for" s!!"by=p" = none := by decide +kernel
    rw [(partOf_iff (by decide)).2 hv] at hn
    cases hn) rfl

/-- C16 is violated by quoted values, such as every IPv6 address: they are returned with their quotes. -/
theorem C16_violated_quoted {h : Headers} {q : Str} (hq : ';' ∉ q ∧ '=' ∉ q) :
    (FirstIs h s!!"forwarded" (some (s!!"for=\"" ++ q ++ s!!"\"")) → ∀ o, Request.remote h o = .ok (some (s!!"\"" ++ q ++ s!!"\""))) ∧
    (FirstIs h s!!"forwarded" (some (s!!"host=\"" ++ q ++ s!!"\"")) → ∀ o, Request.host h o = .ok (some (s!!"\"" ++ q ++ s!!"\""))) := by
  refine ⟨fun hf o => (C16_exact_partial hf).1 _ o ⟨[], _, [], rfl, ?_, ⟨s!!"for", rfl, ?_, ?_, by decide⟩, by simp⟩,
    fun hf o => (C16_exact_partial hf).2.1 _ o ⟨[], _, [], rfl, ?_, ⟨s!!"host", rfl, ?_, ?_, by decide⟩, by simp⟩⟩ <;>
    simp [hq.1, hq.2]

example : Request.remote [(s!!"forwarded", [s!!"for=\"[::1]\""])] none = .ok (some s!!"\"[::1]\"") :=
  (C16_violated_quoted (q := s!!"[::1]") (by decide)).1 ⟨[], by decide⟩ none

theorem pair_count {part s v : Str} (h : PairOf part s v) : s.count '=' = 1 := by
  obtain ⟨k, rfl, hk, hv, -⟩ := h
  simp [List.count_append, List.count_eq_zero_of_not_mem hk, List.count_eq_zero_of_not_mem hv]

/-- C16 is violated by every list of two or more addresses, as the second proxy writes it: all are missed, and a header
that any client can send decides instead. -/
theorem C16_violated_list {h : Headers} {a b : Str} {as : List Str} (hc : ∀ x ∈ a :: b :: as, ';' ∉ x)
    (hf : FirstIs h s!!"forwarded" (some (join s!!", " ((a :: b :: as).map (s!!"for=" ++ ·))))) {xff : Option Str}
    (hx : FirstIs h s!!"x-forwarded-for" xff) (o : Option Str) :
    Request.remote h o = .ok ((xff.map beforeComma).or o) := by
  refine (C16_exact_partial hf).2.2.1 xff o (fun v he => ?_) hx
  have hs : ';' ∉ join s!!", " ((a :: b :: as).map (s!!"for=" ++ ·)) := by
    generalize a :: b :: as = l at hc
    induction l with
    | nil => simp [join]
    | cons x l ih =>
      have h1 := hc x (by simp)
      have h2 := ih fun y hy => hc y (by simp [hy])
      cases l with
      | nil => simp [join, h1]
      | cons y l =>
        simp only [List.map_cons, join] at h2 ⊢
        simp only [List.mem_append, not_or]
        exact ⟨⟨⟨by decide, h1⟩, by decide⟩, h2⟩
  have := (elem_iff (by decide)).2 he
  rw [split_of_not_mem hs, List.findSome?_eq_some_iff] at this
  obtain ⟨l1, y, l2, hl, hy, -⟩ := this
  have hy := pair_count ((partOf_iff (by decide)).1 hy)
  have : y = join s!!", " ((a :: b :: as).map (s!!"for=" ++ ·)) := by
    have hm : y ∈ [join s!!", " ((a :: b :: as).map (s!!"for=" ++ ·))] := by rw [hl]; simp
    simpa using hm
  subst this
  cases as with
  | nil => simp [join, List.count_append] at hy
  | cons c as => simp [join, List.count_append] at hy

example : Request.remote [(s!!"forwarded", [s!!"for=1.2.3.4, for=5.6.7.8"]), (s!!"x-forwarded-for", [s!!"evil"])] none =
    .ok (some s!!"evil") :=
  C16_violated_list (a := s!!"1.2.3.4") (b := s!!"5.6.7.8") (as := []) (by decide) ⟨[], by decide⟩ (xff := some s!!"evil")
    ⟨[], by decide⟩ none

end HT
