import Verif.Spec.Clearing
import Verif.Props.Lists

/-! C136: a browser clears what the site asked for, and nothing else. -/

namespace HT
open Spec

theorem kindText_asStr (k : ClearDirective) : kindText k = k.asStr := by cases k <;> rfl

theorem mem_listItems {vs : List Str} {s : Str} : s ∈ listItems vs ↔ ∃ v t, v ∈ vs ∧ t ∈ split ',' v ∧ trim t = s := by
  unfold listItems
  simp only [List.mem_flatMap, List.mem_map]
  constructor
  · rintro ⟨v, hv, t, ht, h⟩; exact ⟨v, t, hv, ht, h⟩
  · rintro ⟨v, t, hv, ht, h⟩; exact ⟨v, hv, t, ht, h⟩

theorem asksFor_iff {h : Headers} {vs : List Str} (hv : h.get s!!"clear-site-data" = some vs) (k : ClearDirective) :
    AsksFor h k ↔ s!!"\"*\"" ∈ listItems vs ∨ k.asStr ∈ listItems vs := by
  unfold AsksFor
  rw [mem_listItems, mem_listItems, ← kindText_asStr]
  constructor
  · rintro ⟨vs', v, t, hg, h1, h2, h3⟩
    rw [hv] at hg
    cases hg
    exact h3.imp (fun h3 => ⟨v, t, h1, h2, h3⟩) fun h3 => ⟨v, t, h1, h2, h3⟩
  · rintro (⟨v, t, h1, h2, h3⟩ | ⟨v, t, h1, h2, h3⟩)
    · exact ⟨vs, v, t, hv, h1, h2, .inl h3⟩
    · exact ⟨vs, v, t, hv, h1, h2, .inr h3⟩

theorem namesKnown_iff {h : Headers} {vs : List Str} (hv : h.get s!!"clear-site-data" = some vs) :
    NamesKnown h ↔ ∀ s ∈ listItems vs, s = s!!"\"*\"" ∨ ∃ k : ClearDirective, s = k.asStr := by
  unfold NamesKnown
  constructor
  · intro hn s hs
    obtain ⟨v, t, h1, h2, rfl⟩ := mem_listItems.1 hs
    simpa only [kindText_asStr] using hn vs v t hv h1 h2
  · intro hn vs' v t hg h1 h2
    rw [hv] at hg
    cases hg
    simpa only [kindText_asStr] using hn _ (mem_listItems.2 ⟨v, t, h1, h2, rfl⟩)

theorem asks_read {h : Headers} {vs : List Str} {l : StarList ClearDirective} (hg : h.get s!!"clear-site-data" = some vs)
    (hr : ClearSiteData.fromHeaders h = .ok (some l)) (k : ClearDirective) :
    AsksFor h k ↔ l.wildcard = true ∨ k ∈ l.entries := by
  obtain ⟨w, e⟩ := ((C32_reads h vs hg).1 l).1 hr
  have hk : k.asStr ∈ listItems vs ↔ k ∈ l.entries := by
    have h1 : k.asStr ∈ (listItems vs).filter (· ≠ s!!"\"*\"") ↔ k.asStr ∈ listItems vs := by
      rw [List.mem_filter]
      have : k.asStr ≠ s!!"\"*\"" := by cases k <;> decide
      simp [this]
    rw [← h1, e, List.mem_map]
    constructor
    · rintro ⟨k', hk', he⟩
      have : k' = k := by revert he; cases k <;> cases k' <;> decide
      exact this ▸ hk'
    · intro hk; exact ⟨k, hk, rfl⟩
  rw [asksFor_iff hg, hk, w]
  simp

/-- What a response does to what the browser keeps. -/
theorem siteStep_response {α : Type} (st : List (ClearDirective × α)) (h : Headers) :
    (¬ NamesKnown h → siteStep st (.response h) = .panic) ∧
    (NamesKnown h → ∃ st', siteStep st (.response h) = .ok st' ∧ ∀ k x, (k, x) ∈ st' ↔ (k, x) ∈ st ∧ ¬ AsksFor h k) := by
  cases hg : h.get s!!"clear-site-data" with
  | none =>
    have hr : ClearSiteData.fromHeaders h = .ok none := by
      unfold ClearSiteData.fromHeaders readStarList
      rw [show ClearSiteData.name = s!!"clear-site-data" from rfl, hg]
    refine ⟨fun hn => absurd (fun vs v t h' => by rw [hg] at h'; cases h') hn, fun _ => ⟨st, by simp [siteStep, hr], ?_⟩⟩
    intro k x
    have : ¬ AsksFor h k := by rintro ⟨vs, v, t, h', -⟩; rw [hg] at h'; cases h'
    simp [this]
  | some vs =>
    obtain ⟨c1, c2, c3⟩ := C32_reads h vs hg
    constructor
    · intro hn
      have : ClearSiteData.fromHeaders h = .panic := by
        rw [c2]
        rw [namesKnown_iff hg] at hn
        simpa only [not_forall, not_or, not_exists, exists_prop] using hn
      simp [siteStep, this]
    · intro hn
      cases hr : ClearSiteData.fromHeaders h with
      | err e => exact absurd hr (c3 e)
      | panic =>
        obtain ⟨t, ht, h1, h2⟩ := c2.1 hr
        rcases (namesKnown_iff hg).1 hn t ht with h | ⟨k, h⟩
        · exact absurd h h1
        · exact absurd h (h2 k)
      | ok o =>
        cases o with
        | none =>
          exfalso
          rw [show ClearSiteData.fromHeaders h = _ from readStarList_some hg] at hr
          revert hr
          cases Res.mapM _ _ <;> simp [Res.map]
        | some l =>
          refine ⟨st.filter fun y => !(l.wildcard || l.entries.contains y.1), by simp only [siteStep, hr], ?_⟩
          intro k x
          rw [asks_read hg hr, List.mem_filter]
          simp [not_or]

theorem browse_snoc {α : Type} (es : List (SiteEvent α)) (e : SiteEvent α) :
    browse (es ++ [e]) = (browse es).bind fun st => siteStep st e := by
  unfold browse
  rw [List.foldl_append]
  rfl

theorem stillThere_keeps {α : Type} (es : List (SiteEvent α)) (k k' : ClearDirective) (x x' : α) :
    StillThere (es ++ [.keeps k' x']) k x ↔ StillThere es k x ∨ k = k' ∧ x = x' := by
  constructor
  · rintro ⟨a, b, he, hb⟩
    rcases List.eq_nil_or_concat b with rfl | ⟨b', e, rfl⟩
    · have := List.append_inj_right' he rfl
      simp at this
      exact .inr ⟨this.1.symm, this.2.symm⟩
    · left
      rw [List.concat_eq_append, ← List.cons_append, ← List.append_assoc] at he
      refine ⟨a, b', List.append_inj_left' he rfl, fun h hh => hb h (by simp [hh])⟩
  · rintro (⟨a, b, rfl, hb⟩ | ⟨rfl, rfl⟩)
    · refine ⟨a, b ++ [.keeps k' x'], by simp, fun h hh => hb h ?_⟩
      simpa using hh
    · exact ⟨es, [], rfl, by simp⟩

theorem stillThere_response {α : Type} (es : List (SiteEvent α)) (h : Headers) (k : ClearDirective) (x : α) :
    StillThere (es ++ [.response h]) k x ↔ StillThere es k x ∧ ¬ AsksFor h k := by
  constructor
  · rintro ⟨a, b, he, hb⟩
    rcases List.eq_nil_or_concat b with rfl | ⟨b', e, rfl⟩
    · have := List.append_inj_right' he rfl
      simp at this
    · rw [List.concat_eq_append, ← List.cons_append, ← List.append_assoc] at he
      have h1 := List.append_inj_right' he rfl
      simp at h1
      subst h1
      exact ⟨⟨a, b', List.append_inj_left' he rfl, fun h hh => hb h (by simp [hh])⟩, hb h (by simp)⟩
  · rintro ⟨⟨a, b, rfl, hb⟩, hn⟩
    refine ⟨a, b ++ [.response h], by simp, fun h' hh => ?_⟩
    simp at hh
    rcases hh with hh | rfl
    · exact hb h' hh
    · exact hn

/-- What the browser has after any events is what was kept and not asked to be cleared since; as long as the responses name
only kinds of data the library knows. -/
theorem C136_kept_partial {α : Type} (es : List (SiteEvent α)) (hn : ∀ h, .response h ∈ es → NamesKnown h) :
    ∃ st, browse es = .ok st ∧ ∀ k x, (k, x) ∈ st ↔ StillThere es k x := by
  induction es using List.reverseRecOn with
  | nil => exact ⟨[], rfl, fun k x => by simp [StillThere]⟩
  | append_singleton es e ih =>
    obtain ⟨st, h1, h2⟩ := ih fun h hh => hn h (by simp [hh])
    rw [browse_snoc, h1]
    cases e with
    | keeps k' x' =>
      refine ⟨st ++ [(k', x')], rfl, fun k x => ?_⟩
      rw [stillThere_keeps, List.mem_append, h2]
      simp
    | response h =>
      obtain ⟨st', h3, h4⟩ := (siteStep_response st h).2 (hn h (by simp))
      refine ⟨st', h3, fun k x => ?_⟩
      rw [h4, stillThere_response, h2]

/-- The cookie is gone, the cached page kept after that is there. -/
example : browse [.keeps .cookies 1, .keeps .cache 2, .response [(s!!"clear-site-data", [s!!"\"cookies\" , \"cache\""])],
    .keeps .cache 3, .response []] = .ok [(.cache, 3)] := by decide +kernel

/-- Violated: the browser panics exactly if some response names anything else, which the specification says to pass over. -/
theorem C136_violated_unknown {α : Type} (es : List (SiteEvent α)) :
    browse es = .panic ↔ ∃ h, .response h ∈ es ∧ ¬ NamesKnown h := by
  constructor
  · intro hp
    by_contra hc
    simp only [not_exists, not_and, not_not] at hc
    obtain ⟨st, h, -⟩ := C136_kept_partial es hc
    rw [hp] at h
    cases h
  · intro hx
    induction es using List.reverseRecOn with
    | nil => simp at hx
    | append_singleton es e ih =>
      rw [browse_snoc]
      by_cases he : ∃ h, .response h ∈ es ∧ ¬ NamesKnown h
      · rw [ih he]; rfl
      · simp only [not_exists, not_and, not_not] at he
        obtain ⟨st, h, -⟩ := C136_kept_partial es he
        obtain ⟨h', hm, hk⟩ := hx
        simp only [List.mem_append, List.mem_singleton] at hm
        rcases hm with hm | rfl
        · exact absurd (he h' hm) hk
        · rw [h]
          exact (siteStep_response st h').1 hk

example : browse [.keeps .cookies 1, .response [(s!!"clear-site-data", [s!!"\"clientHints\""])]] = .panic := by decide +kernel

/-- A policy that is written with the type into any response asks for exactly what it holds, and is known; except for the
empty one. -/
theorem C136_written_partial (h h' : Headers) (l : StarList ClearDirective)
    (ha : applyHeader h s!!"clear-site-data" (ClearSiteData.value l) = .ok h') :
    (NamesKnown h' ↔ l.entries ≠ [] ∨ l.wildcard = true) ∧
    ∀ k, AsksFor h' k ↔ l.wildcard = true ∨ k ∈ l.entries := by
  by_cases hne : l.entries ≠ [] ∨ l.wildcard = true
  · obtain ⟨h'', v, h1, -, h3, h4⟩ := (C32_roundtrip_iff_partial l).2 hne h
    rw [ha] at h1
    cases h1
    refine ⟨⟨fun _ => hne, fun _ => ?_⟩, asks_read (by rw [h3, if_pos rfl]) h4⟩
    by_contra hk
    have := (siteStep_response (α := Unit) [] h').1 hk
    simp [siteStep, h4] at this
  · simp only [not_or, not_not, Bool.not_eq_true] at hne
    obtain ⟨es, w⟩ := l
    simp only at hne
    obtain ⟨rfl, rfl⟩ := hne
    have hg : h'.get s!!"clear-site-data" = some [[]] := by
      rw [C32_violated.1, applyHeader_ok] at ha
      cases ha
      exact get_set_self _ _ _
    have hl : listItems [[]] = [[]] := by decide
    refine ⟨⟨fun hn => ?_, fun hn => by simp at hn⟩, fun k => ?_⟩
    · rcases (namesKnown_iff hg).1 hn [] (by rw [hl]; simp) with h | ⟨k, h⟩
      · cases h
      · cases k <;> cases h
    · rw [asksFor_iff hg, hl]
      cases k <;> simp [ClearDirective.asStr]

example : ∃ h', applyHeader [] s!!"clear-site-data" (ClearSiteData.value ⟨[.cookies, .storage], false⟩) = .ok h' ∧
    AsksFor h' .storage ∧ ¬ AsksFor h' .cache := by
  refine ⟨_, rfl, ?_, ?_⟩
  · exact ((C136_written_partial [] _ ⟨[.cookies, .storage], false⟩ rfl).2 .storage).2 (.inr (by simp))
  · rw [(C136_written_partial [] _ ⟨[.cookies, .storage], false⟩ rfl).2]
    simp

end HT
