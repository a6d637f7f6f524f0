import Verif.Spec.Revalidate
import Verif.Props.Updates

/-! C130: a client that keeps documents and asks with `If-None-Match`. -/

namespace HT
open Spec

/-- The server finds the tag of the present version in the request exactly if the client sent it and none of the tags has a
comma. -/
theorem C130_unchanged_iff_partial (current : ETag) (tags : List ETag) (req : Headers) (h : ∀ e ∈ tags, EtagLegal e) :
    unchanged current tags req = true ↔ current ∈ tags ∧ ∀ e ∈ tags, ',' ∉ etagBody e := by
  have hs : sendTags true (tags.map fun e => (e, [])) req =
      (applyHeader req s!!"if-none-match" (IfMatch.value ⟨tags, false⟩)).bind IfMatch.noneFromHeaders := by
    unfold sendTags
    have : Res.mapM (fun p : ETag × Headers => learnTag p.1 p.2) (tags.map fun e => (e, [])) = .ok (tags.map some) := by
      rw [Res.mapM_eq_ok_iff]
      clear req
      induction tags with
      | nil => exact .nil
      | cons e es ih =>
        exact .cons ((C118_learn e []).1 (h e (by simp))) (ih fun q hq => h q (by simp [hq]))
    rw [this]
    simp only [Res.bind]
    have hid : (tags.map some).filterMap id = tags := by simp
    rw [hid]
    rfl
  obtain ⟨h1, h2⟩ := C118_tags_partial true (tags.map fun e => (e, [])) req
  have hcond : (tags.map (fun e => (e, ([] : Headers))) ≠ [] ∧
      ∀ p ∈ tags.map (fun e => (e, ([] : Headers))), EtagLegal p.1 ∧ ',' ∉ etagBody p.1) ↔
      tags ≠ [] ∧ ∀ e ∈ tags, ',' ∉ etagBody e := by
    constructor
    · rintro ⟨a, b⟩
      exact ⟨by simpa using a, fun e he => (b (e, []) (List.mem_map_of_mem he)).2⟩
    · rintro ⟨a, b⟩
      refine ⟨by simpa using a, ?_⟩
      intro p hp
      obtain ⟨e, he, rfl⟩ := List.mem_map.mp hp
      exact ⟨h e he, b e he⟩
  rw [hcond] at h1 h2
  unfold unchanged
  rw [← hs]
  by_cases hc : tags ≠ [] ∧ ∀ e ∈ tags, ',' ∉ etagBody e
  · rw [h1 hc]
    simp only [List.map_map, List.contains_iff_mem]
    have hid : tags.map (Prod.fst ∘ fun e => (e, ([] : Headers))) = tags := by
      simp [Function.comp_def]
    rw [hid]
    exact ⟨fun a => ⟨a, hc.2⟩, fun a => a.1⟩
  · rw [h2 hc]
    simp only [Bool.false_eq_true, false_iff]
    rintro ⟨a, b⟩
    exact hc ⟨List.ne_nil_of_mem a, b⟩

example : (∀ e ∈ [ETag.strong s!!"v1", .weak s!!"v2"], EtagLegal e) ∧
    unchanged (.weak s!!"v2") [.strong s!!"v1", .weak s!!"v2"] (oneHeader s!!"age" s!!"3") = true ∧
    unchanged (.strong s!!"v2") [.strong s!!"v1", .weak s!!"v2"] [] = false ∧
    unchanged (.strong s!!"v1") [.strong s!!"v1", .strong s!!"a,b"] [] = false := by
  simp only [EtagLegal]; decide +kernel

/-- What the client keeps are versions that there were, with their tags. -/
def CacheOk (tag : Nat → ETag) (s : Site) : Prop := ∀ p ∈ s.cache, EtagLegal p.1 ∧ p.1 = tag p.2 ∧ p.2 ≤ s.version

theorem CacheOk.step {tag : Nat → ETag} {s : Site} (h : CacheOk tag s) (a : Visit) : CacheOk tag (s.step tag a) := by
  cases a with
  | change => exact fun p hp => ⟨(h p hp).1, (h p hp).2.1, Nat.le_succ_of_le (h p hp).2.2⟩
  | fetch req resp =>
    simp only [Site.step]
    split
    · exact h
    · by_cases hl : EtagLegal (tag s.version)
      · rw [(C118_learn _ resp).1 hl]
        intro p hp
        rcases List.mem_append.mp hp with hp | hp
        · exact h p hp
        · simp only [Option.map_some, Option.toList_some, List.mem_singleton] at hp
          subst hp
          exact ⟨hl, rfl, Nat.le_refl _⟩
      · rw [(C118_learn _ resp).2 hl]
        intro p hp
        exact h p (by simpa using hp)

theorem cacheOk_run (tag : Nat → ETag) (visits : List Visit) : CacheOk tag (Site.run tag visits) := by
  have : ∀ s, CacheOk tag s → CacheOk tag (visits.foldl (Site.step tag) s) := by
    induction visits with
    | nil => exact fun s h => h
    | cons a as ih => exact fun s h => ih _ (h.step a)
  exact this _ (by simp [CacheOk, Site.new])

theorem siteRun_append (tag : Nat → ETag) (a b : List Visit) :
    Site.run tag (a ++ b) = b.foldl (Site.step tag) (Site.run tag a) := by
  simp [Site.run]

theorem siteChanges (tag : Nat → ETag) (n : Nat) (s : Site) :
    (List.replicate n Visit.change).foldl (Site.step tag) s = { s with version := s.version + n } := by
  induction n generalizing s with
  | zero => rfl
  | succ n ih =>
    rw [List.replicate_succ, List.foldl_cons, ih]
    simp only [Site.step, Site.mk.injEq, and_self, and_true]
    omega

/-- What the client has for a tag, if it has one. -/
theorem kept_some {cache : List (ETag × Nat)} {e : ETag} (h : e ∈ cache.map Prod.fst) :
    ∃ v, kept cache e = some v ∧ (e, v) ∈ cache := by
  unfold kept
  cases hf : cache.find? fun p => p.1 = e with
  | none =>
    obtain ⟨p, hp, rfl⟩ := List.mem_map.mp h
    have := List.find?_eq_none.mp hf p hp
    simp at this
  | some p =>
    have h1 := List.find?_some hf
    simp only [decide_eq_true_eq] at h1
    have h2 := List.mem_of_find?_eq_some hf
    subst h1
    exact ⟨p.2, rfl, h2⟩

/-- The step when the client asks and keeps the present tag among tags that all make the way. -/
theorem step_kept {tag : Nat → ETag} {s : Site} (h : CacheOk tag s) (req resp : Headers)
    (hm : tag s.version ∈ s.cache.map Prod.fst) (hc : ∀ p ∈ s.cache, ',' ∉ etagBody p.1) :
    s.step tag (.fetch req resp) = { s with seen := s.seen ++ [(kept s.cache (tag s.version), s.version, false)] } := by
  have hl : EtagLegal (tag s.version) := by
    obtain ⟨p, hp, he⟩ := List.mem_map.mp hm
    exact he ▸ (h p hp).1
  simp only [Site.step]
  rw [if_pos]
  · rw [(C118_learn _ resp).1 hl]
    rfl
  · refine ⟨?_, ?_⟩
    · rintro hn
      rw [hn] at hm
      cases hm
    · rw [C130_unchanged_iff_partial]
      · refine ⟨hm, ?_⟩
        intro e he
        obtain ⟨p, hp, rfl⟩ := List.mem_map.mp he
        exact hc p hp
      · intro e he
        obtain ⟨p, hp, rfl⟩ := List.mem_map.mp he
        exact (h p hp).1

/-- The step otherwise: the document is sent. -/
theorem step_sent {tag : Nat → ETag} {s : Site} (h : CacheOk tag s) (req resp : Headers)
    (hn : ¬ (tag s.version ∈ s.cache.map Prod.fst ∧ ∀ p ∈ s.cache, ',' ∉ etagBody p.1)) :
    ∃ more, (∀ p ∈ more, p = (tag s.version, s.version)) ∧ (EtagLegal (tag s.version) → more ≠ []) ∧
      s.step tag (.fetch req resp) =
        { s with cache := s.cache ++ more, seen := s.seen ++ [(some s.version, s.version, true)] } := by
  have hf : ¬ (s.cache ≠ [] ∧ unchanged (tag s.version) (s.cache.map Prod.fst) req = true) := by
    rintro ⟨-, hu⟩
    rw [C130_unchanged_iff_partial] at hu
    · exact hn ⟨hu.1, fun p hp => hu.2 p.1 (List.mem_map_of_mem hp)⟩
    · intro e he
      obtain ⟨p, hp, rfl⟩ := List.mem_map.mp he
      exact (h p hp).1
  simp only [Site.step]
  rw [if_neg hf]
  by_cases hl : EtagLegal (tag s.version)
  · rw [(C118_learn _ resp).1 hl]
    exact ⟨[(tag s.version, s.version)], by simp, by simp, rfl⟩
  · rw [(C118_learn _ resp).2 hl]
    exact ⟨[], by simp, fun h => absurd h hl, rfl⟩

/-- Whenever the client asks, with whatever other headers, it shows the document as it is; and this holds for exactly those
ways to give tags in which no tag that makes the way to the client and back is given to two versions. -/
theorem C130_always_right (tag : Nat → ETag) :
    (∀ visits, AlwaysRight (Site.run tag visits)) ↔ ∀ v w, RoundTag (tag v) → tag v = tag w → v = w := by
  constructor
  · intro h v w hc ht
    by_contra hne
    wlog hlt : v < w generalizing v w
    · exact this w v (ht ▸ hc) ht.symm (Ne.symm hne) (by omega)
    have hrun := h (List.replicate v .change ++ ([.fetch [] []] ++ (List.replicate (w - v) .change ++ [.fetch [] []])))
    rw [siteRun_append, List.foldl_append, List.foldl_append] at hrun
    have h0 : Site.run tag (List.replicate v .change) = ⟨v, [], []⟩ := by
      unfold Site.run
      rw [siteChanges]
      simp [Site.new]
    have h1 : Site.step tag ⟨v, [], []⟩ (.fetch [] []) = ⟨v, [(tag v, v)], [(some v, v, true)]⟩ := by
      simp only [Site.step]
      rw [if_neg (by simp), (C118_learn _ []).1 hc.1]
      rfl
    have hw : v + (w - v) = w := by omega
    simp only [h0, List.foldl_cons, List.foldl_nil, h1, siteChanges, hw] at hrun
    have h2 : Site.step tag ⟨w, [(tag v, v)], [(some v, v, true)]⟩ (.fetch [] []) = _ :=
      step_kept (by
        intro p hp
        simp only [List.mem_singleton] at hp
        subst hp
        exact ⟨hc.1, rfl, by simp; omega⟩) [] [] (by simp [ht]) (by simpa using hc.2)
    rw [h2] at hrun
    have := hrun (some v, w, false) (by simp [kept, ht])
    simp only [Option.some.injEq] at this
    exact hne this
  · intro h visits
    induction visits using List.reverseRecOn with
    | nil => simp [AlwaysRight, Site.run, Site.new]
    | append_singleton vs a ih =>
      rw [siteRun_append, List.foldl_cons, List.foldl_nil]
      have hk := cacheOk_run tag vs
      generalize Site.run tag vs = s at ih hk
      cases a with
      | change => exact ih
      | fetch req resp =>
        by_cases hm : tag s.version ∈ s.cache.map Prod.fst ∧ ∀ p ∈ s.cache, ',' ∉ etagBody p.1
        · rw [step_kept hk req resp hm.1 hm.2]
          intro p hp
          rcases List.mem_append.mp hp with hp | hp
          · exact ih p hp
          · simp only [List.mem_singleton] at hp
            subst hp
            obtain ⟨v, hv, hmem⟩ := kept_some hm.1
            simp only
            rw [hv]
            obtain ⟨h1, h2, -⟩ := hk _ hmem
            exact congrArg some (h v s.version ⟨h2 ▸ h1, h2 ▸ hm.2 _ hmem⟩ h2.symm)
        · obtain ⟨more, -, -, hs⟩ := step_sent hk req resp hm
          rw [hs]
          intro p hp
          rcases List.mem_append.mp hp with hp | hp
          · exact ih p hp
          · simp only [List.mem_singleton] at hp
            subst hp
            rfl

example : (∀ v w, RoundTag (ETag.strong (List.replicate v 'v')) →
      ETag.strong (List.replicate v 'v') = ETag.strong (List.replicate w 'v') → v = w) ∧
    (Site.run (fun v => .strong (List.replicate v 'v'))
      [.fetch [] [], .change, .fetch [] (oneHeader s!!"age" s!!"3"), .fetch [] [], .change, .change, .fetch [] [], .fetch [] []]).seen =
        [(some 0, 0, true), (some 1, 1, true), (some 1, 1, false), (some 3, 3, true), (some 3, 3, false)] := by
  constructor
  · intro v w _ h
    simpa using congrArg List.length (ETag.strong.inj h)
  · decide +kernel

/-- If the tags make the way to the client and back, a document that the client has seen is not sent again. -/
theorem C130_not_again_partial (tag : Nat → ETag) (ht : ∀ v, RoundTag (tag v)) (visits : List Visit) (req resp req' resp' : Headers) :
    let s := Site.run tag (visits ++ [.fetch req resp])
    s.step tag (.fetch req' resp') = { s with seen := s.seen ++ [(kept s.cache (tag s.version), s.version, false)] } := by
  intro s
  have hk : CacheOk tag s := cacheOk_run tag _
  have hc : ∀ p ∈ s.cache, ',' ∉ etagBody p.1 := by
    intro p hp
    rw [(hk p hp).2.1]
    exact (ht p.2).2
  refine step_kept hk req' resp' ?_ hc
  have hs : s = (Site.run tag visits).step tag (.fetch req resp) := by
    show Site.run tag _ = _
    rw [siteRun_append]
    rfl
  have hk0 := cacheOk_run tag visits
  rw [hs]
  generalize Site.run tag visits = t at hk0
  by_cases hm : tag t.version ∈ t.cache.map Prod.fst ∧ ∀ p ∈ t.cache, ',' ∉ etagBody p.1
  · rw [step_kept hk0 req resp hm.1 hm.2]
    exact hm.1
  · obtain ⟨more, h1, h2, h3⟩ := step_sent hk0 req resp hm
    rw [h3]
    obtain ⟨p, hp⟩ := List.exists_mem_of_ne_nil _ (h2 (ht _).1)
    have := h1 p hp
    subst this
    simp only [List.map_append, List.mem_append]
    exact .inr (List.mem_map_of_mem hp)

example : (∀ v, RoundTag ((fun v => ETag.strong (List.replicate v 'v')) v)) ∧
    (Site.run (fun v => .strong (List.replicate v 'v')) ([.change] ++ [.fetch [] []])).cache = [(.strong s!!"v", 1)] := by
  constructor
  · intro v
    refine ⟨?_, ?_⟩
    · intro c hc
      simp only [etagBody] at hc
      rw [(List.mem_replicate.mp hc).2]
      decide
    · intro hc
      simp only [etagBody] at hc
      have := (List.mem_replicate.mp hc).2
      revert this
      decide
  · decide +kernel

/-- Once the client keeps one tag that has a comma, the server sends it the document every time, whatever the tags of other
versions are. -/
theorem C130_violated_comma (tag : Nat → ETag) (visits more : List Visit)
    (hc : ∃ p ∈ (Site.run tag visits).cache, ',' ∈ etagBody p.1) :
    ∃ new, (Site.run tag (visits ++ more)).seen = (Site.run tag visits).seen ++ new ∧ (∀ p ∈ new, p.2.2 = true) ∧
      new.length = more.countP fun v => v ≠ .change := by
  suffices h : ∃ new, (Site.run tag (visits ++ more)).seen = (Site.run tag visits).seen ++ new ∧ (∀ p ∈ new, p.2.2 = true) ∧
      new.length = more.countP (fun v => v ≠ .change) ∧ ∃ p ∈ (Site.run tag (visits ++ more)).cache, ',' ∈ etagBody p.1 by
    obtain ⟨new, h1, h2, h3, -⟩ := h
    exact ⟨new, h1, h2, h3⟩
  induction more using List.reverseRecOn with
  | nil => exact ⟨[], by simp, by simp, rfl, by simpa using hc⟩
  | append_singleton more a ih =>
    obtain ⟨new, h1, h2, h3, q, hq, hqc⟩ := ih
    rw [← List.append_assoc, siteRun_append, List.foldl_cons, List.foldl_nil]
    have hk := cacheOk_run tag (visits ++ more)
    generalize Site.run tag (visits ++ more) = s at h1 hk hq
    cases a with
    | change => exact ⟨new, h1, h2, by simpa using h3, q, hq, hqc⟩
    | fetch req resp =>
      obtain ⟨m, -, -, hs⟩ := step_sent hk req resp fun h => h.2 q hq hqc
      rw [hs]
      refine ⟨new ++ [(some s.version, s.version, true)], by simp [h1], ?_, by simpa using h3, q, by simp [hq], hqc⟩
      intro p hp
      rcases List.mem_append.mp hp with hp | hp
      · exact h2 p hp
      · simp only [List.mem_singleton] at hp
        subst hp
        rfl

/-- The tag of version 0 has a comma, the others have none. -/
example : let tag : Nat → ETag := fun v => if v = 0 then .strong s!!"0,1" else .strong (List.replicate v 'v')
    (∃ p ∈ (Site.run tag [.fetch [] []]).cache, ',' ∈ etagBody p.1) ∧
    (Site.run tag [.fetch [] [], .change, .fetch [] [], .fetch [] []]).seen =
      [(some 0, 0, true), (some 1, 1, true), (some 1, 1, true)] := by
  decide +kernel

end HT
