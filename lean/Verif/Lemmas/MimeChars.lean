import Verif.Props.Mime

/-! Parameter values of a parsed media type are made of characters of its text. -/

namespace HT.Mime
open Spec

theorem dropOne_mem {s r : Str} (h : dropOne s = .ok r) : ∀ c ∈ r, c ∈ s := by
  cases s with
  | nil => cases h
  | cons x s =>
    by_cases hc : isAsciiC x = true
    · rw [dropOne, if_pos hc] at h
      cases h
      intro c hc
      exact List.mem_cons_of_mem _ hc
    · rw [dropOne, if_neg hc] at h
      cases h

theorem dropWhile_mem (p : Char → Bool) (s : Str) : ∀ c ∈ s.dropWhile p, c ∈ s :=
  fun _ h => (List.dropWhile_suffix p).subset h

theorem collect_mem (d : List Char) (s : Str) : (∀ c ∈ (collect d s).1, c ∈ s) ∧ ∀ c ∈ (collect d s).2, c ∈ s :=
  ⟨fun _ h => (List.takeWhile_prefix _).subset h, fun _ h => (List.dropWhile_suffix _).subset h⟩

theorem trimEndWs_mem (s : Str) : ∀ c ∈ trimEndWs s, c ∈ s := by
  intro c hc
  unfold trimEndWs at hc
  rw [List.mem_reverse] at hc
  exact List.mem_reverse.mp ((List.dropWhile_suffix _).subset hc)

theorem quotedFrom_mem (start s : Str) : (∀ c ∈ (quotedFrom start s).1, c ∈ s) ∧
    ∀ c ∈ (quotedFrom start s).2, c ∈ start ∨ c ∈ s := by
  induction hn : s.length using Nat.strongRecOn generalizing start s with
  | ind n ih =>
    subst hn
    cases s with
    | nil => simp [quotedFrom]
    | cons x s =>
      unfold quotedFrom
      split
      · exact ⟨fun c hc => (List.not_mem_nil hc).elim, fun c hc => .inr (List.mem_cons_of_mem _ hc)⟩
      · split
        · rename_i hx
          cases s with
          | nil => simp [hx]
          | cons d s =>
            obtain ⟨h1, h2⟩ := ih s.length (by simp; omega) s s rfl
            simp only [List.mem_cons]
            exact ⟨fun c hc => hc.elim (fun e => .inr (.inl e)) fun h => .inr (.inr (h1 c h)),
              fun c hc => .inr (.inr (.inr ((h2 c hc).elim id id)))⟩
        · obtain ⟨h1, h2⟩ := ih s.length (by simp) start s rfl
          simp only [List.mem_cons]
          exact ⟨fun c hc => hc.imp id (h1 c), fun c hc => (h2 c hc).imp id .inr⟩

theorem quotedTail_mem (s : Str) : (∀ c ∈ (quotedTail s).1, c ∈ s) ∧ ∀ c ∈ (quotedTail s).2, c ∈ s :=
  ⟨(quotedFrom_mem s s).1, fun c hc => ((quotedFrom_mem s s).2 c hc).elim id id⟩

theorem paramStep_mem {s r : Str} {p : Option (Str × Str)} (h : paramStep s = .ok (some (p, r))) :
    (∀ c ∈ r, c ∈ s) ∧ ∀ e, p = some e → ∀ c ∈ e.2, c ∈ s := by
  unfold paramStep at h
  rw [Res.bind_eq_ok_iff] at h
  obtain ⟨i, h1, h⟩ := h
  have l1 := dropOne_mem h1
  simp only at h
  have l2 := dropWhile_mem isHttpWs i
  generalize i.dropWhile isHttpWs = j at h l2
  have l3 := (collect_mem [';', '='] j).2
  generalize (collect [';', '='] j).2 = k at h l3
  have lk : ∀ c ∈ k, c ∈ s := fun c hc => l1 c (l2 c (l3 c hc))
  split at h
  · cases h
  · split at h
    · cases h
      exact ⟨lk, by simp⟩
    · rw [Res.bind_eq_ok_iff] at h
      obtain ⟨m, h2, h⟩ := h
      have l4 := dropOne_mem h2
      split at h
      · unfold collectQuoted at h
        cases hd : dropOne m with
        | ok d =>
          rw [hd] at h
          have l5 := dropOne_mem hd
          have l6 := quotedTail_mem d
          simp only [Res.map_ok, Res.ok.injEq, Option.some.injEq, Prod.mk.injEq] at h
          obtain ⟨rfl, rfl⟩ := h
          have l7 := (collect_mem [';'] (quotedTail d).2).2
          refine ⟨fun c hc => lk c (l4 c (l5 c (l6.2 c (l7 c hc)))), ?_⟩
          intro e he
          cases he
          exact fun c hc => lk c (l4 c (l5 c (l6.1 c hc)))
        | err e => rw [hd] at h; cases h
        | panic => rw [hd] at h; cases h
      · have l5 := collect_mem [';'] m
        split at h
        · simp only [Res.ok.injEq, Option.some.injEq, Prod.mk.injEq] at h
          obtain ⟨rfl, rfl⟩ := h
          exact ⟨fun c hc => lk c (l4 c (l5.2 c hc)), by simp⟩
        · simp only [Res.ok.injEq, Option.some.injEq, Prod.mk.injEq] at h
          obtain ⟨rfl, rfl⟩ := h
          refine ⟨fun c hc => lk c (l4 c (l5.2 c hc)), ?_⟩
          intro e he
          cases he
          exact fun c hc => lk c (l4 c (l5.1 c (trimEndWs_mem _ c hc)))

theorem addParam_chars {P : Char → Prop} {acc : List (Str × Str) × Bool} {p : Str × Str}
    (ha : ∀ e ∈ acc.1, ∀ c ∈ e.2, P c) (hp : ∀ c ∈ p.2, P c) : ∀ e ∈ (addParam acc p).1, ∀ c ∈ e.2, P c := by
  unfold addParam
  split
  · exact ha
  · split
    · split
      · exact ha
      · intro e he
        rcases List.mem_append.mp he with he | he
        · exact ha e he
        · rw [List.mem_singleton.mp he]; exact hp
    · exact ha

theorem paramLoop_chars {P : Char → Prop} {input : Str} {acc r : List (Str × Str) × Bool} (hi : ∀ c ∈ input, P c)
    (ha : ∀ e ∈ acc.1, ∀ c ∈ e.2, P c) (h : paramLoop input acc = .ok r) : ∀ e ∈ r.1, ∀ c ∈ e.2, P c := by
  induction hn : input.length using Nat.strongRecOn generalizing input acc with
  | ind n ih =>
    subst hn
    by_cases he : input = []
    · subst he
      rw [paramLoop_nil] at h
      cases h
      exact ha
    · cases hs : paramStep input with
      | ok o =>
        cases o with
        | none => rw [paramLoop_break hs] at h; cases h; exact ha
        | some q =>
          obtain ⟨p, rest⟩ := q
          rw [paramLoop_next hs] at h
          obtain ⟨h1, h2⟩ := paramStep_mem hs
          refine ih _ (paramStep_length hs) (fun c hc => hi c (h1 c hc)) ?_ h rfl
          cases p with
          | none => exact ha
          | some p => exact addParam_chars ha fun c hc => hi c (h2 p rfl c hc)
      | err e => unfold paramLoop at h; rw [if_neg he] at h; split at h <;> simp_all
      | panic => unfold paramLoop at h; rw [if_neg he] at h; split at h <;> simp_all

theorem parse_chars {P : Char → Prop} {s : Str} {m : Mime} (hs : ∀ c ∈ s, P c) (h : Mime.parse s = .ok m) :
    ∀ e ∈ m.params, ∀ c ∈ e.2, P c := by
  unfold Mime.parse at h
  simp only at h
  have ht : ∀ c ∈ trimWs s, P c := by
    intro c hc
    exact hs c (dropWhile_mem _ _ c (trimEndWs_mem _ c hc))
  generalize trimWs s = i at h ht
  have l1 := (collect_mem ['/'] i).2
  generalize (collect ['/'] i).2 = j at h l1
  generalize (collect ['/'] i).1 = b at h
  split at h
  · cases h
  · split at h
    · cases h
    · split at h
      · cases h
      · rw [Res.bind_eq_ok_iff] at h
        obtain ⟨k, h2, h⟩ := h
        have l2 := dropOne_mem h2
        have l3 := (collect_mem [';'] k).2
        generalize (collect [';'] k).2 = r at h l3
        split at h
        · cases h
        · split at h
          · cases h
          · cases hp : paramLoop r ([], false) with
            | ok acc =>
              rw [hp] at h
              cases h
              exact paramLoop_chars (fun c hc => ht c (l1 c (l2 c (l3 c hc)))) (by simp) hp
            | err e => rw [hp] at h; cases h
            | panic => rw [hp] at h; cases h

/-- What the printed form is made of. -/
theorem display_chars {P : Char → Prop} {m : Mime} (h : MimeWF m) (hp : ∀ e ∈ m.params, ∀ c ∈ e.2, P c)
    (ht : ∀ c, TChar c → P c) (h1 : ∀ c ∈ s!!"/;=\"\\", P c) : ∀ c ∈ m.display, P c := by
  have lit : ∀ {t : Str}, (∀ c ∈ t, c ∈ s!!"/;=\"\\" ∨ isToken c = true) → ∀ c ∈ t, P c := by
    intro t h c hc
    rcases h c hc with h | h
    · exact h1 c h
    · exact ht c ((isToken_iff c).mp h)
  intro c hc
  unfold display at hc
  rw [h.essence] at hc
  simp only [List.mem_append, List.mem_cons, List.mem_flatMap] at hc
  rcases hc with ((hc | rfl | hc) | hc) | ⟨e, he, hc⟩
  · exact ht c (h.base.1.2 c hc)
  · exact h1 _ (by decide)
  · exact ht c (h.sub.1.2 c hc)
  · split at hc
    · exact lit (by decide) c hc
    · cases hc
  · unfold displayParam at hc
    split at hc
    · simp only [List.mem_append] at hc
      rcases hc with ((hc | hc) | hc) | hc
      · exact lit (by decide) c hc
      · exact ht c ((h.names e he).1.2 c hc)
      · exact lit (by decide) c hc
      · exact hp e he c hc
    · simp only [List.mem_append] at hc
      rcases hc with (((hc | hc) | hc) | hc) | hc
      · exact lit (by decide) c hc
      · exact ht c ((h.names e he).1.2 c hc)
      · exact lit (by decide) c hc
      · unfold escape at hc
        obtain ⟨d, hd, hc⟩ := List.mem_flatMap.mp hc
        split at hc
        · rcases List.mem_cons.mp hc with rfl | hc
          · exact h1 _ (by decide)
          · rw [List.mem_singleton.mp hc]; exact hp e he d hd
        · rw [List.mem_singleton.mp hc]; exact hp e he d hd
      · exact lit (by decide) c hc

end HT.Mime
