import Verif.Spec.Discover
import Verif.Props.Allow

/-! C140 (finding a method). -/

namespace HT
open Spec

/-- What a client knows after a refusal. -/
theorem refusal_read {takes : List Method} (hn : takes.Nodup) (h : Headers) :
    (takes ≠ [] → ∃ h' ms, refusal takes h = .ok h' ∧ Allow.fromHeaders h' = .ok (some ms) ∧ ∀ m, m ∈ ms ↔ m ∈ takes) ∧
    (takes = [] → ∃ h', refusal takes h = .ok h' ∧ Allow.fromHeaders h' = .err 500) := by
  constructor
  · intro hne
    obtain ⟨ms, hm, hr⟩ := (C44_roundtrip_iff_partial takes hn).2 hne
    obtain ⟨h', v, h1, h2, h3, h4⟩ := hr h
    exact ⟨h', ms, h1, h4, hm⟩
  · rintro rfl
    refine ⟨_, rfl, ?_⟩
    exact (C44_reads _ _ (get_set_self h s!!"allow" [[]])).2 ⟨[], by decide +kernel, by intro m; cases m <;> decide +kernel⟩

/-- Whatever the resource takes from one request to the next, as long as it is never nothing: the client never fails, asks
with each method once at most, what it finds was taken, and if it finds none there was for each method a request when it
was not taken. -/
theorem C140_changing_partial (takes : Nat → List Method) (base : Nat → Headers) (hn : ∀ t, (takes t).Nodup)
    (hne : ∀ t, takes t ≠ []) (ms : List Method) :
    ∃ r, discover takes base 0 (fun _ => true) ms = .ok r ∧
      (∀ t m, r = some (t, m) → t < ms.length ∧ m ∈ ms ∧ m ∈ takes t) ∧
      (r = none → ∀ m ∈ ms, ∃ t < ms.length, m ∉ takes t) := by
  suffices H : ∀ (ms : List Method) (t : Nat) (known : Method → Bool), (∀ m, known m = false → ∃ u < t, m ∉ takes u) →
      ∃ r, discover takes base t known ms = .ok r ∧
        (∀ u m, r = some (u, m) → u < t + ms.length ∧ m ∈ ms ∧ m ∈ takes u) ∧
        (r = none → ∀ m ∈ ms, ∃ u < t + ms.length, m ∉ takes u) by
    obtain ⟨r, h1, h2, h3⟩ := H ms 0 (fun _ => true) (fun m h => by cases h)
    refine ⟨r, h1, ?_, ?_⟩
    · simpa using h2
    · simpa using h3
  intro ms
  induction ms with
  | nil => exact fun t known _ => ⟨none, rfl, fun _ _ h => (by cases h), fun _ m h => (by cases h)⟩
  | cons m ms ih =>
    intro t known hk
    unfold discover
    by_cases hm : known m = false
    · rw [if_pos hm]
      obtain ⟨r, h1, h2, h3⟩ := ih t known hk
      refine ⟨r, h1, fun u x e => ?_, fun e x hx => ?_⟩
      · obtain ⟨a, b, c⟩ := h2 u x e
        exact ⟨by simp only [List.length_cons]; omega, List.mem_cons_of_mem _ b, c⟩
      · rcases List.mem_cons.1 hx with rfl | hx
        · obtain ⟨u, hu, h⟩ := hk x hm
          exact ⟨u, by omega, h⟩
        · obtain ⟨u, hu, h⟩ := h3 e x hx
          exact ⟨u, by simp only [List.length_cons]; omega, h⟩
    · rw [if_neg hm]
      by_cases ht : m ∈ takes t
      · rw [if_pos ht]
        refine ⟨_, rfl, fun u x e => ?_, fun e => by cases e⟩
        cases e
        exact ⟨by simp, by simp, ht⟩
      · rw [if_neg ht]
        obtain ⟨h', l, e1, e2, e3⟩ := (refusal_read (hn t) (base t)).1 (hne t)
        rw [e1, Res.bind_ok, e2, Res.bind_ok]
        obtain ⟨r, h1, h2, h3⟩ := ih (t + 1) (fun x => known x && (((some l).map (decide <| x ∈ ·)).getD true)) (by
          intro x hx
          simp only [Option.map_some, Option.getD_some, Bool.and_eq_false_iff, decide_eq_false_iff_not] at hx
          rcases hx with hx | hx
          · obtain ⟨u, hu, h⟩ := hk x hx
            exact ⟨u, by omega, h⟩
          · exact ⟨t, by omega, fun h => hx ((e3 x).2 h)⟩)
        refine ⟨r, h1, fun u x e => ?_, fun e x hx => ?_⟩
        · obtain ⟨a, b, c⟩ := h2 u x e
          exact ⟨by simp only [List.length_cons]; omega, List.mem_cons_of_mem _ b, c⟩
        · rcases List.mem_cons.1 hx with rfl | hx
          · exact ⟨t, by simp, ht⟩
          · obtain ⟨u, hu, h⟩ := h3 e x hx
            exact ⟨u, by simp only [List.length_cons]; omega, h⟩

example : discover (fun t => if t = 0 then [.put, .get] else [.get]) (fun _ => []) 0 (fun _ => true) [.patch, .post, .put, .get] =
    .ok (some (2, .get)) := by decide +kernel

theorem discover_known {takes : Nat → List Method} {base : Nat → Headers} {S : List Method} (hs : ∀ t m, m ∈ takes t ↔ m ∈ S) :
    ∀ (ms : List Method) (t : Nat) (known : Method → Bool), (∀ m, known m = true ↔ m ∈ S) →
      discover takes base t known ms = .ok ((ms.find? (decide <| · ∈ S)).map fun m => (t, m))
  | [], _, _, _ => rfl
  | m :: ms, t, known, hk => by
    unfold discover
    by_cases hm : m ∈ S
    · rw [if_neg (by simp [(hk m).2 hm]), if_pos ((hs t m).2 hm), List.find?_cons_of_pos (by simpa using hm)]
      rfl
    · have : known m = false := by
        cases h : known m with
        | false => rfl
        | true => exact absurd ((hk m).1 h) hm
      rw [if_pos this, List.find?_cons_of_neg (by simpa using hm)]
      exact discover_known hs ms t known hk

/-- If the resource takes the same methods all the time, and some: the client finds the first of its methods that it takes,
with the first or the second request, and learns with the first one if there is none. -/
theorem C140_finds_partial (takes : Nat → List Method) (base : Nat → Headers) (hn : ∀ t, (takes t).Nodup) (S : List Method)
    (hne : S ≠ []) (hs : ∀ t m, m ∈ takes t ↔ m ∈ S) (ms : List Method) :
    discover takes base 0 (fun _ => true) ms =
      .ok ((ms.find? (decide <| · ∈ S)).map fun m => (if ms.head? = some m then 0 else 1, m)) := by
  cases ms with
  | nil => rfl
  | cons m ms =>
    unfold discover
    rw [if_neg (by simp)]
    by_cases hm : m ∈ S
    · rw [if_pos ((hs 0 m).2 hm), List.find?_cons_of_pos (by simpa using hm)]
      simp
    · rw [if_neg (fun h => hm ((hs 0 m).1 h)), List.find?_cons_of_neg (by simpa using hm)]
      have h0 : takes 0 ≠ [] := by
        intro h
        obtain ⟨x, hx⟩ := List.exists_mem_of_ne_nil _ hne
        have := (hs 0 x).2 hx
        rw [h] at this
        cases this
      obtain ⟨h', l, e1, e2, e3⟩ := (refusal_read (hn 0) (base 0)).1 h0
      rw [e1, Res.bind_ok, e2, Res.bind_ok]
      rw [discover_known hs ms 1 _ (fun x => by simp [e3 x, hs 0 x])]
      cases hf : ms.find? (decide <| · ∈ S) with
      | none => rfl
      | some x =>
        have hx : x ∈ S := by simpa using List.find?_some hf
        have : m ≠ x := fun h => hm (h ▸ hx)
        simp [this]

example : discover (fun t => if t = 0 then [.put, .get] else [.get, .put]) (fun _ => []) 0 (fun _ => true) [.patch, .post, .get] =
    .ok (some (1, .get)) := by decide +kernel

/-- Of a resource that takes no method the client ought to learn that there is none; it fails with 500 whatever it asks. -/
theorem C140_violated_nothing (base : Nat → Headers) (m : Method) (ms : List Method) :
    discover (fun _ => []) base 0 (fun _ => true) (m :: ms) = .err 500 := by
  unfold discover
  rw [if_neg (by simp), if_neg (by simp)]
  obtain ⟨h', e1, e2⟩ := (refusal_read (takes := []) (by simp) (base 0)).2 rfl
  rw [e1, Res.bind_ok, e2]
  rfl

example : discover (fun _ => []) (fun _ => []) 0 (fun _ => true) [.get, .put] = .err 500 := by decide +kernel

/-- A resource of the same methods all the time makes the client fail only so. -/
theorem C140_fails_iff_partial (takes : Nat → List Method) (base : Nat → Headers) (hn : ∀ t, (takes t).Nodup) (S : List Method)
    (hs : ∀ t m, m ∈ takes t ↔ m ∈ S) (ms : List Method) :
    (∃ r, discover takes base 0 (fun _ => true) ms = .ok r) ↔ S ≠ [] ∨ ms = [] := by
  constructor
  · rintro ⟨r, h⟩
    by_cases hS : S = []
    · subst hS
      cases ms with
      | nil => exact .inr rfl
      | cons m ms =>
        have : takes = fun _ => [] := by
          funext t
          refine List.eq_nil_iff_forall_not_mem.2 fun m hm => ?_
          exact absurd ((hs t m).1 hm) (by simp)
        rw [this, C140_violated_nothing] at h
        cases h
    · exact .inl hS
  · rintro (h | rfl)
    · exact ⟨_, C140_finds_partial takes base hn S h hs ms⟩
    · exact ⟨none, rfl⟩

example : discover (fun _ => [.get]) (fun _ => []) 0 (fun _ => true) [.put] = .ok none := by decide +kernel

end HT
