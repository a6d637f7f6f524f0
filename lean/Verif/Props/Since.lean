import Verif.Spec.Since
import Verif.Props.Wait

/-! C133: documents that are kept by the date of their last change. -/

namespace HT
open Spec

theorem carry_eq (d : DateHeader) (t : SysTime) (h0 : 0 ≤ t.secs) (h9 : t.secs ≤ 253402300799) (h : Headers) :
    carry d t h = some ⟨t.secs, 0⟩ := by
  obtain ⟨h', v, h1, -, -, h4⟩ := C29_roundtrip d t h0 (by rw [last_second_of_9999]; exact h9) h
  unfold carry
  rw [show dateField d = d.name by cases d <;> rfl]
  rw [h1, Res.bind_ok, h4]

variable {le : Unchanged} {time : Nat → SysTime} {last : Nat}

/-- What clients have: versions there were, each with its date. -/
def HeldOk (time : Nat → SysTime) (d : Dated) : Prop :=
  ∀ k r v, d.held k = some (r, v) → r = ⟨(time v).secs, 0⟩ ∧ v ≤ d.version

theorem carry_held (hc : Calendar time last) {d : Dated} (h : HeldOk time d) (hl : d.version ≤ last) {k v r}
    (hk : d.held k = some (r, v)) (x : DateHeader) (hs : Headers) : carry x r hs = some ⟨(time v).secs, 0⟩ := by
  obtain ⟨rfl, hv⟩ := h k r v hk
  exact carry_eq x ⟨(time v).secs, 0⟩ (hc.from1970 v (by omega)) (hc.to9999 v (by omega)) hs

theorem HeldOk.send (hc : Calendar time last) {d : Dated} (h : HeldOk time d) (hl : d.version ≤ last) (k : Nat) (resp : Headers) :
    HeldOk time (d.send time k resp) := by
  intro i r v hi
  simp only [Dated.send, carry_eq _ _ (hc.from1970 _ hl) (hc.to9999 _ hl)] at hi ⊢
  split at hi
  · cases hi
    exact ⟨rfl, Nat.le_refl _⟩
  · exact h i r v hi

theorem HeldOk.step (hc : Calendar time last) {d : Dated} (h : HeldOk time d) (hl : d.version ≤ last) (a : Turn) :
    HeldOk time (d.step le time a) := by
  cases a with
  | other => exact fun k r v hk => ⟨(h k r v hk).1, Nat.le_succ_of_le (h k r v hk).2⟩
  | fetch k req resp =>
    simp only [Dated.step]
    split
    · exact h.send hc hl k resp
    · split
      · exact h.send hc hl k resp
      · split
        · exact h
        · exact h.send hc hl k resp
  | put k req =>
    simp only [Dated.step]
    split
    · exact h
    · split
      · exact h
      · split
        · exact fun k r v hk => ⟨(h k r v hk).1, Nat.le_succ_of_le (h k r v hk).2⟩
        · exact h

theorem Dated.run_snoc (turns : List Turn) (a : Turn) :
    Dated.run le time (turns ++ [a]) = (Dated.run le time turns).step le time a := by
  simp [Dated.run]

/-- The version never goes back. -/
theorem Dated.step_version (d : Dated) (a : Turn) : d.version ≤ (d.step le time a).version := by
  cases a with
  | other => exact Nat.le_succ _
  | fetch k req resp =>
    simp only [Dated.step]
    split
    · exact Nat.le_refl _
    · split
      · exact Nat.le_refl _
      · split <;> exact Nat.le_refl _
  | put k req =>
    simp only [Dated.step]
    split
    · exact Nat.le_refl _
    · split
      · exact Nat.le_refl _
      · split
        · exact Nat.le_succ _
        · exact Nat.le_refl _

theorem heldOk_run (hc : Calendar time last) (turns : List Turn) (hl : (Dated.run le time turns).version ≤ last) :
    HeldOk time (Dated.run le time turns) := by
  induction turns using List.reverseRecOn with
  | nil => exact fun k r v hk => by cases hk
  | append_singleton as a ih =>
    rw [Dated.run_snoc] at hl ⊢
    have := Nat.le_trans (Dated.step_version (le := le) (time := time) (Dated.run le time as) a) hl
    exact (ih this).step hc this a

/-- `n` changes. -/
theorem Dated.run_others (turns : List Turn) (n : Nat) :
    Dated.run le time (turns ++ List.replicate n .other) =
      { Dated.run le time turns with version := (Dated.run le time turns).version + n } := by
  induction n with
  | zero => simp
  | succ n ih =>
    rw [List.replicate_succ', ← List.append_assoc, Dated.run_snoc, ih]
    rfl

/-- A first client gets version `i`, and the document is changed up to version `j`. -/
def behind (i j : Nat) : List Turn :=
  (List.replicate i .other ++ [.fetch 0 [] []]) ++ List.replicate (j - i) .other

theorem run_behind (hc : Calendar time last) {i j : Nat} (hij : i ≤ j) (hj : j ≤ last) :
    (Dated.run le time (behind i j)).version = j ∧
    (Dated.run le time (behind i j)).held 0 = some (⟨(time i).secs, 0⟩, i) := by
  unfold behind
  have hi : 0 + i ≤ last := by omega
  rw [Dated.run_others, Dated.run_snoc, ← List.nil_append (List.replicate i Turn.other), Dated.run_others]
  simp only [Dated.step, Dated.run, List.foldl_nil, Dated.new, Dated.send, carry_eq _ _ (hc.from1970 _ hi) (hc.to9999 _ hi)]
  refine ⟨by omega, ?_⟩
  simp

/-- For any comparison: what clients show and change is right exactly if no version counts as unchanged since an earlier
one, to the second. -/
theorem C133_any (hc : Calendar time last) :
    (ShowsPresent le time last ↔ ∀ i j, i < j → j ≤ last → le (time j) ⟨(time i).secs, 0⟩ = false) ∧
    (LosesNothing le time last ↔ ∀ i j, i < j → j ≤ last → le (time j) ⟨(time i).secs, 0⟩ = false) := by
  have inv : (∀ i j, i < j → j ≤ last → le (time j) ⟨(time i).secs, 0⟩ = false) → ∀ turns,
      (∀ p ∈ (Dated.run le time turns).shown, p.2.1 ≤ last → p.1 = p.2.1) ∧
        ∀ p ∈ (Dated.run le time turns).accepted, p.2 ≤ last → p.1 = p.2 := by
    intro h turns
    induction turns using List.reverseRecOn with
    | nil => exact ⟨fun p hp => (nomatch hp), fun p hp => (nomatch hp)⟩
    | append_singleton as a ih =>
      rw [Dated.run_snoc]
      have key : (Dated.run le time as).version ≤ last → ∀ k r v, (Dated.run le time as).held k = some (r, v) →
          le (time (Dated.run le time as).version) ⟨(time v).secs, 0⟩ = true → v = (Dated.run le time as).version := by
        intro hv k r v hh hl
        by_contra hne
        rw [h v _ (Nat.lt_of_le_of_ne (heldOk_run (le := le) hc as hv k r v hh).2 hne) hv] at hl
        cases hl
      have hsend : ∀ k resp, (∀ p ∈ ((Dated.run le time as).send time k resp).shown, p.2.1 ≤ last → p.1 = p.2.1) ∧
          ∀ p ∈ ((Dated.run le time as).send time k resp).accepted, p.2 ≤ last → p.1 = p.2 := by
        intro k resp
        refine ⟨fun p hp => ?_, ih.2⟩
        rcases List.mem_append.mp hp with hp | hp
        · exact ih.1 p hp
        · rw [List.mem_singleton.mp hp]; exact fun _ => rfl
      cases a with
      | other => exact ih
      | fetch k req resp =>
        simp only [Dated.step]
        split
        · exact hsend k resp
        · rename_i r v hh
          split
          · exact hsend k resp
          · rename_i since hs
            split
            · rename_i hl
              refine ⟨fun p hp hv => ?_, ih.2⟩
              rcases List.mem_append.mp hp with hp | hp
              · exact ih.1 p hp hv
              · rw [List.mem_singleton.mp hp] at hv ⊢
                rw [carry_held hc (heldOk_run (le := le) hc as hv) hv hh] at hs
                cases hs
                exact key hv k r v hh hl
            · exact hsend k resp
      | put k req =>
        simp only [Dated.step]
        split
        · exact ih
        · rename_i r v hh
          split
          · exact ih
          · rename_i since hs
            split
            · rename_i hl
              refine ⟨ih.1, fun p hp hv => ?_⟩
              rcases List.mem_append.mp hp with hp | hp
              · exact ih.2 p hp hv
              · rw [List.mem_singleton.mp hp] at hv ⊢
                rw [carry_held hc (heldOk_run (le := le) hc as hv) hv hh] at hs
                cases hs
                exact key hv k r v hh hl
            · exact ih
  refine ⟨⟨fun h i j hij hj => ?_, fun h turns => (inv h turns).1⟩, ⟨fun h i j hij hj => ?_, fun h turns => (inv h turns).2⟩⟩
  · by_contra hl
    rw [Bool.not_eq_false] at hl
    obtain ⟨h1, h2⟩ := run_behind (le := le) hc (Nat.le_of_lt hij) hj
    have := h (behind i j ++ [.fetch 0 [] []]) (i, j, false) (by
      rw [Dated.run_snoc]
      simp only [Dated.step, h2, carry_eq _ (⟨(time i).secs, 0⟩ : SysTime) (hc.from1970 i (by omega)) (hc.to9999 i (by omega)), h1, hl,
        if_true]
      simp) hj
    simp only at this
    omega
  · by_contra hl
    rw [Bool.not_eq_false] at hl
    obtain ⟨h1, h2⟩ := run_behind (le := le) hc (Nat.le_of_lt hij) hj
    have := h (behind i j ++ [.put 0 []]) (i, j) (by
      rw [Dated.run_snoc]
      simp only [Dated.step, h2, carry_eq _ (⟨(time i).secs, 0⟩ : SysTime) (hc.from1970 i (by omega)) (hc.to9999 i (by omega)), h1, hl,
        if_true]
      simp) hj
    simp only at this
    omega

example : ShowsPresent bySecond (fun n => ⟨(n : Nat), 5⟩) 1000 := by
  rw [(C133_any (by constructor <;> intro n h <;> simp only <;> omega)).1]
  intro i j h _
  simp [bySecond]
  omega

theorem calendar_le (hc : Calendar time last) {i j : Nat} (h : i ≤ j) (hj : j ≤ last) : (time i).secs < (time j).secs ∨
    (time i).secs = (time j).secs ∧ (time i).nanos ≤ (time j).nanos := by
  induction j with
  | zero =>
    rw [Nat.le_zero.mp h]
    exact .inr ⟨rfl, Nat.le_refl _⟩
  | succ j ih =>
    by_cases hj' : i = j + 1
    · rw [hj']; exact .inr ⟨rfl, Nat.le_refl _⟩
    · have h1 := ih (by omega) (by omega)
      have h2 := hc.order j (by omega)
      omega

theorem exactly_iff (m s : SysTime) : exactly m s = true ↔ m.secs < s.secs ∨ m.secs = s.secs ∧ m.nanos ≤ s.nanos := by
  unfold exactly SysTime.cmp
  rcases Int.lt_trichotomy m.secs s.secs with h | h | h
  · simp [compare_lt_iff_lt.mpr h, h]
  · rw [h, compare_eq_iff_eq.mpr rfl]
    rcases Nat.lt_trichotomy m.nanos s.nanos with g | g | g
    · simp [compare_lt_iff_lt.mpr g, Nat.le_of_lt g]
    · simp [g]
    · simp [compare_gt_iff_gt.mpr g, g]
  · simp [compare_gt_iff_gt.mpr h]
    omega

/-- If the server compares the times as they are, clients show and change the right versions exactly if no two versions in a
row were made at the same time, to the nanosecond, at the very beginning of a second. -/
theorem C133_exactly (hc : Calendar time last) :
    (ShowsPresent exactly time last ↔ ∀ n, n < last → time n = time (n + 1) → (time n).nanos ≠ 0) ∧
    (LosesNothing exactly time last ↔ ∀ n, n < last → time n = time (n + 1) → (time n).nanos ≠ 0) := by
  have key : (∀ i j, i < j → j ≤ last → exactly (time j) ⟨(time i).secs, 0⟩ = false) ↔
      ∀ n, n < last → time n = time (n + 1) → (time n).nanos ≠ 0 := by
    constructor
    · intro h n hn he hz
      have := h n (n + 1) (by omega) (by omega)
      rw [← Bool.not_eq_true, exactly_iff, ← he] at this
      exact this (.inr ⟨rfl, by simp only; omega⟩)
    · intro h i j hij hj
      rw [← Bool.not_eq_true, exactly_iff]
      intro hl
      simp only [Nat.le_zero] at hl
      have h1 := hc.order i (by omega)
      have h2 := calendar_le hc (i := i + 1) (j := j) (by omega) hj
      exact h i (by omega) (by
        rcases ht : time i with ⟨a, b⟩
        rcases ht' : time (i + 1) with ⟨a', b'⟩
        rw [ht] at hl h1
        rw [ht'] at h1 h2
        simp only at hl h1 h2
        simp only [SysTime.mk.injEq]
        omega) (by omega)
  exact ⟨(C133_any hc).1.trans key, (C133_any hc).2.trans key⟩

example : ShowsPresent exactly (fun n => ⟨(n / 2 : Nat), 7⟩) 1000 := by
  rw [(C133_exactly (by constructor <;> intro n h <;> simp only <;> omega)).1]
  intro n _ _
  simp

/-- If it compares them by the second, they do exactly if each version was made in a later second than the one before. -/
theorem C133_by_second (hc : Calendar time last) :
    (ShowsPresent bySecond time last ↔ ∀ n, n < last → (time n).secs < (time (n + 1)).secs) ∧
    (LosesNothing bySecond time last ↔ ∀ n, n < last → (time n).secs < (time (n + 1)).secs) := by
  have key : (∀ i j, i < j → j ≤ last → bySecond (time j) ⟨(time i).secs, 0⟩ = false) ↔
      ∀ n, n < last → (time n).secs < (time (n + 1)).secs := by
    simp only [bySecond, decide_eq_false_iff_not]
    constructor
    · intro h n hn
      have := h n (n + 1) (by omega) (by omega)
      omega
    · intro h i j hij hj
      have h1 := h i (by omega)
      have h2 := calendar_le hc (i := i + 1) (j := j) (by omega) hj
      omega
  exact ⟨(C133_any hc).1.trans key, (C133_any hc).2.trans key⟩

example : LosesNothing bySecond (fun n => ⟨(60 * n : Nat), 5⟩) 1000 ∧ ¬ ShowsPresent bySecond (fun n => ⟨(min n 3 : Nat), 5⟩) 1000 := by
  rw [(C133_by_second (by constructor <;> intro n h <;> simp only <;> omega)).1,
    (C133_by_second (by constructor <;> intro n h <;> simp only <;> omega)).2]
  exact ⟨fun n _ => by simp only; omega, fun h => absurd (h 3 (by decide)) (by decide)⟩

theorem unchanged_step (hc : Calendar time last) (turns : List Turn) (k : Nat) (req resp : Headers) (r : SysTime) (v : Nat)
    (hl : v ≤ last) (hv : (Dated.run le time turns).version = v) (h : (Dated.run le time turns).held k = some (r, v)) (b : Bool)
    (hb : le (time v) ⟨(time v).secs, 0⟩ = b) :
    (Dated.run le time (turns ++ [.fetch k req resp])).shown = (Dated.run le time turns).shown ++ [(v, v, !b)] ∧
    (Dated.run le time (turns ++ [.put k req])).accepted =
      (Dated.run le time turns).accepted ++ bif b then [(v, v)] else [] := by
  have hk := heldOk_run (le := le) hc turns (by omega)
  simp only [Dated.run_snoc, Dated.step, h, carry_held hc hk (by omega) h, hv, hb]
  cases b
  · simp [Dated.send, hv]
  · simp

/-- A client has the present version, and the server compares the times as they are: the document is sent again, and the
client cannot change it, exactly if it was not made at the very beginning of a second. -/
theorem C133_unchanged_exactly (hc : Calendar time last) (turns : List Turn) (k : Nat) (req resp : Headers) (r : SysTime) (v : Nat)
    (hl : v ≤ last) (hv : (Dated.run exactly time turns).version = v) (h : (Dated.run exactly time turns).held k = some (r, v)) :
    (Dated.run exactly time (turns ++ [.fetch k req resp])).shown =
      (Dated.run exactly time turns).shown ++ [(v, v, decide ((time v).nanos ≠ 0))] ∧
    (Dated.run exactly time (turns ++ [.put k req])).accepted =
      (Dated.run exactly time turns).accepted ++ if (time v).nanos = 0 then [(v, v)] else [] := by
  by_cases hz : (time v).nanos = 0
  · obtain ⟨h1, h2⟩ := unchanged_step hc turns k req resp r v hl hv h true
      ((exactly_iff _ _).mpr (.inr ⟨rfl, by simp only; omega⟩))
    rw [h1, h2]
    simp [hz]
  · obtain ⟨h1, h2⟩ := unchanged_step hc turns k req resp r v hl hv h false (by
      rw [← Bool.not_eq_true, exactly_iff]
      simp only
      omega)
    rw [h1, h2]
    simp [hz]

example : (Dated.run exactly (fun n => ⟨(n : Nat), 5⟩) [.fetch 0 [] []]).held 0 = some (⟨0, 0⟩, 0) ∧
    (Dated.run exactly (fun n => ⟨(n : Nat), 5⟩) [.fetch 0 [] [], .put 0 []]).accepted = [] ∧
    (Dated.run exactly (fun n => ⟨(n : Nat), 0⟩) [.fetch 0 [] [], .put 0 []]).accepted = [(0, 0)] := by decide +kernel

/-- If it compares them by the second, the document is not sent again, and the client can change it. -/
theorem C133_unchanged_by_second (hc : Calendar time last) (turns : List Turn) (k : Nat) (req resp : Headers) (r : SysTime)
    (v : Nat) (hl : v ≤ last) (hv : (Dated.run bySecond time turns).version = v) (h : (Dated.run bySecond time turns).held k = some (r, v)) :
    (Dated.run bySecond time (turns ++ [.fetch k req resp])).shown =
      (Dated.run bySecond time turns).shown ++ [(v, v, false)] ∧
    (Dated.run bySecond time (turns ++ [.put k req])).accepted =
      (Dated.run bySecond time turns).accepted ++ [(v, v)] :=
  unchanged_step hc turns k req resp r v hl hv h true (by simp [bySecond])

example : (Dated.run bySecond (fun n => ⟨(n : Nat), 5⟩) [.fetch 0 [] []]).held 0 = some (⟨0, 0⟩, 0) ∧
    (Dated.run bySecond (fun n => ⟨(n : Nat), 5⟩) [.fetch 0 [] [], .fetch 0 [] []]).shown = [(0, 0, true), (0, 0, false)] := by
  decide +kernel

/-- A client that was sent the document has the present version. -/
theorem C133_has (hc : Calendar time last) (turns : List Turn) (k : Nat) (req resp : Headers)
    (hl : (Dated.run le time turns).version ≤ last) (h : (Dated.run le time turns).held k = none) :
    (Dated.run le time (turns ++ [.fetch k req resp])).version = (Dated.run le time turns).version ∧
    (Dated.run le time (turns ++ [.fetch k req resp])).held k =
      some (⟨(time (Dated.run le time turns).version).secs, 0⟩, (Dated.run le time turns).version) := by
  simp only [Dated.run_snoc, Dated.step, h, Dated.send, carry_eq _ _ (hc.from1970 _ hl) (hc.to9999 _ hl)]
  simp

example : (Dated.run exactly (fun n => ⟨(n : Nat), 5⟩) [.fetch 0 [] [], .fetch 0 [] [], .put 0 []]).shown =
    [(0, 0, true), (0, 0, true)] := by decide +kernel
example : (Dated.run bySecond (fun n => ⟨(n : Nat), 5⟩) [.fetch 0 [] [], .fetch 0 [] [], .put 0 []]).accepted =
    [(0, 0)] := by decide +kernel

/-- No comparison of the date that was sent with the time of the present version does both: if each document is sent once
only to a client, then a document that changes twice in one second, or was changed in the same second in which it was made, is
shown as it was before. -/
theorem C133_no_comparison (time' : Nat → SysTime) (hc : Calendar time' last) (i : Nat) (hi : i < last)
    (hs : (time' i).secs = (time' (i + 1)).secs)
    (hu : ∀ t : SysTime, 0 ≤ t.secs → le t ⟨t.secs, 0⟩ = true) : ¬ ShowsPresent le time' last ∧ ¬ LosesNothing le time' last := by
  have h1 := hu (time' (i + 1)) (hc.from1970 _ hi)
  rw [← hs] at h1
  constructor
  · intro h
    have := (C133_any hc).1.mp h i (i + 1) (by omega) hi
    rw [h1] at this; cases this
  · intro h
    have := (C133_any hc).2.mp h i (i + 1) (by omega) hi
    rw [h1] at this; cases this

example : ∀ t : SysTime, 0 ≤ t.secs → bySecond t ⟨t.secs, 0⟩ = true := by simp [bySecond]

end HT
