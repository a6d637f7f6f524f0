import Verif.Spec.Compare
import Verif.Model.Compare
import Verif.Props.Content

/-!
C106: comparing times, ages, waiting times and proposals.
-/

namespace HT
open Spec

theorem then_lt {a b : Ordering} : a.then b = .lt ↔ a = .lt ∨ a = .eq ∧ b = .lt := by cases a <;> simp [Ordering.then]
theorem then_gt {a b : Ordering} : a.then b = .gt ↔ a = .gt ∨ a = .eq ∧ b = .gt := by cases a <;> simp [Ordering.then]
theorem then_eq {a b : Ordering} : a.then b = .eq ↔ a = .eq ∧ b = .eq := by cases a <;> simp [Ordering.then]

theorem systime_cmp {a b : SysTime} (ha : a.nanos < 1000000000) (hb : b.nanos < 1000000000) :
    a.cmp b = compare (inst a) (inst b) := by
  obtain ⟨s, n⟩ := a
  obtain ⟨s', n'⟩ := b
  simp only [SysTime.cmp, inst] at *
  rcases h : compare (s * 1000000000 + (n : Int)) (s' * 1000000000 + (n' : Int)) with _ | _ | _
  · rw [compare_lt_iff_lt] at h
    rw [then_lt, compare_lt_iff_lt, compare_eq_iff_eq, compare_lt_iff_lt]; omega
  · rw [compare_eq_iff_eq] at h
    rw [then_eq, compare_eq_iff_eq, compare_eq_iff_eq]; omega
  · rw [compare_gt_iff_gt] at h
    rw [then_gt, compare_gt_iff_gt, compare_eq_iff_eq, compare_gt_iff_gt]; omega

theorem duration_cmp {a b : Duration} (ha : a.nanos < 1000000000) (hb : b.nanos < 1000000000) :
    a.cmp b = compare (len a) (len b) := by
  obtain ⟨s, n⟩ := a
  obtain ⟨s', n'⟩ := b
  simp only [Duration.cmp, len] at *
  rcases h : compare (s * 1000000000 + n) (s' * 1000000000 + n') with _ | _ | _
  · rw [compare_lt_iff_lt] at h
    rw [then_lt, compare_lt_iff_lt, compare_eq_iff_eq, compare_lt_iff_lt]; omega
  · rw [compare_eq_iff_eq] at h
    rw [then_eq, compare_eq_iff_eq, compare_eq_iff_eq]; omega
  · rw [compare_gt_iff_gt] at h
    rw [then_gt, compare_gt_iff_gt, compare_eq_iff_eq, compare_gt_iff_gt]; omega

/-- C106, times and ages: of two dates (Expires, Last-Modified and the conditions on it) the earlier is the smaller, of
two ages the shorter, and they compare as equal exactly if they are the same. -/
theorem C106_times :
    (∀ a b : SysTime, a.nanos < 1000000000 → b.nanos < 1000000000 →
      (a.cmp b = .lt ↔ inst a < inst b) ∧ (a.cmp b = .gt ↔ inst b < inst a) ∧ (a.cmp b = .eq ↔ a = b)) ∧
    ∀ a b : Duration, a.nanos < 1000000000 → b.nanos < 1000000000 →
      (a.cmp b = .lt ↔ len a < len b) ∧ (a.cmp b = .gt ↔ len b < len a) ∧ (a.cmp b = .eq ↔ a = b) := by
  refine ⟨fun a b ha hb => ?_, fun a b ha hb => ?_⟩
  · rw [systime_cmp ha hb]
    refine ⟨compare_lt_iff_lt, compare_gt_iff_gt, compare_eq_iff_eq.trans ⟨fun h => ?_, fun h => by rw [h]⟩⟩
    obtain ⟨s, n⟩ := a
    obtain ⟨s', n'⟩ := b
    simp only [inst, SysTime.mk.injEq] at *
    omega
  · rw [duration_cmp ha hb]
    refine ⟨compare_lt_iff_lt, compare_gt_iff_gt, compare_eq_iff_eq.trans ⟨fun h => ?_, fun h => by rw [h]⟩⟩
    obtain ⟨s, n⟩ := a
    obtain ⟨s', n'⟩ := b
    simp only [len, Duration.mk.injEq] at *
    omega

example : SysTime.cmp ⟨-1, 999999999⟩ ⟨0, 0⟩ = .lt := by decide

/-- What a waiting time says is well formed. -/
def ProperRetry : RetryAfter → Prop
  | .dur d => d.nanos < 1000000000
  | .at t => t.nanos < 1000000000

/-- C106, Retry-After: between two delays, and between two dates, the order is that of the time to retry at, whatever the
time now. Missing: a delay and a date. -/
theorem C106_retry_partial (now : SysTime) (a b : RetryAfter) (ha : ProperRetry a) (hb : ProperRetry b)
    (h : (∃ d d', a = .dur d ∧ b = .dur d') ∨ ∃ t t', a = .at t ∧ b = .at t') :
    a.cmp b = compare (retryAt now a) (retryAt now b) ∧ (a.cmp b = .eq ↔ a = b) := by
  rcases h with ⟨d, d', rfl, rfl⟩ | ⟨t, t', rfl, rfl⟩
  · refine ⟨?_, ?_⟩
    · simp only [RetryAfter.cmp, retryAt, duration_cmp ha hb]
      rcases h : compare (inst now + (len d : Int)) (inst now + (len d' : Int)) with _ | _ | _
      · rw [compare_lt_iff_lt] at h ⊢; omega
      · rw [compare_eq_iff_eq] at h ⊢; omega
      · rw [compare_gt_iff_gt] at h ⊢; omega
    · rw [RetryAfter.cmp, (C106_times.2 d d' ha hb).2.2]; simp
  · refine ⟨systime_cmp ha hb, ?_⟩
    rw [RetryAfter.cmp, (C106_times.1 t t' ha hb).2.2]; simp

example : ProperRetry (.dur ⟨60, 0⟩) ∧ RetryAfter.cmp (.dur ⟨60, 0⟩) (.dur ⟨59, 999⟩) = .gt := ⟨by simp [ProperRetry], by decide⟩

theorem systime_laws (a b c : SysTime) : (a.cmp b = .eq ↔ a = b) ∧ (a.cmp b = .lt ↔ b.cmp a = .gt) ∧
    (a.cmp b = .lt → b.cmp c = .lt → a.cmp c = .lt) := by
  obtain ⟨s, n⟩ := a
  obtain ⟨s', n'⟩ := b
  obtain ⟨s'', n''⟩ := c
  simp only [SysTime.cmp, then_lt, then_gt, then_eq, compare_lt_iff_lt, compare_gt_iff_gt, compare_eq_iff_eq, SysTime.mk.injEq,
    true_and]
  omega

theorem duration_laws (a b c : Duration) : (a.cmp b = .eq ↔ a = b) ∧ (a.cmp b = .lt ↔ b.cmp a = .gt) ∧
    (a.cmp b = .lt → b.cmp c = .lt → a.cmp c = .lt) := by
  obtain ⟨s, n⟩ := a
  obtain ⟨s', n'⟩ := b
  obtain ⟨s'', n''⟩ := c
  simp only [Duration.cmp, then_lt, then_gt, then_eq, compare_lt_iff_lt, compare_gt_iff_gt, compare_eq_iff_eq,
    Duration.mk.injEq, true_and]
  omega

/-- C106, Retry-After: the comparison follows the laws, also between a delay and a date. -/
theorem C106_retry_laws :
    OrdLaws (fun a b : RetryAfter => some (a.cmp b)) ∧ Agree (fun a b : RetryAfter => a = b) fun a b => some (a.cmp b) := by
  refine ⟨⟨fun a b => ?_, fun a b c => ?_⟩, fun a b => ?_⟩
  · cases a <;> cases b <;> simp only [RetryAfter.cmp, Option.some.injEq, reduceCtorEq]
    · exact (duration_laws _ _ ⟨0, 0⟩).2.1
    · exact (systime_laws _ _ ⟨0, 0⟩).2.1
  · cases a <;> cases b <;> cases c <;> simp only [RetryAfter.cmp, Option.some.injEq, reduceCtorEq, implies_true, false_implies]
    · exact (duration_laws _ _ _).2.2
    · exact (systime_laws _ _ _).2.2
  · cases a <;> cases b <;> simp [RetryAfter.cmp, (duration_laws _ _ ⟨0, 0⟩).1, (systime_laws _ _ ⟨0, 0⟩).1]

example : RetryAfter.cmp (.dur ⟨60, 0⟩) (.at ⟨60, 0⟩) = .lt := rfl

/-- C106 does not hold between a delay and a date: every delay compares as less than every date, also if it ends later,
and for every time now there are such. -/
theorem C106_violated_retry (d : Duration) (t : SysTime) :
    RetryAfter.cmp (.dur d) (.at t) = .lt ∧ RetryAfter.cmp (.at t) (.dur d) = .gt ∧
    ∀ now : SysTime, ∃ d' t', retryAt now (.at t') < retryAt now (.dur d') ∧ RetryAfter.cmp (.dur d') (.at t') = .lt :=
  ⟨rfl, rfl, fun now => ⟨⟨1, 0⟩, now, by simp [retryAt, len]; omega, rfl⟩⟩

/-! ### Proposals -/

theorem fl_dual (a b : Fl) : a.partialCmp b = some .lt ↔ b.partialCmp a = some .gt := by
  unfold Fl.partialCmp
  rcases a.rank with _ | x <;> rcases b.rank with _ | y <;> simp only [Option.some.injEq, reduceCtorEq]
  rw [then_lt, then_gt, compare_lt_iff_lt, compare_lt_iff_lt, compare_gt_iff_gt, compare_gt_iff_gt, compare_eq_iff_eq,
    compare_eq_iff_eq]
  omega

theorem fl_trans (a b c : Fl) (h : a.partialCmp b = some .lt) (h' : b.partialCmp c = some .lt) : a.partialCmp c = some .lt := by
  revert h h'
  unfold Fl.partialCmp
  rcases a.rank with _ | x <;> rcases b.rank with _ | y <;> rcases c.rank with _ | z <;>
    simp only [Option.some.injEq, reduceCtorEq, false_implies, implies_true]
  simp only [then_lt, compare_lt_iff_lt, compare_eq_iff_eq]
  omega

theorem fl_eq_symm (a b : Fl) (h : a.partialCmp b = some .eq) : b.partialCmp a = some .eq := by
  revert h
  unfold Fl.partialCmp
  rcases a.rank with _ | x <;> rcases b.rank with _ | y <;> simp only [Option.some.injEq, reduceCtorEq, false_implies]
  simp only [then_eq, compare_eq_iff_eq]
  omega

theorem fl_eq_trans (a b c : Fl) (h : a.partialCmp b = some .eq) (h' : b.partialCmp c = some .eq) :
    a.partialCmp c = some .eq := by
  revert h h'
  unfold Fl.partialCmp
  rcases a.rank with _ | x <;> rcases b.rank with _ | y <;> rcases c.rank with _ | z <;>
    simp only [Option.some.injEq, reduceCtorEq, false_implies, implies_true]
  simp only [then_eq, compare_eq_iff_eq]
  omega

theorem feq_iff (a b : Fl) : a.feq b = true ↔ a.partialCmp b = some .eq := by simp [Fl.feq]

/-- C106, proposals: `==` and `partial_cmp` each follow the laws, also for weights that are no numbers, and agree if both
proposals are of the same thing and have weights. Missing: that they agree otherwise. -/
theorem C106_proposals_partial {α : Type} [DecidableEq α] :
    EqLaws (Proposal.eq (α := α)) ∧ OrdLaws (Proposal.partialCmp (α := α)) ∧
    (∀ a b : Proposal α, a.partialCmp b = some .eq ↔ ∃ w w', a.weight = some w ∧ b.weight = some w' ∧ w.partialCmp w' = some .eq) ∧
    ∀ a b : Proposal α, a.item = b.item → (a.weight ≠ none ∨ b.weight ≠ none) →
      (a.eq b = true ↔ a.partialCmp b = some .eq) := by
  refine ⟨⟨?_, ?_⟩, ⟨?_, ?_⟩, ?_, ?_⟩
  · rintro ⟨a, wa⟩ ⟨b, wb⟩ h
    rcases wa with _ | wa <;> rcases wb with _ | wb <;> simp [Proposal.eq, Fl.optEq, feq_iff] at h ⊢
    · exact h.symm
    · exact ⟨h.1.symm, fl_eq_symm _ _ h.2⟩
  · rintro ⟨a, wa⟩ ⟨b, wb⟩ ⟨c, wc⟩ h h'
    rcases wa with _ | wa <;> rcases wb with _ | wb <;> rcases wc with _ | wc <;>
      simp [Proposal.eq, Fl.optEq, feq_iff] at h h' ⊢
    · exact h.trans h'
    · exact ⟨h.1.trans h'.1, fl_eq_trans _ _ _ h.2 h'.2⟩
  · rintro ⟨a, wa⟩ ⟨b, wb⟩
    rcases wa with _ | wa <;> rcases wb with _ | wb <;> simp [Proposal.partialCmp]
    exact fl_dual _ _
  · rintro ⟨a, wa⟩ ⟨b, wb⟩ ⟨c, wc⟩ h h'
    rcases wa with _ | wa <;> rcases wb with _ | wb <;> rcases wc with _ | wc <;>
      simp [Proposal.partialCmp] at h h' ⊢
    exact fl_trans _ _ _ h h'
  · rintro ⟨a, wa⟩ ⟨b, wb⟩
    rcases wa with _ | wa <;> rcases wb with _ | wb <;> simp [Proposal.partialCmp]
  · rintro ⟨a, wa⟩ ⟨b, wb⟩ h hw
    simp only at h
    rcases wa with _ | wa <;> rcases wb with _ | wb <;> simp [Proposal.partialCmp, Proposal.eq, Fl.optEq, feq_iff, h] at hw ⊢

example : Proposal.partialCmp (⟨.gzip, some (Fl.one f32Format)⟩ : Proposal Encoding) ⟨.gzip, none⟩ = some .gt := by decide

/-- C106 does not hold for proposals: one without a weight equals itself but does not compare with itself, two of
different things with the same weight compare as equal though they are not, and two that differ in their weights equal
the same thing. -/
theorem C106_violated_proposals {α : Type} [DecidableEq α] (x y : α) (hxy : x ≠ y) :
    ((⟨x, none⟩ : Proposal α).eq ⟨x, none⟩ = true ∧ (⟨x, none⟩ : Proposal α).partialCmp ⟨x, none⟩ = none) ∧
    (∀ w : Fl, w ≠ .nan →
      (⟨x, some w⟩ : Proposal α).partialCmp ⟨y, some w⟩ = some .eq ∧ (⟨x, some w⟩ : Proposal α).eq ⟨y, some w⟩ = false) ∧
    (∀ w w', (⟨x, w⟩ : Proposal α).eqItem x = true ∧ (⟨x, w'⟩ : Proposal α).eqItem x = true) ∧
    ∃ w w', (⟨x, w⟩ : Proposal α).eq ⟨x, w'⟩ = false := by
  refine ⟨⟨by simp [Proposal.eq, Fl.optEq], rfl⟩, fun w hw => ⟨?_, by simp [Proposal.eq, hxy]⟩,
    fun w w' => ⟨by simp [Proposal.eqItem], by simp [Proposal.eqItem]⟩, none, some .nan, by simp [Proposal.eq, Fl.optEq]⟩
  have : ∃ r, w.rank = some r := by
    cases w with
    | fin n m => cases n <;> exact ⟨_, rfl⟩
    | inf n => cases n <;> exact ⟨_, rfl⟩
    | nan => exact absurd rfl hw
  obtain ⟨r, hr⟩ := this
  simp only [Proposal.partialCmp, Fl.partialCmp, hr, Option.some.injEq, then_eq, compare_eq_iff_eq, and_self]

example : Encoding.gzip ≠ .brotli := by decide

end HT
