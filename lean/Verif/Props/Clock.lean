import Verif.Spec.Clock
import Verif.Props.Simple

/-! Times computed with the clock: C78. -/

namespace HT
open Spec

theorem add_spec {t : SysTime} {d : Duration} (ht : Time t) (hd : d.nanos < 1000000000) :
    (t.add d = .panic ↔ endOfTime ≤ inst t + len d) ∧
      ∀ x, t.add d = .ok x ↔ inst x = inst t + len d ∧ Time x := by
  obtain ⟨s, n⟩ := t
  obtain ⟨ds, dn⟩ := d
  simp only [SysTime.add, endOfTime, inst, len, Time] at *
  refine ⟨?_, fun ⟨xs, xn⟩ => ?_⟩
  · split
    · simp; omega
    · split
      · split <;> simp <;> omega
      · simp; omega
  · simp only
    split
    · simp; omega
    · split
      · split
        · simp; omega
        · simp; omega
      · simp; omega

theorem durationSince_spec {t e : SysTime} (ht : t.nanos < 1000000000) (he : e.nanos < 1000000000) :
    (t.durationSince e = none ↔ inst t < inst e) ∧
      ∀ x, t.durationSince e = some x ↔ inst e + len x = inst t ∧ x.nanos < 1000000000 := by
  obtain ⟨s, n⟩ := t
  obtain ⟨es, en⟩ := e
  simp only [SysTime.durationSince, SysTime.le, inst, len] at *
  simp only [Bool.or_eq_true, decide_eq_true_eq, Bool.and_eq_true, beq_iff_eq]
  refine ⟨?_, fun ⟨xs, xn⟩ => ?_⟩
  · split
    · split <;> simp <;> omega
    · simp; omega
  · simp only
    split
    · split <;> simp <;> omega
    · simp; omega

/-- When to retry: the header's date, or that long after the time at which it is asked. Asking panics exactly if that
time is beyond the end of time, which only a delay can be. -/
theorem C78_time_partial {now : SysTime} (hn : Time now) (r : RetryAfter) (hr : match r with
    | .dur d => d.nanos < 1000000000
    | .at t => Time t) :
    (r.toTime now = .panic ↔ endOfTime ≤ retryAt now r) ∧
      ∀ t, r.toTime now = .ok t ↔ inst t = retryAt now r ∧ Time t := by
  cases r with
  | dur d => exact add_spec hn hr
  | «at» t =>
    have ht : Time t := hr
    unfold RetryAfter.toTime retryAt
    refine ⟨?_, fun x => ?_⟩
    · simp only [reduceCtorEq, false_iff]
      simp only [inst, endOfTime, Time] at *
      omega
    · obtain ⟨s, n⟩ := t
      obtain ⟨xs, xn⟩ := x
      simp only [inst, Time, Res.ok.injEq, SysTime.mk.injEq] at *
      omega

example : (RetryAfter.dur ⟨10, 5⟩).toTime ⟨1700000000, 999999999⟩ = .ok ⟨1700000011, 4⟩ := by decide

/-- How long to wait from `earlier` on: exactly the time from `earlier` to the time to retry, an error exactly if that
is already past, a panic exactly if it is beyond the end of time. -/
theorem C78_wait_partial {now earlier : SysTime} (hn : Time now) (he : Time earlier) (r : RetryAfter)
    (hr : match r with
      | .dur d => d.nanos < 1000000000
      | .at t => Time t) :
    (r.durationSince now earlier = .panic ↔ endOfTime ≤ retryAt now r) ∧
      (r.durationSince now earlier = .ok none ↔ retryAt now r < endOfTime ∧ retryAt now r < inst earlier) ∧
      ∀ x, r.durationSince now earlier = .ok (some x) ↔
        retryAt now r < endOfTime ∧ inst earlier + len x = retryAt now r ∧ x.nanos < 1000000000 := by
  have h := C78_time_partial hn r hr
  have hd : r.durationSince now earlier = (r.toTime now).map fun t => t.durationSince earlier := by
    cases r <;> rfl
  rw [hd]
  cases ht : r.toTime now with
  | panic =>
    have := h.1.mp ht
    refine ⟨by simpa using this, by simp [Res.map_panic]; omega, fun x => by simp [Res.map_panic]; omega⟩
  | err e =>
    exfalso
    cases r with
    | dur d =>
      simp only [RetryAfter.toTime, SysTime.add] at ht
      (repeat' split at ht) <;> cases ht
    | «at» t => cases ht
  | ok t =>
    obtain ⟨h1, h2⟩ := (h.2 t).mp ht
    have h3 : ¬ endOfTime ≤ retryAt now r := fun hp => by rw [h.1.mpr hp] at ht; cases ht
    have h4 := durationSince_spec (t := t) (e := earlier) h2.1 he.1
    simp only [Res.map_ok, reduceCtorEq, false_iff, Res.ok.injEq, h4, h1]
    refine ⟨h3, by omega, fun x => by omega⟩

example : (RetryAfter.dur ⟨10, 0⟩).durationSince ⟨1700000000, 999999999⟩ ⟨1700000000, 5⟩ = .ok (some ⟨10, 999999994⟩) := by
  decide
example : (RetryAfter.at ⟨5, 0⟩).durationSince ⟨1700000000, 0⟩ ⟨6, 0⟩ = .ok none := by decide

/-- Whoever reads a response with a delay in seconds and asks at once how long to wait gets exactly this delay, or a
panic if the delay goes beyond the end of time. -/
theorem C78_delay_partial (h : Headers) (vs : List Str) (v : Str) (n : Nat) (hv : h.get s!!"retry-after" = some (vs ++ [v]))
    (hnum : Numeral v n) (hn : n < 2 ^ 64) {now : SysTime} (ht : Time now) :
    ∃ r, RetryAfter.fromHeaders h = .ok (some r) ∧
      r.durationSince now now = if now.secs + n < 2 ^ 63 then .ok (some ⟨n, 0⟩) else .panic := by
  refine ⟨.dur ⟨n, 0⟩, (((C58_reads h).2 vs v hv).1 ⟨n, 0⟩).mpr ⟨rfl, hn, hnum⟩, ?_⟩
  obtain ⟨h1, -, h3⟩ := C78_wait_partial ht ht (.dur ⟨n, 0⟩) (by simp)
  have ht' := ht
  simp only [Time] at ht'
  split
  · rw [h3]
    simp only [retryAt, inst, len, endOfTime]
    exact ⟨by omega, trivial, by omega⟩
  · rw [h1]
    simp only [retryAt, inst, len, endOfTime]
    omega

example : ∃ r, RetryAfter.fromHeaders [(s!!"retry-after", [s!!"120"])] = .ok (some r) ∧
    r.durationSince ⟨1700000000, 3⟩ ⟨1700000000, 3⟩ = .ok (some ⟨120, 0⟩) := ⟨.dur ⟨120, 0⟩, by decide +kernel, by decide⟩

/-- The panic is in the hands of the peer: after 1970 a response saying 9223372036854775807 is enough. -/
theorem C78_violated_panic (h : Headers) (vs : List Str)
    (hv : h.get s!!"retry-after" = some (vs ++ [s!!"9223372036854775807"])) {now : SysTime} (ht : Time now)
    (h1970 : 1 ≤ now.secs) (earlier : SysTime) :
    ∃ r, RetryAfter.fromHeaders h = .ok (some r) ∧ r.durationSince now earlier = .panic ∧ r.toTime now = .panic := by
  refine ⟨.dur ⟨9223372036854775807, 0⟩, ?_, ?_⟩
  · refine (((C58_reads h).2 vs _ hv).1 ⟨_, 0⟩).mpr ⟨rfl, by decide, ?_⟩
    exact ⟨_, by simp, .inl rfl, by decide, by decide⟩
  · have : (RetryAfter.dur ⟨9223372036854775807, 0⟩).toTime now = .panic := by
      rw [(C78_time_partial ht _ (by simp)).1]
      simp only [Time] at ht
      simp only [retryAt, inst, len, endOfTime]
      omega
    refine ⟨?_, this⟩
    have hd : (RetryAfter.dur ⟨9223372036854775807, 0⟩).durationSince now earlier =
        ((RetryAfter.dur ⟨9223372036854775807, 0⟩).toTime now).map fun t => t.durationSince earlier := rfl
    rw [hd, this]
    rfl

/-- Expires made from a duration is that long after now, or a panic if that is beyond the end of time. -/
theorem C78_expires {now : SysTime} (ht : Time now) (d : Duration) (hd : d.nanos < 1000000000) :
    (Expires.new now d = .panic ↔ endOfTime ≤ inst now + len d) ∧
      ∀ x, Expires.new now d = .ok x ↔ inst x = inst now + len d ∧ Time x := add_spec ht hd

example : Expires.new ⟨10, 999999999⟩ ⟨5, 1⟩ = .ok ⟨16, 0⟩ := by decide

/-- A date made from the clock is the instant of the clock to the nanosecond; written and read again it is the second that
instant lies in. -/
theorem C78_date (now : SysTime) :
    inst (Date.now now) = inst now ∧
      (0 ≤ now.secs → now.secs ≤ (⟨9999, 12, 31, 23, 59, 59⟩ : Fields).instant →
        RoundTrips DateHeader.date.name (DateHeader.date.value (Date.now now)) DateHeader.date.fromHeaders ⟨now.secs, 0⟩) :=
  ⟨rfl, C29_roundtrip .date now⟩

example : (0 : Int) ≤ 1700000000 ∧ (1700000000 : Int) ≤ (⟨9999, 12, 31, 23, 59, 59⟩ : Fields).instant := by decide +kernel

end HT
