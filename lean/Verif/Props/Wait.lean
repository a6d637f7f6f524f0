import Verif.Spec.Wait
import Verif.Props.Clock

/-! C131: a client that waits as told is not back too early. -/

namespace HT
open Spec

theorem last_second_of_9999 : ((⟨9999, 12, 31, 23, 59, 59⟩ : Fields).instant : Int) = 253402300799 := by decide +kernel

/-- When the client is back, exactly: a delay is waited for in whole seconds from the time the clock was read, a time is
waited for up to its second. The client panics exactly if the delay goes beyond the end of time. -/
theorem C131_back_partial (c : Clocks) (hc : c.Ordered) (r : RetryAfter) (hr : Sayable r) (resp : Headers) :
    comesBack c r resp = match r with
      | .dur d => if inst c.read + d.secs * 1000000000 < endOfTime then
          .ok (inst c.asleep + (inst c.read - inst c.asked) + d.secs * 1000000000) else .panic
      | .at t => .ok (inst c.asleep + max 0 (t.secs * 1000000000 - inst c.asked)) := by
  cases r with
  | dur d =>
    obtain ⟨h', v, h1, -, -, h4⟩ := C58_roundtrip d hr.1 resp
    have hw := C78_wait_partial hc.read hc.asked (.dur ⟨d.secs, 0⟩) (by simp)
    have h2 := hc.second
    unfold comesBack
    rw [h1, Res.bind_ok, h4, Res.bind_ok]
    simp only [retryAt, len, Nat.add_zero] at hw ⊢
    split
    · rename_i hlt
      have hlt' : inst c.read + ((d.secs * 1000000000 : Nat) : Int) < endOfTime := by omega
      cases hd : RetryAfter.durationSince c.read (.dur ⟨d.secs, 0⟩) c.asked with
      | panic => exact absurd (hw.1.mp hd) (by omega)
      | err e =>
        exfalso
        simp only [RetryAfter.durationSince, SysTime.add] at hd
        (repeat' split at hd) <;> cases hd
      | ok o =>
        cases o with
        | none => exact absurd (hw.2.1.mp hd).2 (by omega)
        | some x =>
          have := ((hw.2.2 x).mp hd).2.1
          simp only [Res.map_ok, Res.ok.injEq]
          omega
    · rename_i hlt
      rw [hw.1.mpr (by omega)]
      rfl
  | «at» t =>
    obtain ⟨h', v, h1, -, -, h4⟩ := C29_retry_after t hr.1 (by rw [last_second_of_9999]; exact hr.2.1) resp
    have h0 := hr.1
    have h9 := hr.2.1
    have hw := C78_wait_partial hc.read hc.asked (.at ⟨t.secs, 0⟩) ⟨by simp, by simp only; omega, by simp only; omega⟩
    unfold comesBack
    rw [h1, Res.bind_ok, h4, Res.bind_ok]
    simp only [retryAt, inst, endOfTime] at hw ⊢
    cases hd : RetryAfter.durationSince c.read (.at ⟨t.secs, 0⟩) c.asked with
    | panic => exact absurd (hw.1.mp hd) (by omega)
    | err e => cases hd
    | ok o =>
      cases o with
      | none =>
        have := (hw.2.1.mp hd).2
        simp only [Res.map_ok, Res.ok.injEq]
        omega
      | some x =>
        have := ((hw.2.2 x).mp hd).2.1
        simp only [Res.map_ok, Res.ok.injEq]
        omega

example : comesBack ⟨⟨1700000000, 0⟩, ⟨1700000001, 0⟩, ⟨1700000001, 5⟩, ⟨1700000001, 9⟩⟩ (.dur ⟨10, 0⟩) [] =
    .ok 1700000011000000014 := by decide +kernel
example : Clocks.Ordered ⟨⟨1700000000, 0⟩, ⟨1700000001, 0⟩, ⟨1700000001, 5⟩, ⟨1700000001, 9⟩⟩ := by
  constructor <;> first | (unfold Time; decide) | decide

/-- The client is never back before the time the server named exactly if this is a whole number of seconds. -/
theorem C131_never_early_iff_partial (r : RetryAfter) (hr : Sayable r) :
    (∀ c resp b, Clocks.Ordered c → comesBack c r resp = .ok b → retryAt c.said r ≤ b) ↔ WholeSeconds r := by
  constructor
  · intro h
    cases r with
    | dur d =>
      have hz : Time ⟨-2 ^ 63, 0⟩ := by unfold Time; decide
      have hc : Clocks.Ordered ⟨⟨-2 ^ 63, 0⟩, ⟨-2 ^ 63, 0⟩, ⟨-2 ^ 63, 0⟩, ⟨-2 ^ 63, 0⟩⟩ :=
        ⟨hz, hz, hz, hz, by simp, by simp, by simp⟩
      have hb := C131_back_partial _ hc _ hr []
      have hs := hr.1
      simp only at hb
      rw [if_pos (by simp only [inst, endOfTime]; omega)] at hb
      have := h _ _ _ hc hb
      simp only [retryAt, inst, len, WholeSeconds] at this ⊢
      omega
    | «at» t =>
      have h0 := hr.1
      have h9 := hr.2.1
      have hz : Time ⟨t.secs, 0⟩ := by unfold Time; simp only; omega
      have hc : Clocks.Ordered ⟨⟨t.secs, 0⟩, ⟨t.secs, 0⟩, ⟨t.secs, 0⟩, ⟨t.secs, 0⟩⟩ :=
        ⟨hz, hz, hz, hz, by simp, by simp, by simp⟩
      have := h _ _ _ hc (C131_back_partial _ hc _ hr [])
      simp only [retryAt, inst, WholeSeconds] at this ⊢
      omega
  · intro hw c resp b hc hb
    rw [C131_back_partial c hc r hr resp] at hb
    have h1 := hc.first
    have h2 := hc.second
    have h3 := hc.third
    cases r with
    | dur d =>
      simp only at hb
      split at hb
      · cases hb
        simp only [retryAt, len, WholeSeconds] at hw ⊢
        omega
      · cases hb
    | «at» t =>
      simp only [Res.ok.injEq] at hb
      simp only [retryAt, WholeSeconds] at hw ⊢
      simp only [inst] at *
      omega

example : Sayable (.at ⟨1700000000, 0⟩) ∧ WholeSeconds (.at ⟨1700000000, 0⟩) ∧ Sayable (.dur ⟨2 ^ 64 - 1, 0⟩) := by
  unfold Sayable WholeSeconds; decide

/-- Nor is it back more than a second too early, and it is late only by the time that went by on the way. -/
theorem C131_within_partial (r : RetryAfter) (hr : Sayable r) (c : Clocks) (hc : c.Ordered) (resp : Headers) (b : Int)
    (hb : comesBack c r resp = .ok b) :
    retryAt c.said r - 1000000000 < b ∧
    b ≤ max (retryAt c.said r) (inst c.asked) + 2 * (inst c.asleep - inst c.said) := by
  rw [C131_back_partial c hc r hr resp] at hb
  have h1 := hc.first
  have h2 := hc.second
  have h3 := hc.third
  cases r with
  | dur d =>
    have := hr.2
    simp only at hb
    split at hb
    · cases hb
      simp only [retryAt, len]
      omega
    · cases hb
  | «at» t =>
    have := hr.2.2
    simp only [Res.ok.injEq] at hb
    simp only [retryAt]
    simp only [inst] at *
    omega

example : comesBack ⟨⟨1700000000, 0⟩, ⟨1700000001, 0⟩, ⟨1700000001, 5⟩, ⟨1700000001, 9⟩⟩ (.at ⟨1700000007, 800000000⟩) [] =
    .ok 1700000007000000009 := by decide +kernel

/-- Every delay and every time with a fraction of a second brings some client back too early: the fraction is dropped, not
rounded up. -/
theorem C131_violated_fraction (r : RetryAfter) (hr : Sayable r) (hf : ¬ WholeSeconds r) :
    ∃ c resp b, Clocks.Ordered c ∧ comesBack c r resp = .ok b ∧ b < retryAt c.said r := by
  have := mt (C131_never_early_iff_partial r hr).mp hf
  push Not at this
  obtain ⟨c, resp, b, h1, h2, h3⟩ := this
  exact ⟨c, resp, b, h1, h2, by omega⟩

example : Sayable (.dur ⟨0, 500000000⟩) ∧ ¬ WholeSeconds (.dur ⟨0, 500000000⟩) := by
  unfold Sayable WholeSeconds; decide

/-- Every client panics that is told a delay beyond the end of time. -/
theorem C131_violated_panic (d : Duration) (hr : Sayable (.dur d)) (c : Clocks) (hc : c.Ordered) (resp : Headers)
    (h : endOfTime ≤ inst c.read + d.secs * 1000000000) : comesBack c (.dur d) resp = .panic := by
  rw [C131_back_partial c hc _ hr resp]
  simp only
  rw [if_neg (by omega)]

example : Sayable (.dur ⟨2 ^ 63, 0⟩) := by unfold Sayable; decide

end HT
