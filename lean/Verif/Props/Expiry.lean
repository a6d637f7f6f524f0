import Verif.Spec.Expiry
import Verif.Props.Fresh
import Verif.Props.Since
import Verif.Props.Clean

/-! C143: an answer with an expiry date is used until then. -/

namespace HT
open Spec

theorem readable_ok {α : Type} {r : Res (Option α)} {x : Option α} (h : r = .ok x) : readable r = .ok x := by
  subst h; rfl

/-- What a cache reads after the answer went through others. -/
theorem expiring_through {now till : SysTime} (hn : Dateable now) (ht : Dateable till) {resp : Headers}
    (hr : resp.get s!!"age" = none) {stays : List Duration} (hs : ∀ s ∈ stays, s.nanos < 1000000000)
    (h53 : (stays.map (·.secs)).sum ≤ 2 ^ 53) :
    ∃ r, (expiring now till resp).bind (throughCaches stays) = .ok r ∧
      DateHeader.expires.fromHeaders r = .ok (some ⟨till.secs, 0⟩) ∧ DateHeader.date.fromHeaders r = .ok (some ⟨now.secs, 0⟩) ∧
      ∃ age, Age.fromHeaders r = .ok age ∧ len (age.getD ⟨0, 0⟩) = (stays.map (·.secs)).sum * 1000000000 := by
  obtain ⟨r1, v1, a1, -, a3, a4⟩ := C29_roundtrip .date now hn.1 (by rw [last_second_of_9999]; exact hn.2.1) resp
  obtain ⟨r2, v2, b1, -, b3, b4⟩ := C29_roundtrip .expires till ht.1 (by rw [last_second_of_9999]; exact ht.2.1) r1
  have ha : Age.fromHeaders r2 = .ok none := readLast_none (by
    rw [b3, if_neg (by decide), a3, if_neg (by decide)]; exact hr)
  obtain ⟨r3, g1, g2, g3⟩ := throughCaches_eq hs (.inr ⟨ha, rfl⟩) (by simpa using h53)
  have same : ∀ d : DateHeader, d.name ≠ s!!"age" → d.fromHeaders r3 = d.fromHeaders r2 := by
    intro d hd
    unfold DateHeader.fromHeaders readLast
    rw [g3 _ hd]
  have hd : DateHeader.date.fromHeaders r2 = DateHeader.date.fromHeaders r1 := by
    unfold DateHeader.fromHeaders readLast
    rw [b3, if_neg (by decide)]
  refine ⟨r3, ?_, ?_, ?_, ?_⟩
  · unfold expiring
    rw [show applyHeader resp s!!"date" (DateHeader.date.value now) = .ok r1 from a1, Res.bind_ok,
      show applyHeader r1 s!!"expires" (DateHeader.expires.value till) = .ok r2 from b1, Res.bind_ok]
    exact g1
  · rw [same _ (by decide)]; exact b4
  · rw [same _ (by decide), hd]; exact a4
  · rcases g2 with g2 | ⟨rfl, g2, -⟩
    · exact ⟨_, g2, by simp [len]⟩
    · exact ⟨_, g2, by simp [len]⟩

/-- A cache that goes by its clock uses the answer until the clock shows the second in which it expires, however many caches it
went through and whatever the server's clock showed: never when the clock shows a time after it expired, and always when the clock
shows a time a second before. -/
theorem C143_by_clock (now till : SysTime) (hn : Dateable now) (ht : Dateable till) (resp : Headers)
    (hr : resp.get s!!"age" = none) (stays : List Duration) (hs : ∀ s ∈ stays, s.nanos < 1000000000)
    (h53 : (stays.map (·.secs)).sum ≤ 2 ^ 53) (clock : SysTime) (hc : clock.nanos < 1000000000) :
    ∃ b, ((expiring now till resp).bind (throughCaches stays)).bind (usesByClock · clock) = .ok b ∧
      (b = true ↔ clock.secs < till.secs) ∧ (b = true → inst clock < inst till) ∧
      (inst clock + 1000000000 ≤ inst till → b = true) := by
  obtain ⟨r, h1, h2, -, -⟩ := expiring_through hn ht hr hs h53
  rw [h1, Res.bind_ok]
  unfold usesByClock
  rw [readable_ok h2, Res.map_ok]
  have := ht.2.2
  refine ⟨decide (inst clock < inst ⟨till.secs, 0⟩), rfl, ?_, ?_, ?_⟩ <;> rw [decide_eq_true_eq] <;> simp only [inst] <;> omega

example : ((expiring ⟨100, 5⟩ ⟨160, 5⟩ []).bind (throughCaches [⟨20, 0⟩])).bind (usesByClock · ⟨159, 999999999⟩) = .ok true ∧
    ((expiring ⟨100, 5⟩ ⟨160, 5⟩ []).bind (throughCaches [⟨20, 0⟩])).bind (usesByClock · ⟨160, 0⟩) = .ok false := by decide +kernel

/-- A cache that goes by the age of the answer, through any number of caches: the answer is used while a second is left of its
time, and not when it is older than its time by a second for each cache it went through, and one. With whole seconds it is used
exactly while it is younger. -/
theorem C143_by_age_partial (now till : SysTime) (hn : Dateable now) (ht : Dateable till) (resp : Headers)
    (hr : resp.get s!!"age" = none) (stays : List Duration) (hs : ∀ s ∈ stays, s.nanos < 1000000000)
    (h53 : (stays.map (·.secs)).sum ≤ 2 ^ 53) (last : Duration) :
    ∃ b, ((expiring now till resp).bind (throughCaches stays)).bind (usesByAge · last) = .ok b ∧
      ((elapsed stays + len last : Nat) + 1000000000 ≤ inst till - inst now → b = true) ∧
      (b = true → (elapsed stays + len last : Nat) < inst till - inst now + (stays.length + 1 : Nat) * 1000000000) ∧
      ((∀ s ∈ stays, s.nanos = 0) → now.nanos = till.nanos →
        (b = true ↔ (elapsed stays + len last : Nat) < inst till - inst now)) := by
  obtain ⟨r, h1, h2, h3, age, h4, h5⟩ := expiring_through hn ht hr hs h53
  rw [h1, Res.bind_ok]
  unfold usesByAge
  rw [readable_ok h2, Res.bind_ok]
  simp only []
  rw [readable_ok h3, Res.bind_ok]
  simp only []
  rw [readable_ok h4, Res.map_ok]
  obtain ⟨l1, l2⟩ := C128_short stays hs
  have e1 := ht.2.2
  have e2 := hn.2.2
  refine ⟨_, rfl, ?_, ?_, ?_⟩
  · simp only [decide_eq_true_eq, inst, h5]
    omega
  · simp only [decide_eq_true_eq, inst, h5]
    omega
  · intro hz he
    have := elapsed_whole hz
    simp only [decide_eq_true_eq, inst, h5]
    omega

example : ((expiring ⟨100, 5⟩ ⟨160, 5⟩ []).bind (throughCaches [⟨20, 0⟩])).bind (usesByAge · ⟨39, 999999999⟩) = .ok true ∧
    ((expiring ⟨100, 5⟩ ⟨160, 5⟩ []).bind (throughCaches [⟨20, 0⟩])).bind (usesByAge · ⟨40, 0⟩) = .ok false := by decide +kernel

/-- C143 is violated for such a cache: an answer that expires a nanosecond after it was made, in the next second, is used for
nearly a second. -/
theorem C143_violated_parts (s : Int) (h0 : 0 ≤ s) (h9 : s + 1 ≤ 253402300799) (resp : Headers) (hr : resp.get s!!"age" = none)
    (last : Duration) (hl : len last < 1000000000) :
    inst ⟨s + 1, 0⟩ - inst ⟨s, 999999999⟩ = 1 ∧
    ((expiring ⟨s, 999999999⟩ ⟨s + 1, 0⟩ resp).bind (throughCaches [])).bind (usesByAge · last) = .ok true := by
  refine ⟨by simp only [inst]; omega, ?_⟩
  obtain ⟨r, h1, h2, h3, age, h4, h5⟩ := expiring_through (now := ⟨s, 999999999⟩) (till := ⟨s + 1, 0⟩)
    ⟨h0, by simp only; omega, by simp⟩ ⟨by simp only; omega, h9, by simp⟩ hr (stays := []) (by simp) (by simp)
  rw [h1, Res.bind_ok]
  unfold usesByAge
  rw [readable_ok h2, Res.bind_ok]
  simp only []
  rw [readable_ok h3, Res.bind_ok]
  simp only []
  rw [readable_ok h4, Res.map_ok]
  simp only [Res.ok.injEq, decide_eq_true_eq, inst, h5]
  simp only [List.map_nil, List.sum_nil]
  omega

example : ((expiring ⟨7, 999999999⟩ ⟨8, 0⟩ []).bind (throughCaches [])).bind (usesByAge · ⟨0, 999999999⟩) = .ok true := by
  decide +kernel

/-- An answer that had expired when it was made is never used, by either. -/
theorem C143_expired (now till : SysTime) (hn : Dateable now) (ht : Dateable till) (he : inst till ≤ inst now) (resp : Headers)
    (hr : resp.get s!!"age" = none) (stays : List Duration) (hs : ∀ s ∈ stays, s.nanos < 1000000000)
    (h53 : (stays.map (·.secs)).sum ≤ 2 ^ 53) (last : Duration) (clock : SysTime) (hc : clock.nanos < 1000000000)
    (hcn : inst now ≤ inst clock) :
    ((expiring now till resp).bind (throughCaches stays)).bind (usesByAge · last) = .ok false ∧
    ((expiring now till resp).bind (throughCaches stays)).bind (usesByClock · clock) = .ok false := by
  have e1 := ht.2.2
  have e2 := hn.2.2
  obtain ⟨r, h1, h2, h3, age, h4, h5⟩ := expiring_through hn ht hr hs h53
  rw [h1, Res.bind_ok, Res.bind_ok]
  unfold usesByAge usesByClock
  rw [readable_ok h2, Res.bind_ok]
  simp only []
  rw [readable_ok h3, Res.bind_ok]
  simp only []
  rw [readable_ok h4, Res.map_ok, Res.map_ok]
  unfold inst at he hcn
  constructor
  · rw [Res.ok.injEq, decide_eq_false_iff_not]; simp only [inst]; omega
  · show Res.ok (decide (inst clock < inst ⟨till.secs, 0⟩)) = _
    rw [Res.ok.injEq, decide_eq_false_iff_not]; simp only [inst]; omega

example : ((expiring ⟨100, 0⟩ ⟨99, 0⟩ []).bind (throughCaches [])).bind (usesByAge · ⟨0, 0⟩) = .ok false := by decide +kernel

/-- An answer whose `Expires` cannot be read, such as `0`, is not used, by either. -/
theorem C143_unreadable (resp : Headers) (h : ∀ t, DateHeader.expires.fromHeaders resp ≠ .ok (some t))
    (hl : resp.get s!!"expires" ≠ some []) (clock : SysTime) (last : Duration) :
    usesByClock resp clock = .ok false ∧ usesByAge resp last = .ok false := by
  have hn : readable (DateHeader.expires.fromHeaders resp) = .ok none := by
    rcases (C62_client_errors_partial (fun _ => some ())).2.2.2.1 .expires resp hl with ⟨x, h1⟩ | h1
    · cases x with
      | none => exact readable_ok h1
      | some t => exact absurd h1 (h t)
    · rw [h1]; rfl
  unfold usesByClock usesByAge
  rw [hn]
  exact ⟨rfl, rfl⟩

example : usesByClock (oneHeader s!!"expires" s!!"0") ⟨0, 0⟩ = .ok false ∧
    usesByAge (oneHeader s!!"expires" s!!"-1") ⟨0, 0⟩ = .ok false := by decide +kernel

end HT
