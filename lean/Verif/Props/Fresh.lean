import Verif.Spec.Fresh
import Verif.Props.Simple
import Verif.Props.Cache

/-! C128: an answer is used about as long as the server allows, however many caches it goes through. -/

namespace HT
open Spec

/-- A duration has less than a second of nanoseconds. -/
def Parts (d : Duration) : Prop := d.nanos < 1000000000

theorem plus_whole (n : Nat) {s : Duration} (hs : Parts s) : (plus ⟨n, 0⟩ s).secs = n + s.secs := by
  unfold plus len
  unfold Parts at hs
  simp only
  omega

theorem keptFor_eq {resp : Headers} {n : Nat} (hr : Age.fromHeaders resp = .ok (some ⟨n, 0⟩) ∨ Age.fromHeaders resp = .ok none ∧ n = 0)
    {s : Duration} (hs : Parts s) (h53 : n + s.secs ≤ 2 ^ 53) :
    ∃ resp', keptFor s resp = .ok resp' ∧ Age.fromHeaders resp' = .ok (some ⟨n + s.secs, 0⟩) ∧
      ∀ k, k ≠ s!!"age" → resp'.get k = resp.get k := by
  have hp := plus_whole n hs
  obtain ⟨h', v, h1, -, h3, h4⟩ := C30_small_partial (plus ⟨n, 0⟩ s) (by rw [hp]; exact h53) resp
  refine ⟨h', ?_, by rw [h4, hp], fun k hk => by rw [h3, if_neg hk]⟩
  unfold keptFor
  rcases hr with hr | ⟨hr, rfl⟩ <;> rw [hr] <;> exact h1

theorem throughCaches_eq {stays : List Duration} (hs : ∀ s ∈ stays, Parts s) {resp : Headers} {n : Nat}
    (hr : Age.fromHeaders resp = .ok (some ⟨n, 0⟩) ∨ Age.fromHeaders resp = .ok none ∧ n = 0)
    (h53 : n + (stays.map (·.secs)).sum ≤ 2 ^ 53) :
    ∃ resp', throughCaches stays resp = .ok resp' ∧
      (Age.fromHeaders resp' = .ok (some ⟨n + (stays.map (·.secs)).sum, 0⟩) ∨
        stays = [] ∧ Age.fromHeaders resp' = .ok none ∧ n = 0) ∧
      ∀ k, k ≠ s!!"age" → resp'.get k = resp.get k := by
  induction stays generalizing resp n with
  | nil =>
    refine ⟨resp, rfl, ?_, fun _ _ => rfl⟩
    rcases hr with hr | hr
    · exact .inl (by simpa using hr)
    · exact .inr ⟨rfl, hr⟩
  | cons s ss ih =>
    simp only [List.map_cons, List.sum_cons] at h53 ⊢
    obtain ⟨r1, h1, h2, h3⟩ := keptFor_eq hr (hs s (by simp)) (by omega)
    obtain ⟨r2, g1, g2, g3⟩ := ih (fun t ht => hs t (List.mem_cons_of_mem _ ht)) (.inl h2) (by omega)
    refine ⟨r2, ?_, .inl ?_, fun k hk => (g3 k hk).trans (h3 k hk)⟩
    · show (keptFor s resp).bind (throughCaches ss) = _
      rw [h1]; exact g1
    · rcases g2 with g2 | ⟨rfl, g2, g4⟩
      · rw [g2]
        congr 3
        omega
      · simp only [throughCaches, Res.ok.injEq] at g1
        subst g1
        rw [h2] at g2
        cases g2

/-- The age that is read after any number of caches is the sum of the whole seconds each kept the answer. -/
theorem C128_age_partial (stays : List Duration) (hs : ∀ s ∈ stays, s.nanos < 1000000000) (resp : Headers) (n : Nat)
    (hr : Age.fromHeaders resp = .ok (some ⟨n, 0⟩) ∨ Age.fromHeaders resp = .ok none ∧ n = 0)
    (h53 : n + (stays.map (·.secs)).sum ≤ 2 ^ 53) :
    ∃ resp', throughCaches stays resp = .ok resp' ∧ (∀ k, k ≠ s!!"age" → resp'.get k = resp.get k) ∧
      (stays ≠ [] → Age.fromHeaders resp' = .ok (some ⟨n + (stays.map (·.secs)).sum, 0⟩)) := by
  obtain ⟨r, h1, h2, h3⟩ := throughCaches_eq hs hr h53
  exact ⟨r, h1, h3, fun hne => h2.resolve_right fun h => hne h.1⟩

example : (throughCaches [⟨3, 5⟩, ⟨4, 999999999⟩] (oneHeader s!!"age" s!!"10")).bind Age.fromHeaders = .ok (some ⟨17, 0⟩) := by
  decide +kernel

theorem short_step {B : Nat} (p n e f k l : Nat) (h1 : f * B ≤ e) (h2 : e + k ≤ f * B + k * B) (h : n < B)
    (hl : l = p * B + n) : (p + f) * B ≤ l + e ∧ l + e + (k + 1) ≤ (p + f) * B + (k + 1) * B := by
  rw [Nat.add_mul, Nat.add_mul, Nat.one_mul]
  omega

/-- The whole seconds fall short of the time by less than a second for each cache. -/
theorem C128_short (stays : List Duration) (hs : ∀ s ∈ stays, s.nanos < 1000000000) :
    (stays.map (·.secs)).sum * 1000000000 ≤ elapsed stays ∧
    elapsed stays + stays.length ≤ (stays.map (·.secs)).sum * 1000000000 + stays.length * 1000000000 := by
  unfold elapsed
  induction stays with
  | nil => exact ⟨Nat.le_refl _, Nat.zero_le _⟩
  | cons s ss ih =>
    have := ih fun t ht => hs t (List.mem_cons_of_mem _ ht)
    have h := hs s (by simp)
    have hl : len s = s.secs * 1000000000 + s.nanos := rfl
    rw [List.map_cons, List.map_cons, List.sum_cons, List.sum_cons, List.length_cons]
    exact short_step s.secs s.nanos _ _ _ (len s) this.1 this.2 h hl

example : elapsed [⟨1, 500000000⟩, ⟨2, 500000000⟩] = 4000000000 := by decide

theorem lifetime_plain {ds : List CacheDirective} (hn : ∀ x, .sMaxAge x ∉ ds) :
    lifetime (ds.map wholeSeconds) = (lifetime ds).map fun d => ⟨d.secs, 0⟩ := by
  have h1 : ∀ es : List CacheDirective, (∀ x, .sMaxAge x ∉ es) → es.findSome? sharedAge = none := by
    intro es he
    rw [List.findSome?_eq_none_iff]
    intro d hd
    cases d <;> first | rfl | exact absurd hd (he _)
  unfold lifetime
  rw [h1 ds hn, h1]
  · simp only [Option.none_or]
    clear h1 hn
    induction ds with
    | nil => rfl
    | cons d ds ih =>
      rw [List.map_cons, List.findSome?_cons, List.findSome?_cons, ih]
      cases d with
      | maxStale o => cases o <;> rfl
      | _ => rfl
  · intro x hx
    obtain ⟨d, hd, e⟩ := List.mem_map.mp hx
    cases d with
    | maxStale o => cases o <;> cases e
    | sMaxAge y => exact hn _ hd
    | _ => cases e

/-- What is left of the directives when they are read. -/
theorem used_eq {ds : List CacheDirective} (hd : ∀ d ∈ ds, SecsFit d) {es : List CacheDirective}
    (he : ds.filter (fun d => match d with | .sMaxAge _ => false | _ => true) = es) {resp : Headers}
    (hr : resp.get s!!"age" = none) {stays : List Duration} (hs : ∀ s ∈ stays, s.nanos < 1000000000)
    (h53 : (stays.map (·.secs)).sum ≤ 2 ^ 53) (last : Duration) :
    usedAfter ds resp stays last = .ok (match lifetime (es.map wholeSeconds) with
      | some m => decide ((stays.map (·.secs)).sum * 1000000000 + len last < len m)
      | none => false) := by
  obtain ⟨r1, v, h1, -, h3, h4⟩ := C31_written_reads ds hd resp
  have h5 : CacheControl.fromHeaders r1 = .ok (some (es.map wholeSeconds)) := by
    rw [h4, ← he]
    congr 3
  have ha : Age.fromHeaders r1 = .ok none := readLast_none (by rw [h3, if_neg (by decide)]; exact hr)
  obtain ⟨r2, g1, g2, g3⟩ := throughCaches_eq hs (.inr ⟨ha, rfl⟩) (by simpa using h53)
  have hcc : CacheControl.fromHeaders r2 = CacheControl.fromHeaders r1 := by
    unfold CacheControl.fromHeaders
    rw [g3 _ (by decide)]
  have hage : ∃ age, Age.fromHeaders r2 = .ok age ∧ len (age.getD ⟨0, 0⟩) = (stays.map (·.secs)).sum * 1000000000 := by
    rcases g2 with g2 | ⟨rfl, g2, -⟩
    · exact ⟨_, g2, by simp [len]⟩
    · exact ⟨_, g2, by simp [len]⟩
  obtain ⟨age, e1, e2⟩ := hage
  unfold usedAfter
  rw [h1, Res.bind_ok, g1, Res.bind_ok]
  unfold stillUses
  rw [hcc, h5, Res.bind_ok, e1, Res.map_ok]
  simp only [Option.getD_some, e2]
  cases lifetime (es.map wholeSeconds) <;> rfl

theorem no_shared {ds : List CacheDirective} (hn : ∀ x, .sMaxAge x ∉ ds) :
    ds.filter (fun d => match d with | .sMaxAge _ => false | _ => true) = ds := by
  rw [List.filter_eq_self]
  intro d hd
  cases d <;> first | rfl | exact absurd hd (hn _)

theorem elapsed_whole {stays : List Duration} (hz : ∀ s ∈ stays, s.nanos = 0) :
    elapsed stays = (stays.map (·.secs)).sum * 1000000000 := by
  unfold elapsed
  induction stays with
  | nil => rfl
  | cons s ss ih =>
    have h0 := hz s (by simp)
    have := ih fun t ht => hz t (List.mem_cons_of_mem _ ht)
    have hl : len s = s.secs * 1000000000 + s.nanos := rfl
    rw [List.map_cons, List.map_cons, List.sum_cons, List.sum_cons]
    omega

/-- An answer for which the server gives a lifetime, through any number of caches: while it is younger it is used, and it
is not used when it is older by a second for each cache it went through; with whole seconds exactly while it is younger. -/
theorem C128_used_partial (ds : List CacheDirective) (hd : ∀ d ∈ ds, SecsFit d) (hn : ∀ x, .sMaxAge x ∉ ds) (m : Duration)
    (hm : lifetime ds = some m) (resp : Headers) (hr : resp.get s!!"age" = none) (stays : List Duration)
    (hs : ∀ s ∈ stays, s.nanos < 1000000000) (h53 : (stays.map (·.secs)).sum ≤ 2 ^ 53) (last : Duration) :
    ∃ b, usedAfter ds resp stays last = .ok b ∧
      (elapsed stays + len last < m.secs * 1000000000 → b = true) ∧
      (b = true → elapsed stays + len last < m.secs * 1000000000 + stays.length * 1000000000) ∧
      ((∀ s ∈ stays, s.nanos = 0) → (b = true ↔ elapsed stays + len last < m.secs * 1000000000)) := by
  have hb := used_eq hd (no_shared hn) hr hs h53 last
  have hl : len ⟨m.secs, 0⟩ = m.secs * 1000000000 := Nat.add_zero _
  rw [lifetime_plain hn, hm] at hb
  simp only [Option.map_some, hl] at hb
  obtain ⟨l1, l2⟩ := C128_short stays hs
  refine ⟨_, hb, ?_, ?_, ?_⟩
  · intro h
    rw [decide_eq_true_eq]
    omega
  · intro h
    rw [decide_eq_true_eq] at h
    omega
  · intro hz
    rw [decide_eq_true_eq]
    have := elapsed_whole hz
    rw [this]

example : usedAfter [.publ, .maxAge ⟨60, 0⟩] [] [⟨20, 0⟩, ⟨30, 0⟩] ⟨9, 5⟩ = .ok true ∧
    usedAfter [.publ, .maxAge ⟨60, 0⟩] [] [⟨20, 0⟩, ⟨30, 0⟩] ⟨10, 0⟩ = .ok false := by decide +kernel

/-- An answer without a lifetime is not used again. -/
theorem C128_no_lifetime (ds : List CacheDirective) (hd : ∀ d ∈ ds, SecsFit d) (hn : ∀ x, .maxAge x ∉ ds) (resp : Headers)
    (hr : resp.get s!!"age" = none) (stays : List Duration) (hs : ∀ s ∈ stays, s.nanos < 1000000000)
    (h53 : (stays.map (·.secs)).sum ≤ 2 ^ 53) (last : Duration) : usedAfter ds resp stays last = .ok false := by
  have hb := used_eq hd rfl hr hs h53 last
  have : lifetime ((ds.filter fun d => match d with | .sMaxAge _ => false | _ => true).map wholeSeconds) = none := by
    unfold lifetime
    rw [Option.or_eq_none_iff, List.findSome?_eq_none_iff, List.findSome?_eq_none_iff]
    constructor
    all_goals
      intro x hx
      obtain ⟨d, hd, rfl⟩ := List.mem_map.mp hx
      obtain ⟨hd, hf⟩ := List.mem_filter.mp hd
      cases d with
      | maxStale o => cases o <;> rfl
      | sMaxAge y => cases hf
      | maxAge y => exact absurd hd (hn y)
      | _ => rfl
  rw [this] at hb
  exact hb

example : usedAfter [.publ, .noTransform] [] [] ⟨0, 0⟩ = .ok false := by decide +kernel

/-- C128 is violated by parts of seconds: they are lost at each cache, so that an answer for one second is used after any
number of caches that each keep it for nearly a second. -/
theorem C128_violated_parts (k : Nat) (resp : Headers) (hr : resp.get s!!"age" = none) :
    usedAfter [.maxAge ⟨1, 0⟩] resp (List.replicate k ⟨0, 999999999⟩) ⟨0, 0⟩ = .ok true ∧
    elapsed (List.replicate k ⟨0, 999999999⟩) = k * 999999999 := by
  have h0 : ((List.replicate k (⟨0, 999999999⟩ : Duration)).map (·.secs)).sum = 0 := by simp
  refine ⟨?_, ?_⟩
  · rw [used_eq (by simp [SecsFit]) rfl hr ?_ (by rw [h0]; decide), h0]
    · decide
    · intro s hs
      rw [List.eq_of_mem_replicate hs]
      decide
  · unfold elapsed
    rw [List.map_replicate]
    have : len ⟨0, 999999999⟩ = 999999999 := by decide
    rw [this]
    clear h0
    induction k with
    | zero => rfl
    | succ k ih => rw [List.replicate_succ, List.sum_cons, ih, Nat.succ_mul, Nat.add_comm]

/-- C128 is violated by `s-maxage`: shared caches do not get to see it, and use the answer for as long as others may. -/
theorem C128_violated_shared (a m : Duration) (ha : a.secs < 2 ^ 64) (hm : m.secs < 2 ^ 64) (resp : Headers)
    (hr : resp.get s!!"age" = none) (last : Duration) (h : len last < m.secs * 1000000000) :
    lifetime [.sMaxAge a, .maxAge m] = some a ∧ usedAfter [.sMaxAge a, .maxAge m] resp [] last = .ok true := by
  refine ⟨rfl, ?_⟩
  rw [used_eq (by simp [SecsFit, ha, hm]) rfl hr (by simp) (by simp)]
  have hl : len ⟨m.secs, 0⟩ = m.secs * 1000000000 := Nat.add_zero _
  show Res.ok (decide (_ < len ⟨m.secs, 0⟩)) = _
  rw [hl]
  simp [h]

example : usedAfter [.sMaxAge ⟨60, 0⟩, .maxAge ⟨3600, 0⟩] [] [] ⟨3599, 0⟩ = .ok true := by decide +kernel

end HT
