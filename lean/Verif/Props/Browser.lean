import Verif.Spec.Browser
import Verif.Props.Security

/-! C132: a client that keeps policies makes secure what the servers asked it to. -/

namespace HT
open Spec

/-- What the client takes over from one response. -/
theorem sts_read (p : Hsts) (hs : p.maxAge.secs < 2 ^ 64) (resp : Headers) :
    (applyHeader resp s!!"strict-transport-security" (.ok p.headerValue)).bind Hsts.fromHeaders =
      .ok (some ⟨⟨p.maxAge.secs, 0⟩, false, p.preload⟩) := by
  obtain ⟨h', v, h1, -, -, h4⟩ := C51_reads_back p hs resp
  rw [show s!!"strict-transport-security" = Hsts.NAME from rfl, h1, Res.bind_ok, h4]

/-- The stores agree but for fractions of seconds and subdomains. -/
theorem sts_stores (vs : List StsVisit) (hs : ∀ v ∈ vs, v.policy.maxAge.secs < 2 ^ 64) (host : Domain) :
    (stsAsked vs host = none ∧ stsLearned vs host = none) ∨
    ∃ v ∈ vs, v.host = host ∧ stsAsked vs host = some (v.time + len v.policy.maxAge, v.policy.includeSubdomains) ∧
      stsLearned vs host = some (v.time + v.policy.maxAge.secs * 1000000000, false) := by
  induction vs using List.reverseRecOn with
  | nil => exact .inl ⟨rfl, rfl⟩
  | append_singleton vs v ih =>
    have ih := ih fun w hw => hs w (List.mem_append_left _ hw)
    have hv := hs v (by simp)
    have e1 : stsAsked (vs ++ [v]) = (stsAsked vs).note v.host v.time v.policy := by
      simp only [stsAsked, List.foldl_append, List.foldl_cons, List.foldl_nil]
    have e2 : stsLearned (vs ++ [v]) = (stsLearned vs).note v.host v.time ⟨⟨v.policy.maxAge.secs, 0⟩, false, v.policy.preload⟩ := by
      simp only [stsLearned, List.foldl_append, List.foldl_cons, List.foldl_nil, sts_read v.policy hv]
    rw [e1, e2]
    unfold HstsStore.note
    by_cases hh : host = v.host
    · refine .inr ⟨v, by simp, hh.symm, ?_, ?_⟩ <;> simp [hh, len]
    · rw [if_neg hh, if_neg hh]
      rcases ih with h | ⟨w, hw, h⟩
      · exact .inl h
      · exact .inr ⟨w, List.mem_append_left _ hw, h⟩

/-- The client makes no request secure that it was not asked to. -/
theorem C132_only_asked (vs : List StsVisit) (hs : ∀ v ∈ vs, v.policy.maxAge.secs < 2 ^ 64) (x : Domain) (time : Nat)
    (h : (stsLearned vs).Secured x time) : (stsAsked vs).Secured x time := by
  obtain ⟨sub, host, e, b, hx, hst, ht, hb⟩ := h
  rcases sts_stores vs hs host with ⟨-, h2⟩ | ⟨v, hv, -, h1, h2⟩
  · rw [hst] at h2; cases h2
  · rw [hst] at h2
    simp only [Option.some.injEq, Prod.mk.injEq] at h2
    obtain ⟨rfl, rfl⟩ := h2
    refine ⟨sub, host, _, _, hx, h1, ?_, ?_⟩
    · exact Nat.lt_of_lt_of_le ht (Nat.add_le_add_left (Nat.le_add_right _ _) _)
    · rcases hb with hb | hb
      · exact .inl hb
      · cases hb

example : (stsLearned [⟨[s!!"org"], 0, ⟨⟨2, 5⟩, true, false⟩, []⟩]).Secured [s!!"org"] 1999999999 ∧
    (stsAsked [⟨[s!!"org"], 0, ⟨⟨2, 5⟩, true, false⟩, []⟩]).Secured [s!!"www", s!!"org"] 2000000004 :=
  ⟨⟨[], [s!!"org"], 2000000000, false, rfl, by decide +kernel, by decide, .inl rfl⟩,
    [s!!"www"], [s!!"org"], 2000000005, true, rfl, by decide +kernel, by decide, .inr rfl⟩

/-- A host that gave a policy of at least a second is contacted securely for as many whole seconds, unless it gives another
one. -/
theorem C132_own_host (vs : List StsVisit) (v : StsVisit) (hs : ∀ w ∈ v :: vs, w.policy.maxAge.secs < 2 ^ 64)
    (hn : ∀ w ∈ vs, w.host ≠ v.host) (us : List StsVisit) (time : Nat)
    (ht : time < v.time + v.policy.maxAge.secs * 1000000000) : (stsLearned (us ++ v :: vs)).Secured v.host time := by
  refine ⟨[], v.host, v.time + v.policy.maxAge.secs * 1000000000, false, rfl, ?_, ht, .inl rfl⟩
  have e1 : stsLearned (us ++ [v]) v.host = some (v.time + v.policy.maxAge.secs * 1000000000, false) := by
    simp only [stsLearned, List.foldl_append, List.foldl_cons, List.foldl_nil, sts_read v.policy (hs v (by simp))]
    simp [HstsStore.note, len]
  clear ht
  induction vs using List.reverseRecOn with
  | nil => exact e1
  | append_singleton vs w ih =>
    have ih := ih (fun x hx => hs x (by simp at hx ⊢; tauto)) (fun x hx => hn x (by simp; tauto))
    have hw := hs w (by simp)
    have e2 : stsLearned (us ++ v :: (vs ++ [w])) =
        (stsLearned (us ++ v :: vs)).note w.host w.time ⟨⟨w.policy.maxAge.secs, 0⟩, false, w.policy.preload⟩ := by
      rw [show us ++ v :: (vs ++ [w]) = (us ++ v :: vs) ++ [w] by simp]
      simp only [stsLearned, List.foldl_append (l := us ++ v :: vs), List.foldl_cons, List.foldl_nil, sts_read w.policy hw]
    rw [e2]
    unfold HstsStore.note
    rw [if_neg (fun h => hn w (by simp) h.symm), ih]

example : (stsLearned [⟨[s!!"example", s!!"org"], 5, Hsts.default, []⟩]).Secured [s!!"example", s!!"org"] 1000 :=
  C132_own_host [] ⟨[s!!"example", s!!"org"], 5, Hsts.default, []⟩ (by simp; decide) (by simp) [] 1000 (by decide)

/-- The client is right after any responses with the policies `ps` exactly if each of them is for a whole number of seconds
and not for the subdomains, or is for no time at all. -/
theorem C132_secures_iff_partial (ps : Hsts → Prop) (hs : ∀ p, ps p → p.maxAge.secs < 2 ^ 64) :
    SecuresRight ps ↔ ∀ p, ps p → p.includeSubdomains = false ∧ p.maxAge.nanos = 0 ∨ len p.maxAge = 0 := by
  constructor
  · intro h p hp
    have hr : ∀ x time, (stsLearned [⟨[s!!"a"], 0, p, []⟩]).Secured x time ↔ (stsAsked [⟨[s!!"a"], 0, p, []⟩]).Secured x time :=
      fun x time => h _ x time (by simpa using hp)
    have hl : stsLearned [⟨[s!!"a"], 0, p, []⟩] = HstsStore.note (fun _ => none) [s!!"a"] 0 ⟨⟨p.maxAge.secs, 0⟩, false, p.preload⟩ := by
      simp only [stsLearned, List.foldl_cons, List.foldl_nil, sts_read p (hs p hp)]
    have ha : stsAsked [⟨[s!!"a"], 0, p, []⟩] = HstsStore.note (fun _ => none) [s!!"a"] 0 p := rfl
    rw [hl, ha] at hr
    by_cases hz : len p.maxAge = 0
    · exact .inr hz
    refine .inl ⟨?_, ?_⟩
    · cases hi : p.includeSubdomains with
      | false => rfl
      | true =>
        exfalso
        obtain ⟨sub, host, e, b, hx, hst, -, hb⟩ := (hr [s!!"b", s!!"a"] 0).mpr
          ⟨[s!!"b"], [s!!"a"], len p.maxAge, true, rfl, by simp [HstsStore.note, hi], by omega, .inr rfl⟩
        unfold HstsStore.note at hst
        split at hst
        · rename_i hh
          simp only [Option.some.injEq, Prod.mk.injEq] at hst
          rcases hb with rfl | hb
          · subst hh; cases hx
          · rw [← hst.2] at hb; cases hb
        · cases hst
    · by_contra hn
      obtain ⟨sub, host, e, b, hx, hst, ht, -⟩ := (hr [s!!"a"] (p.maxAge.secs * 1000000000)).mpr
        ⟨[], [s!!"a"], len p.maxAge, p.includeSubdomains, rfl, by simp [HstsStore.note], by unfold len; omega, .inl rfl⟩
      unfold HstsStore.note at hst
      split at hst
      · simp only [Option.some.injEq, Prod.mk.injEq, len] at hst
        omega
      · cases hst
  · intro h vs x time hv
    have hs' : ∀ v ∈ vs, v.policy.maxAge.secs < 2 ^ 64 := fun v hm => hs _ (hv v hm).1
    refine ⟨C132_only_asked vs hs' x time, ?_⟩
    rintro ⟨sub, host, e, b, hx, hst, ht, hb⟩
    rcases sts_stores vs hs' host with ⟨h1, -⟩ | ⟨v, hm, -, h1, h2⟩
    · rw [hst] at h1; cases h1
    · rw [hst] at h1
      simp only [Option.some.injEq, Prod.mk.injEq] at h1
      obtain ⟨rfl, rfl⟩ := h1
      have hle := (hv v hm).2
      rcases h _ (hv v hm).1 with ⟨hi, hn⟩ | hz
      · refine ⟨sub, host, _, _, hx, h2, ?_, ?_⟩
        · rw [show len v.policy.maxAge = v.policy.maxAge.secs * 1000000000 + 0 by rw [← hn]; rfl, Nat.add_zero] at ht
          exact ht
        · rcases hb with hb | hb
          · exact .inl hb
          · rw [hi] at hb; cases hb
      · omega

example : SecuresRight fun p => p = Hsts.default :=
  (C132_secures_iff_partial _ (by rintro p rfl; decide)).mpr (by rintro p rfl; exact .inl ⟨rfl, rfl⟩)

/-- Every policy for the subdomains fails to protect every one of them, from the first moment on. -/
theorem C132_violated_subdomains (host sub : Domain) (hsub : sub ≠ []) (time : Nat) (p : Hsts) (resp : Headers)
    (hs : p.maxAge.secs < 2 ^ 64) (hp : 0 < len p.maxAge) (hi : p.includeSubdomains = true) :
    (stsAsked [⟨host, time, p, resp⟩]).Secured (sub ++ host) time ∧
    ∀ t, ¬ (stsLearned [⟨host, time, p, resp⟩]).Secured (sub ++ host) t := by
  refine ⟨⟨sub, host, time + len p.maxAge, true, rfl, by simp [stsAsked, HstsStore.note, hi], by omega, .inr rfl⟩, fun t => ?_⟩
  rintro ⟨s, h, e, b, hx, hst, -, hb⟩
  rcases sts_stores [⟨host, time, p, resp⟩] (by simpa using hs) h with ⟨-, h2⟩ | ⟨v, hm, hv, -, h2⟩
  · rw [hst] at h2; cases h2
  · rw [hst] at h2
    simp only [Option.some.injEq, Prod.mk.injEq] at h2
    rcases hb with rfl | hb
    · rw [List.mem_singleton.mp hm] at hv
      subst hv
      rw [List.nil_append] at hx
      exact hsub (List.append_left_eq_self.mp hx)
    · rw [h2.2] at hb; cases hb

example : (⟨⟨31536000, 0⟩, true, true⟩ : Hsts).includeSubdomains = true ∧ 0 < len (⟨⟨31536000, 0⟩, true, true⟩ : Hsts).maxAge := by
  decide

end HT
