import Verif.Lemmas.Channel

/-! Trailers and upgrades: C13, C14, C65. -/

namespace HT
open Spec

variable {V : Type} {k : ChanKind} {s s' : Chan V} {tr : Trace V} {o : ChanObs V}

/-- Running a list of steps. -/
def Chan.exec (k : ChanKind) (s : Chan V) (tr : Trace V) : List (ChanAct V) → Option (Chan V × Trace V)
  | [] => some (s, tr)
  | a :: as =>
    match s.step k a with
    | none => none
    | some (o, s') => exec k s' (tr ++ [(a, o)]) as

theorem Chan.exec_run {k : ChanKind} {s s' : Chan V} {tr tr' : Trace V} {as : List (ChanAct V)} (h : ChanRun k s tr)
    (he : Chan.exec k s tr as = some (s', tr')) : ChanRun k s' tr' := by
  induction as generalizing s tr with
  | nil => cases he; exact h
  | cons a as ih =>
    unfold Chan.exec at he
    split at he
    · cases he
    · rename_i o s1 hs
      exact ih (.step h hs) he

/-! ### C13 -/

/-- Nothing is duplicated or invented: what the receivers yield is, with multiplicities, among what was sent. This
holds for all three channels and also with clones. -/
theorem C13_conservation (h : ChanRun k s tr) : (receivedOf tr).Subperm (sentOf tr) := by
  obtain ⟨-, i2, ⟨lost, i3, -⟩, -⟩ := Chan.inv_run h
  have : (sentOf tr).Perm (receivedOf tr ++ (s.sending ++ cancelledOf tr ++ (lost ++ s.queue))) := by
    refine i2.trans ?_
    refine (List.Perm.append_left _ i3).trans ?_
    classical
    simp only [List.perm_iff_count, List.count_append]
    intro a
    omega
  exact (List.sublist_append_left _ _).subperm.trans this.symm.subperm

/-- A request whose trailers are sent and received. -/
example : ∃ s tr, ChanRun .reqTrailers (V := Nat) s tr ∧ CloneSafe .reqTrailers tr ∧ sentOf tr = [7] ∧ receivedOf tr = [7] :=
  ⟨_, _, Chan.exec_run .init (as := [.takeSender 0, .takeReceiver 0, .startSend 7, .pollSend 0, .pollRecv]) rfl, Or.inl rfl,
    by decide +kernel, by decide +kernel⟩

/-- At most one value is sent, and the values received are it or nothing. -/
theorem C13_once (h : ChanRun k s tr) (hc : CloneSafe k tr) :
    (sentOf tr).length ≤ 1 ∧ receivedOf tr <+: sentOf tr := by
  have h1 := (Chan.inv_run h).senders
  have h2 := (Chan.inv2_run h hc).outS
  have hl : (sentOf tr).length ≤ 1 := by omega
  refine ⟨hl, ?_⟩
  have hs := C13_conservation h
  have hlen := hs.length_le
  cases hr : receivedOf tr with
  | nil => exact List.nil_prefix
  | cons v rs =>
    rw [hr] at hs hlen
    simp only [List.length_cons] at hlen
    have : rs = [] := List.eq_nil_of_length_eq_zero (by omega)
    subst this
    have hm := hs.subset (List.mem_singleton.mpr rfl)
    obtain ⟨x, hx⟩ : ∃ x, sentOf tr = [x] := by
      rw [← List.length_eq_one_iff]; omega
    rw [hx] at hm ⊢
    rw [List.mem_singleton] at hm
    rw [hm]
    exact List.prefix_rfl

/-- A response that is not cloned. -/
example : ∃ s tr, ChanRun .respTrailers (V := Nat) s tr ∧ CloneSafe .respTrailers tr ∧ sentOf tr = [7] ∧ receivedOf tr = [] :=
  ⟨_, _, Chan.exec_run .init (as := [.takeSender 0, .takeReceiver 0, .startSend 7, .pollSend 0]) rfl, Or.inr (by decide +kernel),
    by decide +kernel, by decide +kernel⟩

/-- Polling the receiver: it yields `v` exactly when the sending of `v` is done and nothing was yielded yet, it yields
nothing exactly when no value can come any more, and it waits otherwise. -/
theorem C13_poll (h : ChanRun k s tr) (hc : CloneSafe k tr) (hp : s.step k .pollRecv = some (o, s')) :
    (∀ v, o = .ready (some v) ↔ completedOf tr = [v] ∧ receivedOf tr = []) ∧
      (o = .ready none ↔ Exhausted tr) ∧
      (o = .pending ↔ ¬ Exhausted tr ∧ (completedOf tr = [] ∨ receivedOf tr ≠ [])) := by
  obtain ⟨i1, i2, ⟨lost, i3, i4⟩, i5⟩ := Chan.inv_run h
  have hI := Chan.inv2_run h hc
  have hslot := Chan.slots_eq hI
  have hout := hI.outS
  have hr0 : s.receivers ≠ 0 := by
    intro h0
    have : s.step k .pollRecv = none := by
      show s.pollRecv = none
      unfold Chan.pollRecv
      rw [if_pos h0]
    rw [this] at hp
    cases hp
  have hlost : lost = [] := by
    by_cases hl : lost = []
    · exact hl
    · have := i4 hl
      unfold Chan.receiverHandles at this
      omega
  subst hlost
  have l2 := i2.length_eq
  have l3 := i3.length_eq
  simp only [List.length_append, List.length_nil, Nat.zero_add] at l2 l3
  have z : ∀ {α : Type} (l : List α), l ≠ [] ↔ l.length ≠ 0 := fun l => by rw [Ne, ← List.length_eq_zero_iff]
  have hex : Exhausted tr ↔ s.queue = [] ∧ s.senderHandles = 0 := by
    unfold Exhausted Chan.senderHandles
    rw [z, z, ← List.length_eq_zero_iff]
    by_cases hd : OriginalDropped tr
    · have : List.countP Chan.hasSender s.msgs = 0 := hslot.mpr (Or.inr hd)
      simp only [hd, and_true]
      omega
    · simp only [hd, or_false] at hslot
      simp only [hd, and_false, or_false]
      omega
  rcases Chan.step_cases hp with ⟨_, _, h, -⟩ | ⟨_, _, _, h, -⟩ | ⟨_, h, -⟩ | ⟨_, _, h, -⟩ | ⟨_, _, h, -⟩ | ⟨h, -⟩ | ⟨-, -, h⟩ |
    ⟨h, -⟩ | ⟨_, _, h, -⟩ | ⟨_, _, h, -⟩
  any_goals cases h
  · rename_i h
    obtain ⟨v, q, hq, rfl, -⟩ := h
    have hq' : q = [] := List.eq_nil_of_length_eq_zero (by rw [hq] at i5; simpa using i5)
    subst hq'
    have hlq : s.queue.length = 1 := by rw [hq]; rfl
    have hrec : receivedOf tr = [] := List.eq_nil_of_length_eq_zero (by omega)
    rw [hrec, hq] at i3
    simp only [List.nil_append, List.append_nil] at i3
    have hcomp : completedOf tr = [v] := List.perm_singleton.mp i3
    refine ⟨?_, ?_, ?_⟩
    · intro v'
      rw [hcomp, hrec]
      simp
    · rw [hex, hq]; simp
    · rw [hcomp, hrec]; simp
  · rename_i h
    rcases h with ⟨hq, h0, rfl, -⟩ | ⟨hq, h0, rfl, -⟩
    · refine ⟨?_, ?_, ?_⟩
      · intro v
        simp only [ChanObs.ready.injEq, reduceCtorEq, false_iff, not_and]
        intro hcv hrv
        rw [hcv, hrv, hq] at l3
        simp at l3
      · rw [hex]; simp [hq, h0]
      · rw [hex]; simp [hq, h0]
    · have hne : ¬ Exhausted tr := by rw [hex]; simp [h0]
      refine ⟨?_, ?_, ?_⟩
      · intro v
        simp only [reduceCtorEq, false_iff, not_and]
        intro hcv hrv
        rw [hcv, hrv, hq] at l3
        simp at l3
      · simp [hne]
      · simp only [hne, not_false_iff, true_and, true_iff]
        rw [z, ← List.length_eq_zero_iff]
        rw [hq] at l3
        simp only [List.length_nil, Nat.zero_add] at l3
        omega

example : ∃ s tr, ChanRun .reqTrailers (V := Nat) s tr ∧ CloneSafe .reqTrailers tr ∧ (s.step .reqTrailers .pollRecv).map (·.1) = some (.ready (some 7)) :=
  ⟨_, _, Chan.exec_run .init (as := [.takeSender 0, .takeReceiver 0, .startSend 7, .pollSend 0]) rfl, Or.inl rfl, by decide +kernel⟩

/-- A channel without senders never gets one again. -/
theorem senderHandles_zero {a : ChanAct V} (h : s.step k a = some (o, s')) (h0 : s.senderHandles = 0)
    (hq : s.queue = []) : s'.senderHandles = 0 ∧ s'.queue = [] ∧ ∀ v, o ≠ .ready (some v) := by
  unfold Chan.senderHandles at h0
  have h1 : s.msgs.countP Chan.hasSender = 0 := by omega
  have h2 : s.senders = 0 := by omega
  have h3 : s.sending = [] := List.eq_nil_of_length_eq_zero (by omega)
  have key : ∀ (i : Nat) (e : Ends), s.msgs[i]? = some (some e) → e.sender = false := by
    intro i e he
    cases hr : e.sender with
    | false => rfl
    | true => exact absurd h1 (Chan.countP_pos_of_get he hr)
  have keyset : ∀ (i : Nat) (e : Ends) y, s.msgs[i]? = some (some e) → Chan.hasSender y = false →
      (s.msgs.set i y).countP Chan.hasSender = 0 := by
    intro i e y he hy
    have := countP_set_add Chan.hasSender s.msgs i (some e) y he
    rw [hy, h1, show Chan.hasSender (some e) = false from key i e he] at this
    simpa using this
  rcases Chan.step_cases h with ⟨i, e, -, he, ⟨hb, rfl, rfl⟩ | ⟨hb, rfl, rfl⟩⟩ |
    ⟨i, e, f, -, he, -, ⟨hb, rfl, rfl⟩ | ⟨hb, rfl, rfl⟩⟩ |
    ⟨v, -, hb, rfl, rfl⟩ | ⟨j, v, -, hb, -⟩ | ⟨j, v, -, hb, rfl, rfl⟩ |
    ⟨-, hb, rfl, rfl⟩ | ⟨-, hb, ⟨v, q, hq', rfl, rfl⟩ | ⟨-, -, rfl, rfl⟩ | ⟨-, -, rfl, rfl⟩⟩ |
    ⟨-, hb, rfl, rfl⟩ | ⟨i, e, -, he, rfl, rfl⟩ | ⟨i, e, -, he, rfl, rfl⟩
  · rw [key i e he] at hb; cases hb
  · refine ⟨?_, hq, by simp⟩
    simp only [Chan.senderHandles]
    rw [keyset i e (some { e with flag := true }) he hb, h2, h3]; rfl
  · refine ⟨?_, hq, by simp⟩
    simp only [Chan.senderHandles]
    rw [keyset i e (some { e with receiver := false, flag := f }) he (key i e he), h2, h3]; rfl
  · refine ⟨?_, hq, by simp⟩
    simp only [Chan.senderHandles]
    rw [keyset i e (some { e with flag := f }) he (key i e he), h2, h3]; rfl
  · exact absurd h2 hb
  · rw [h3] at hb; simp at hb
  · rw [h3] at hb; simp at hb
  · exact absurd h2 hb
  · rw [hq] at hq'; cases hq'
  · exact ⟨by simp [Chan.senderHandles, h1, h2, h3], hq, by simp⟩
  · exact ⟨by simp [Chan.senderHandles, h1, h2, h3], hq, by simp⟩
  · exact ⟨by simp [Chan.senderHandles, h1, h2, h3], hq, by simp⟩
  · refine ⟨?_, hq, by simp⟩
    simp only [Chan.senderHandles]
    rw [keyset i e none he rfl, h2, h3]; rfl
  · refine ⟨?_, hq, by simp⟩
    simp only [Chan.senderHandles, List.countP_append, h1, h2, h3]
    by_cases hk : k = .reqTrailers
    · simp [hk, Chan.hasSender]
    · simp [hk, Chan.hasSender, key i e he]

/-- Once a receiver has yielded nothing, no value is ever received, by any of the messages and clones. -/
theorem C13_none_is_final {tr' : Trace V} (h : ChanRun k s (tr ++ (.pollRecv, .ready none) :: tr')) :
    receivedOf tr' = [] := by
  have key : ∀ {s : Chan V} {t : Trace V}, ChanRun k s t → ∀ tr tr' : Trace V,
      t = tr ++ (.pollRecv, .ready none) :: tr' → receivedOf tr' = [] ∧ s.senderHandles = 0 ∧ s.queue = [] := by
    intro s t ht
    induction ht with
    | init => intro tr tr' he; simp at he
    | @step s s' t a o hr hs ih =>
      intro tr tr' he
      rcases List.eq_nil_or_concat tr' with rfl | ⟨tr'', x, rfl⟩
      · obtain ⟨rfl, he2⟩ := List.append_inj' he rfl
        simp only [List.cons.injEq, Prod.mk.injEq, and_true] at he2
        obtain ⟨rfl, rfl⟩ := he2
        refine ⟨rfl, ?_⟩
        rcases Chan.step_cases hs with ⟨_, _, h, -⟩ | ⟨_, _, _, h, -⟩ | ⟨_, h, -⟩ | ⟨_, _, h, -⟩ | ⟨_, _, h, -⟩ | ⟨h, -⟩ |
          ⟨-, -, ⟨_, _, -, h, -⟩ | ⟨g1, g2, -, rfl⟩ | ⟨-, -, h, -⟩⟩ | ⟨h, -⟩ | ⟨_, _, h, -⟩ | ⟨_, _, h, -⟩
        any_goals cases h
        exact ⟨g2, g1⟩
      · rw [List.concat_eq_append, ← List.cons_append, ← List.append_assoc] at he
        obtain ⟨he1, he2⟩ := List.append_inj' he rfl
        obtain ⟨g1, g2, g3⟩ := ih tr tr'' he1
        obtain ⟨f1, f2, f3⟩ := senderHandles_zero hs g2 g3
        refine ⟨?_, f1, f2⟩
        rw [List.concat_eq_append, receivedOf_append, g1]
        cases he2
        rw [Chan.receivedOf_one]
        rcases o with _ | _ | _ | _ | _ | (_ | v)
        any_goals rfl
        exact absurd rfl (f3 v)
  exact (key h tr tr' rfl).1

/-- The message is dropped with the sender inside: the receiver is told that nothing will come. -/
example : ∃ s tr, ChanRun .reqTrailers (V := Nat) s (tr ++ (.pollRecv, .ready none) :: []) :=
  ⟨_, _, Chan.exec_run .init (as := [.takeReceiver 0, .dropMsg 0, .pollRecv]) rfl⟩

/-- A send never has to wait: its first poll completes it. -/
theorem C13_send_never_waits (h : ChanRun k s tr) (hc : CloneSafe k tr) {j : Nat}
    (hp : s.step k (.pollSend j) = some (o, s')) : ∃ v, o = .completed v ∧ v ∈ sentOf tr := by
  obtain ⟨i1, i2, ⟨lost, i3, i4⟩, i5⟩ := Chan.inv_run h
  have hout := (Chan.inv2_run h hc).outS
  have l2 := i2.length_eq
  have l3 := i3.length_eq
  simp only [List.length_append] at l2 l3
  have hmem : ∀ v, s.sending[j]? = some v → v ∈ sentOf tr := by
    intro v hv
    rw [i2.mem_iff]
    simp [List.mem_of_getElem? hv]
  rcases Chan.step_cases hp with ⟨_, _, h, -⟩ | ⟨_, _, _, h, -⟩ | ⟨_, h, -⟩ | ⟨j', v, h, hj, hcase⟩ | ⟨_, _, h, -⟩ | ⟨h, -⟩ |
    ⟨h, -⟩ | ⟨h, -⟩ | ⟨_, _, h, -⟩ | ⟨_, _, h, -⟩
  any_goals cases h
  rcases hcase with ⟨-, rfl, -⟩ | ⟨-, -, rfl, -⟩ | ⟨-, hq, rfl, -⟩
  · exact ⟨v, rfl, hmem v hj⟩
  · exact ⟨v, rfl, hmem v hj⟩
  · exfalso
    have h1 := List.length_pos_of_ne_nil hq
    have h2 : 0 < s.sending.length := by
      obtain ⟨hlt, -⟩ := List.getElem?_eq_some_iff.mp hj
      omega
    omega

example : ∃ s tr, ChanRun .reqTrailers (V := Nat) s tr ∧ CloneSafe .reqTrailers tr ∧
    (s.step .reqTrailers (.pollSend 0)).map (·.1) = some (.completed 7) :=
  ⟨_, _, Chan.exec_run .init (as := [.takeSender 0, .takeReceiver 0, .startSend 7]) rfl, Or.inl rfl, by decide +kernel⟩

/-- Asking the same message a second time for its sender or receiver panics, for all three channels. -/
theorem C13_second_take (h : ChanRun k s tr) (i : Nat) :
    (∀ o', (ChanAct.takeSender i, o') ∈ tr → s.step k (.takeSender i) = some (o, s') → o = .panic) ∧
      ∀ o', (ChanAct.takeReceiver i, o') ∈ tr → s.step k (.takeReceiver i) = some (o, s') → o = .panic := by
  have key : (∀ o', (ChanAct.takeSender i, o') ∈ tr → ∃ x, s.msgs[i]? = some x ∧ Chan.hasSender x = false) ∧
      ∀ o', (ChanAct.takeReceiver i, o') ∈ tr → ∃ x, s.msgs[i]? = some x ∧ Chan.hasReceiver x = false := by
    induction h with
    | init => exact ⟨fun _ h => (by cases h), fun _ h => (by cases h)⟩
    | @step s s' tr a o hr hs ih =>
      have mono : ∀ p : Option Ends → Bool, (p = Chan.hasSender ∨ p = Chan.hasReceiver) →
          (∃ x, s.msgs[i]? = some x ∧ p x = false) → ∃ x, s'.msgs[i]? = some x ∧ p x = false := by
        rintro p hp ⟨x, hx, hpx⟩
        have hset : ∀ (i' : Nat) (e : Ends) y, s.msgs[i']? = some (some e) → (p (some e) = false → p y = false) →
            ∃ x, (s.msgs.set i' y)[i]? = some x ∧ p x = false := by
          intro i' e y he hy
          obtain ⟨hlt, -⟩ := List.getElem?_eq_some_iff.mp he
          by_cases hi : i' = i
          · subst hi
            rw [he] at hx
            cases hx
            exact ⟨y, by simp [hlt], hy hpx⟩
          · exact ⟨x, by rw [List.getElem?_set_ne hi]; exact hx, hpx⟩
        rcases Chan.step_cases hs with ⟨i', e, -, he, ⟨hb, rfl, rfl⟩ | ⟨hb, rfl, rfl⟩⟩ |
          ⟨i', e, f, -, he, -, ⟨hb, rfl, rfl⟩ | ⟨hb, rfl, rfl⟩⟩ |
          ⟨v, -, hb, rfl, rfl⟩ | ⟨j, v, -, -, ⟨-, -, rfl⟩ | ⟨-, -, -, rfl⟩ | ⟨-, -, -, rfl⟩⟩ | ⟨j, v, -, hb, rfl, rfl⟩ |
          ⟨-, hb, rfl, rfl⟩ | ⟨-, hb, ⟨v, q, hq', rfl, rfl⟩ | ⟨-, -, rfl, rfl⟩ | ⟨-, -, rfl, rfl⟩⟩ |
          ⟨-, hb, rfl, rfl⟩ | ⟨i', e, -, he, rfl, rfl⟩ | ⟨i', e, -, he, rfl, rfl⟩
        · exact hset i' e (some { e with sender := false, flag := true }) he (by rcases hp with rfl | rfl <;> simp [Chan.hasSender, Chan.hasReceiver])
        · exact hset i' e (some { e with flag := true }) he (by rcases hp with rfl | rfl <;> simp [Chan.hasSender, Chan.hasReceiver])
        · exact hset i' e (some { e with receiver := false, flag := f }) he (by rcases hp with rfl | rfl <;> simp [Chan.hasSender, Chan.hasReceiver])
        · exact hset i' e (some { e with flag := f }) he (by rcases hp with rfl | rfl <;> simp [Chan.hasSender, Chan.hasReceiver])
        · exact ⟨x, hx, hpx⟩
        · exact ⟨x, hx, hpx⟩
        · exact ⟨x, hx, hpx⟩
        · exact ⟨x, hx, hpx⟩
        · exact ⟨x, hx, hpx⟩
        · exact ⟨x, hx, hpx⟩
        · exact ⟨x, hx, hpx⟩
        · exact ⟨x, hx, hpx⟩
        · exact ⟨x, hx, hpx⟩
        · exact ⟨x, hx, hpx⟩
        · exact hset i' e none he (by rcases hp with rfl | rfl <;> simp [Chan.hasSender, Chan.hasReceiver])
        · refine ⟨x, ?_, hpx⟩
          obtain ⟨hlt, -⟩ := List.getElem?_eq_some_iff.mp hx
          simp only
          rw [List.getElem?_append_left hlt]
          exact hx
      constructor
      · intro o' ho'
        rcases List.mem_append.mp ho' with h | h
        · exact mono _ (Or.inl rfl) (ih.1 o' h)
        · simp only [List.mem_singleton, Prod.mk.injEq] at h
          obtain ⟨rfl, rfl⟩ := h
          rcases Chan.step_cases hs with ⟨i', e, h, he, ⟨hb, -, rfl⟩ | ⟨hb, -, rfl⟩⟩ | ⟨_, _, _, h, -⟩ | ⟨_, h, -⟩ | ⟨_, _, h, -⟩ |
            ⟨_, _, h, -⟩ | ⟨h, -⟩ | ⟨h, -⟩ | ⟨h, -⟩ | ⟨_, _, h, -⟩ | ⟨_, _, h, -⟩
          all_goals cases h
          · obtain ⟨hlt, -⟩ := List.getElem?_eq_some_iff.mp he
            exact ⟨_, List.getElem?_set_self hlt, rfl⟩
          · obtain ⟨hlt, -⟩ := List.getElem?_eq_some_iff.mp he
            exact ⟨_, List.getElem?_set_self hlt, hb⟩
      · intro o' ho'
        rcases List.mem_append.mp ho' with h | h
        · exact mono _ (Or.inr rfl) (ih.2 o' h)
        · simp only [List.mem_singleton, Prod.mk.injEq] at h
          obtain ⟨rfl, rfl⟩ := h
          rcases Chan.step_cases hs with ⟨_, _, h, -⟩ | ⟨i', e, f, h, he, -, ⟨hb, -, rfl⟩ | ⟨hb, -, rfl⟩⟩ | ⟨_, h, -⟩ | ⟨_, _, h, -⟩ |
            ⟨_, _, h, -⟩ | ⟨h, -⟩ | ⟨h, -⟩ | ⟨h, -⟩ | ⟨_, _, h, -⟩ | ⟨_, _, h, -⟩
          all_goals cases h
          · obtain ⟨hlt, -⟩ := List.getElem?_eq_some_iff.mp he
            exact ⟨_, List.getElem?_set_self hlt, rfl⟩
          · obtain ⟨hlt, -⟩ := List.getElem?_eq_some_iff.mp he
            exact ⟨_, List.getElem?_set_self hlt, hb⟩
  constructor
  · intro o' ho' hs
    obtain ⟨x, hx, hf⟩ := key.1 o' ho'
    rcases Chan.step_cases hs with ⟨i', e, h, he, ⟨hb, -, -⟩ | ⟨-, rfl, -⟩⟩ | ⟨_, _, _, h, -⟩ | ⟨_, h, -⟩ | ⟨_, _, h, -⟩ |
      ⟨_, _, h, -⟩ | ⟨h, -⟩ | ⟨h, -⟩ | ⟨h, -⟩ | ⟨_, _, h, -⟩ | ⟨_, _, h, -⟩
    all_goals cases h
    · rw [hx] at he
      cases he
      rw [show e.sender = false from hf] at hb
      cases hb
    · rfl
  · intro o' ho' hs
    obtain ⟨x, hx, hf⟩ := key.2 o' ho'
    rcases Chan.step_cases hs with ⟨_, _, h, -⟩ | ⟨i', e, f, h, he, -, ⟨hb, -, -⟩ | ⟨-, rfl, -⟩⟩ | ⟨_, h, -⟩ | ⟨_, _, h, -⟩ |
      ⟨_, _, h, -⟩ | ⟨h, -⟩ | ⟨h, -⟩ | ⟨h, -⟩ | ⟨_, _, h, -⟩ | ⟨_, _, h, -⟩
    all_goals cases h
    · rw [hx] at he
      cases he
      rw [show e.receiver = false from hf] at hb
      cases hb
    · rfl

example : ∃ s tr, ChanRun .reqTrailers (V := Nat) s tr ∧ (s.step .reqTrailers (.takeSender 0)).map (·.1) = some .panic :=
  ⟨_, _, Chan.exec_run .init (as := [.takeSender 0]) rfl, by decide +kernel⟩

/-- The first request for the sender succeeds, as long as the message lives. -/
theorem C13_first_take (h : ChanRun k s tr) (hc : CloneSafe k tr) (hd : ¬ OriginalDropped tr) :
    (sendersOut tr = 0 → ∃ s', s.step k (.takeSender 0) = some (.unit, s')) ∧
      (receiversOut tr = 0 → ∃ s', s.step k (.takeReceiver 0) = some (.unit, s')) := by
  obtain ⟨⟨x, xs, i1, i2, i3, i4⟩, -, -⟩ := Chan.inv2_run h hc
  cases x with
  | none => exact absurd (i3.mp rfl) hd
  | some e =>
    obtain ⟨g1, g2⟩ := i4 e rfl
    constructor
    · intro h0
      show ∃ s', s.takeSender 0 = some (.unit, s')
      unfold Chan.takeSender
      rw [i1]
      simp only [List.getElem?_cons_zero, g1.mpr h0, if_true]
      exact ⟨_, rfl⟩
    · intro h0
      show ∃ s', s.takeReceiver k 0 = some (.unit, s')
      unfold Chan.takeReceiver
      rw [i1]
      simp only [List.getElem?_cons_zero, g2.mpr h0, if_true]
      exact ⟨_, rfl⟩

example : ∃ s tr, ChanRun .reqTrailers (V := Nat) s tr ∧ (s.step .reqTrailers (.takeSender 0)).map (·.1) = some .unit :=
  ⟨_, _, Chan.exec_run .init (as := []) rfl, by decide +kernel⟩

/-- A cloned request has neither half: asking it panics. -/
theorem C13_cloned_request (h : ChanRun .reqTrailers s tr) (i : Nat) :
    (s.step .reqTrailers (.takeSender (i + 1)) = some (o, s') → o = .panic) ∧
      (s.step .reqTrailers (.takeReceiver (i + 1)) = some (o, s') → o = .panic) := by
  obtain ⟨⟨x, xs, i1, i2, -, -⟩, -, -⟩ := Chan.inv2_run h (Or.inl rfl)
  have key : ∀ e, s.msgs[i + 1]? = some (some e) → e.sender = false ∧ e.receiver = false := by
    intro e he
    rw [i1, List.getElem?_cons_succ] at he
    exact i2 e (List.mem_of_getElem? he)
  constructor
  · intro hs
    rcases Chan.step_cases hs with ⟨i', e, h, he, ⟨hb, -, -⟩ | ⟨-, rfl, -⟩⟩ | ⟨_, _, _, h, -⟩ | ⟨_, h, -⟩ | ⟨_, _, h, -⟩ |
      ⟨_, _, h, -⟩ | ⟨h, -⟩ | ⟨h, -⟩ | ⟨h, -⟩ | ⟨_, _, h, -⟩ | ⟨_, _, h, -⟩
    all_goals cases h
    · rw [(key e he).1] at hb; cases hb
    · rfl
  · intro hs
    rcases Chan.step_cases hs with ⟨_, _, h, -⟩ | ⟨i', e, f, h, he, -, ⟨hb, -, -⟩ | ⟨-, rfl, -⟩⟩ | ⟨_, h, -⟩ | ⟨_, _, h, -⟩ |
      ⟨_, _, h, -⟩ | ⟨h, -⟩ | ⟨h, -⟩ | ⟨h, -⟩ | ⟨_, _, h, -⟩ | ⟨_, _, h, -⟩
    all_goals cases h
    · rw [(key e he).2] at hb; cases hb
    · rfl

/-- A complete exchange, with the receiver waiting first and a cloned request on the side. -/
def exampleRun : List (ChanAct Nat) :=
  [.takeSender 0, .clone 0, .takeReceiver 0, .pollRecv, .startSend 7, .pollSend 0, .dropMsg 0, .pollRecv, .pollRecv]

example : ((Chan.exec .reqTrailers Chan.init [] exampleRun).map fun r => r.2.map (·.2)) =
    some [.unit, .unit, .unit, .pending, .unit, .completed 7, .unit, .ready (some 7), .ready none] := by decide +kernel
example : ∃ s tr, ChanRun .reqTrailers (V := Nat) s tr ∧ CloneSafe .reqTrailers tr ∧ receivedOf tr = [7] :=
  ⟨_, _, Chan.exec_run .init (as := exampleRun) rfl, Or.inl rfl, by decide +kernel⟩

/-! ### C14 -/

/-- For a request and all its clones, and for a response that is not cloned, at most one sender and one receiver are
ever handed out. (Missing: cloned responses, where the claim is false: `C14_violated_trailers`,
`C14_violated_upgrade`.) -/
theorem C14_at_most_one_partial (h : ChanRun k s tr) (hc : CloneSafe k tr) : sendersOut tr ≤ 1 ∧ receiversOut tr ≤ 1 :=
  ⟨(Chan.inv2_run h hc).outS, (Chan.inv2_run h hc).outR⟩

example : ∃ s tr, ChanRun .reqTrailers (V := Nat) s tr ∧ CloneSafe .reqTrailers tr ∧ sendersOut tr = 1 ∧ receiversOut tr = 1 :=
  ⟨_, _, Chan.exec_run .init (as := [.clone 0, .takeSender 0, .takeReceiver 0]) rfl, Or.inl rfl, by decide +kernel, by decide +kernel⟩

/-- With clones there is at most one sender more for each. -/
theorem C14_bound (h : ChanRun k s tr) : sendersOut tr ≤ 1 + clonesMade tr := by
  have : s.msgs.countP Chan.hasSender + sendersOut tr ≤ 1 + clonesMade tr := by
    induction h with
    | init => simp [Chan.init, Chan.hasSender, sendersOut]
    | @step s s' tr a o hr hs ih =>
      rw [sendersOut_append, clonesMade_append, Chan.sendersOut_one, Chan.clonesMade_one]
      rcases Chan.step_cases hs with ⟨i, e, rfl, he, ⟨hb, rfl, rfl⟩ | ⟨hb, rfl, rfl⟩⟩ |
        ⟨i, e, f, rfl, he, -, ⟨hb, rfl, rfl⟩ | ⟨hb, rfl, rfl⟩⟩ |
        ⟨v, rfl, h0, rfl, rfl⟩ | ⟨j, v, rfl, hj, ⟨h0, rfl, rfl⟩ | ⟨-, hq, rfl, rfl⟩ | ⟨-, -, rfl, rfl⟩⟩ |
        ⟨j, v, rfl, hj, rfl, rfl⟩ | ⟨rfl, h0, rfl, rfl⟩ |
        ⟨rfl, -, ⟨v, q, hq, rfl, rfl⟩ | ⟨-, -, rfl, rfl⟩ | ⟨-, -, rfl, rfl⟩⟩ | ⟨rfl, -, rfl, rfl⟩ |
        ⟨i, e, rfl, he, rfl, rfl⟩ | ⟨i, e, rfl, he, rfl, rfl⟩
      all_goals simp only
      any_goals omega
      · have := countP_set_add Chan.hasSender s.msgs i _ (some { e with sender := false, flag := true }) he
        simp only [Chan.hasSender, hb, Bool.toNat_true, Bool.toNat_false] at this
        omega
      · have := countP_set_add Chan.hasSender s.msgs i _ (some { e with flag := true }) he
        simp only [Chan.hasSender] at this
        omega
      · have := countP_set_add Chan.hasSender s.msgs i _ (some { e with receiver := false, flag := f }) he
        simp only [Chan.hasSender] at this
        omega
      · have := countP_set_add Chan.hasSender s.msgs i _ (some { e with flag := f }) he
        simp only [Chan.hasSender] at this
        omega
      · have := countP_set_add Chan.hasSender s.msgs i _ none he
        simp only [Chan.hasSender, Bool.toNat_false] at this
        omega
      · rw [List.countP_append]
        have : ∀ x : Option Ends, [x].countP Chan.hasSender ≤ 1 := by
          intro x
          exact Nat.le_trans (List.countP_le_length (p := Chan.hasSender)) (by simp)
        have := this (some (if k = .reqTrailers then ⟨false, false, false⟩ else { e with flag := false }))
        omega
  omega

example : ∃ s tr, ChanRun .respTrailers (V := Nat) s tr ∧ sendersOut tr = 2 ∧ clonesMade tr = 1 :=
  ⟨_, _, Chan.exec_run .init (as := [.clone 0, .takeSender 0, .takeSender 1]) rfl, by decide +kernel, by decide +kernel⟩

/-- Cloning a response before asking for the sender. -/
def cloneRun : List (ChanAct Nat) :=
  [.clone 0, .takeSender 0, .takeSender 1, .takeReceiver 0, .startSend 1, .startSend 2, .pollSend 0, .pollSend 0]

/-- A response and its clone both hand out a trailer sender, and the second send waits. -/
theorem C14_violated_trailers : ∃ (s : Chan Nat) (tr : Trace Nat), ChanRun .respTrailers s tr ∧ sendersOut tr = 2 ∧
    (ChanAct.pollSend 0, ChanObs.pending) ∈ tr :=
  ⟨_, _, Chan.exec_run .init (as := cloneRun) rfl, by decide +kernel, by decide +kernel⟩

/-- The same for upgrades. -/
theorem C14_violated_upgrade : ∃ (s : Chan Nat) (tr : Trace Nat), ChanRun .respUpgrade s tr ∧ sendersOut tr = 2 ∧
    (ChanAct.pollSend 0, ChanObs.pending) ∈ tr :=
  ⟨_, _, Chan.exec_run .init (as := cloneRun) rfl, by decide +kernel, by decide +kernel⟩

/-! ### C65 -/

/-- `has_trailers` is true exactly for the messages whose sender was asked for; `has_upgrade` also for those whose
receiver was asked for. A clone starts with it false. -/
theorem C65_flag (h : ChanRun k s tr) (i : Nat) (e : Ends) (hi : s.msgs[i]? = some (some e)) :
    e.flag = true ↔ (∃ o, (ChanAct.takeSender i, o) ∈ tr) ∨
      (k = .respUpgrade ∧ ∃ o, (ChanAct.takeReceiver i, o) ∈ tr) := by
  have key : (∀ (i : Nat) o, (ChanAct.takeSender i, o) ∈ tr ∨ (ChanAct.takeReceiver i, o) ∈ tr → i < s.msgs.length) ∧
      ∀ (i : Nat) (e : Ends), s.msgs[i]? = some (some e) → (e.flag = true ↔ (∃ o, (ChanAct.takeSender i, o) ∈ tr) ∨
      (k = .respUpgrade ∧ ∃ o, (ChanAct.takeReceiver i, o) ∈ tr)) := by
    clear hi
    induction h with
    | init =>
      refine ⟨fun i o h => (by simp at h), ?_⟩
      intro i e he
      cases i with
      | zero => simp [Chan.init] at he; subst he; simp
      | succ i => simp [Chan.init] at he
    | @step s s' tr a o hr hs ih =>
      obtain ⟨ih1, ih2⟩ := ih
      have hsame : ∀ (i' : Nat) (e : Ends), s.msgs[i']? = some (some e) → (∀ j, a ≠ .takeSender j) →
          (∀ j, a ≠ .takeReceiver j) → (e.flag = true ↔ (∃ o', (ChanAct.takeSender i', o') ∈ tr ++ [(a, o)]) ∨
            (k = .respUpgrade ∧ ∃ o', (ChanAct.takeReceiver i', o') ∈ tr ++ [(a, o)])) := by
        intro i' e he h1 h2
        rw [ih2 i' e he]
        simp only [List.mem_append, List.mem_singleton, Prod.mk.injEq, (h1 i').symm, (h2 i').symm, false_and, or_false]
      have hlen : (∀ j, a ≠ .takeSender j) → (∀ j, a ≠ .takeReceiver j) → s.msgs.length ≤ s'.msgs.length →
          ∀ (i : Nat) o', (ChanAct.takeSender i, o') ∈ tr ++ [(a, o)] ∨ (ChanAct.takeReceiver i, o') ∈ tr ++ [(a, o)] →
            i < s'.msgs.length := by
        intro h1 h2 hl i o' hm
        simp only [List.mem_append, List.mem_singleton, Prod.mk.injEq, (h1 i).symm, (h2 i).symm, false_and, or_false] at hm
        exact Nat.lt_of_lt_of_le (ih1 i o' hm) hl
      rcases Chan.step_cases hs with ⟨i', e', rfl, he', ⟨hb, rfl, rfl⟩ | ⟨hb, rfl, rfl⟩⟩ |
        ⟨i', e', f, rfl, he', hf, ⟨hb, rfl, rfl⟩ | ⟨hb, rfl, rfl⟩⟩ |
        ⟨v, rfl, h0, rfl, rfl⟩ | ⟨j, v, rfl, hj, ⟨h0, rfl, rfl⟩ | ⟨-, hq, rfl, rfl⟩ | ⟨-, -, rfl, rfl⟩⟩ |
        ⟨j, v, rfl, hj, rfl, rfl⟩ | ⟨rfl, h0, rfl, rfl⟩ |
        ⟨rfl, -, ⟨v, q, hq, rfl, rfl⟩ | ⟨-, -, rfl, rfl⟩ | ⟨-, -, rfl, rfl⟩⟩ | ⟨rfl, -, rfl, rfl⟩ |
        ⟨i', e', rfl, he', rfl, rfl⟩ | ⟨i', e', rfl, he', rfl, rfl⟩
      any_goals exact ⟨hlen (by simp) (by simp) (Nat.le_refl _), fun i e he => hsame i e he (by simp) (by simp)⟩
      iterate 2
        obtain ⟨hlt, -⟩ := List.getElem?_eq_some_iff.mp he'
        constructor
        · intro j o' hm
          simp only [List.length_set]
          simp only [List.mem_append, List.mem_singleton, Prod.mk.injEq, ChanAct.takeSender.injEq, reduceCtorEq,
            false_and, or_false] at hm
          rcases hm with (hm | ⟨rfl, -⟩) | hm
          · exact ih1 j o' (Or.inl hm)
          · exact hlt
          · exact ih1 j o' (Or.inr hm)
        · intro j e he
          by_cases hj : i' = j
          · subst hj
            simp only [List.getElem?_set_self hlt, Option.some.injEq] at he
            subst he
            simp only [true_iff]
            exact Or.inl ⟨_, List.mem_append_right _ (List.mem_singleton.mpr rfl)⟩
          · simp only [List.getElem?_set_ne hj] at he
            rw [ih2 j e he]
            simp [Ne.symm hj]
      iterate 2
        obtain ⟨hlt, -⟩ := List.getElem?_eq_some_iff.mp he'
        constructor
        · intro j o' hm
          simp only [List.length_set]
          simp only [List.mem_append, List.mem_singleton, Prod.mk.injEq, ChanAct.takeReceiver.injEq, reduceCtorEq,
            false_and, or_false] at hm
          rcases hm with hm | (hm | ⟨rfl, -⟩)
          · exact ih1 j o' (Or.inl hm)
          · exact ih1 j o' (Or.inr hm)
          · exact hlt
        · intro j e he
          by_cases hj : i' = j
          · subst hj
            simp only [List.getElem?_set_self hlt, Option.some.injEq] at he
            subst he
            rw [hf]
            simp only [Bool.or_eq_true, beq_iff_eq, ih2 i' e' he']
            simp only [List.mem_append, List.mem_singleton, Prod.mk.injEq, reduceCtorEq, false_and, or_false, true_and]
            constructor
            · rintro ((h | h) | h)
              · exact Or.inl h
              · exact Or.inr ⟨h.1, h.2.imp fun _ => Or.inl⟩
              · exact Or.inr ⟨h, _, Or.inr rfl⟩
            · rintro (h | h)
              · exact Or.inl (Or.inl h)
              · exact Or.inr h.1
          · simp only [List.getElem?_set_ne hj] at he
            rw [ih2 j e he]
            simp [Ne.symm hj]
      · -- dropMsg
        refine ⟨hlen (by simp) (by simp) (by simp), ?_⟩
        intro j e he
        obtain ⟨hlt, -⟩ := List.getElem?_eq_some_iff.mp he'
        by_cases hj : i' = j
        · subst hj
          simp [List.getElem?_set_self hlt] at he
        · simp only [List.getElem?_set_ne hj] at he
          exact hsame j e he (by simp) (by simp)
      · -- clone
        refine ⟨hlen (by simp) (by simp) (by simp), ?_⟩
        intro j e he
        simp only at he
        by_cases hlt : j < s.msgs.length
        · rw [List.getElem?_append_left hlt] at he
          exact hsame j e he (by simp) (by simp)
        · rw [List.getElem?_append_right (by omega)] at he
          have hj : j - s.msgs.length = 0 := by
            obtain ⟨hl, -⟩ := List.getElem?_eq_some_iff.mp he
            simp at hl
            omega
          rw [hj] at he
          simp only [List.getElem?_cons_zero, Option.some.injEq] at he
          have hfl : e.flag = false := by
            rw [← he]
            split <;> rfl
          rw [hfl]
          simp only [Bool.false_eq_true, false_iff, not_or, not_and]
          simp only [List.mem_append, List.mem_singleton, Prod.mk.injEq, reduceCtorEq, false_and, or_false]
          constructor
          · rintro ⟨o', ho'⟩
            exact hlt (ih1 j o' (Or.inl ho'))
          · rintro - ⟨o', ho'⟩
            exact hlt (ih1 j o' (Or.inr ho'))
  exact key.2 i e hi

example : ∃ (s : Chan Nat) (tr : Trace Nat), ChanRun .respTrailers s tr ∧ s.msgs[1]? = some (some ⟨false, true, true⟩) ∧
    s.msgs[2]? = some (some ⟨false, true, false⟩) :=
  ⟨_, _, Chan.exec_run .init (as := [.clone 0, .takeSender 1, .clone 1]) rfl, by decide +kernel, by decide +kernel⟩

end HT
