import Verif.Spec.Channel
import Mathlib.Data.List.Perm.Basic

/-! Invariants of the trailer and upgrade channels. -/

namespace HT
open Spec

variable {V : Type}

theorem countP_set_add {α : Type} (p : α → Bool) (l : List α) (i : Nat) (x y : α) (h : l[i]? = some x) :
    (l.set i y).countP p + (p x).toNat = l.countP p + (p y).toNat := by
  induction l generalizing i with
  | nil => simp at h
  | cons a l ih =>
    cases i with
    | zero =>
      simp only [List.getElem?_cons_zero, Option.some.injEq] at h
      subst h
      rw [List.set_cons_zero, List.countP_cons, List.countP_cons]
      cases p a <;> cases p y <;> simp
    | succ i =>
      simp only [List.getElem?_cons_succ] at h
      have := ih i h
      rw [List.set_cons_succ, List.countP_cons, List.countP_cons]
      omega

theorem sentOf_append (a b : Trace V) : sentOf (a ++ b) = sentOf a ++ sentOf b := List.filterMap_append
theorem completedOf_append (a b : Trace V) : completedOf (a ++ b) = completedOf a ++ completedOf b :=
  List.filterMap_append
theorem cancelledOf_append (a b : Trace V) : cancelledOf (a ++ b) = cancelledOf a ++ cancelledOf b :=
  List.filterMap_append
theorem receivedOf_append (a b : Trace V) : receivedOf (a ++ b) = receivedOf a ++ receivedOf b :=
  List.filterMap_append
theorem sendersOut_append (a b : Trace V) : sendersOut (a ++ b) = sendersOut a + sendersOut b := List.countP_append
theorem receiversOut_append (a b : Trace V) : receiversOut (a ++ b) = receiversOut a + receiversOut b :=
  List.countP_append
theorem sendersDropped_append (a b : Trace V) : sendersDropped (a ++ b) = sendersDropped a + sendersDropped b :=
  List.countP_append
theorem clonesMade_append (a b : Trace V) : clonesMade (a ++ b) = clonesMade a + clonesMade b := List.countP_append

namespace Chan

/-- Conservation of senders and values, for every kind of channel and with clones. -/
structure Inv (s : Chan V) (tr : Trace V) : Prop where
  senders : s.senders + (sentOf tr).length + sendersDropped tr = sendersOut tr
  sending : (sentOf tr).Perm (s.sending ++ cancelledOf tr ++ completedOf tr)
  queued : ∃ lost, (completedOf tr).Perm (lost ++ s.queue ++ receivedOf tr) ∧
    (lost ≠ [] → s.receiverHandles = 0)
  bound : s.queue.length ≤ 1

/-- What a step can be, with its effect. -/
theorem step_cases {k : ChanKind} {s s' : Chan V} {a : ChanAct V} {o : ChanObs V} (h : s.step k a = some (o, s')) :
    (∃ i e, a = .takeSender i ∧ s.msgs[i]? = some (some e) ∧
      ((e.sender = true ∧ o = .unit ∧ s' = { s with
          msgs := s.msgs.set i (some { e with sender := false, flag := true }), senders := s.senders + 1 }) ∨
       (e.sender = false ∧ o = .panic ∧ s' = { s with msgs := s.msgs.set i (some { e with flag := true }) }))) ∨
    (∃ i e f, a = .takeReceiver i ∧ s.msgs[i]? = some (some e) ∧ f = (e.flag || k == .respUpgrade) ∧
      ((e.receiver = true ∧ o = .unit ∧ s' = { s with
          msgs := s.msgs.set i (some { e with receiver := false, flag := f }), receivers := s.receivers + 1 }) ∨
       (e.receiver = false ∧ o = .panic ∧ s' = { s with msgs := s.msgs.set i (some { e with flag := f }) }))) ∨
    (∃ v, a = .startSend v ∧ s.senders ≠ 0 ∧ o = .unit ∧
      s' = { s with senders := s.senders - 1, sending := s.sending ++ [v] }) ∨
    (∃ j v, a = .pollSend j ∧ s.sending[j]? = some v ∧
      ((s.receiverHandles = 0 ∧ o = .completed v ∧ s' = { s with sending := s.sending.eraseIdx j }) ∨
       (s.receiverHandles ≠ 0 ∧ s.queue = [] ∧ o = .completed v ∧
          s' = { s with sending := s.sending.eraseIdx j, queue := [v] }) ∨
       (s.receiverHandles ≠ 0 ∧ s.queue ≠ [] ∧ o = .pending ∧ s' = s))) ∨
    (∃ j v, a = .dropSend j ∧ s.sending[j]? = some v ∧ o = .cancelled v ∧
      s' = { s with sending := s.sending.eraseIdx j }) ∨
    (a = .dropSender ∧ s.senders ≠ 0 ∧ o = .unit ∧ s' = { s with senders := s.senders - 1 }) ∨
    (a = .pollRecv ∧ s.receivers ≠ 0 ∧
      ((∃ v q, s.queue = v :: q ∧ o = .ready (some v) ∧ s' = { s with queue := q }) ∨
       (s.queue = [] ∧ s.senderHandles = 0 ∧ o = .ready none ∧ s' = s) ∨
       (s.queue = [] ∧ s.senderHandles ≠ 0 ∧ o = .pending ∧ s' = s))) ∨
    (a = .dropReceiver ∧ s.receivers ≠ 0 ∧ o = .unit ∧ s' = { s with receivers := s.receivers - 1 }) ∨
    (∃ i e, a = .dropMsg i ∧ s.msgs[i]? = some (some e) ∧ o = .unit ∧ s' = { s with msgs := s.msgs.set i none }) ∨
    (∃ i e, a = .clone i ∧ s.msgs[i]? = some (some e) ∧ o = .unit ∧ s' = { s with
      msgs := s.msgs ++ [some (if k = .reqTrailers then ⟨false, false, false⟩ else { e with flag := false })] }) := by
  cases a with
  | takeSender i =>
    left
    change s.takeSender i = _ at h
    unfold takeSender at h
    split at h
    · rename_i e he
      refine ⟨i, e, rfl, he, ?_⟩
      cases hs : e.sender with
      | true =>
        rw [hs] at h
        simp only [if_true, Option.some.injEq, Prod.mk.injEq] at h
        exact Or.inl ⟨rfl, h.1.symm, h.2.symm⟩
      | false =>
        rw [hs] at h
        simp only [Bool.false_eq_true, if_false, Option.some.injEq, Prod.mk.injEq] at h
        exact Or.inr ⟨rfl, h.1.symm, h.2.symm⟩
    · cases h
  | takeReceiver i =>
    right; left
    change s.takeReceiver k i = _ at h
    unfold takeReceiver at h
    split at h
    · rename_i e he
      refine ⟨i, e, _, rfl, he, rfl, ?_⟩
      cases hs : e.receiver with
      | true =>
        rw [hs] at h
        simp only [if_true, Option.some.injEq, Prod.mk.injEq] at h
        exact Or.inl ⟨rfl, h.1.symm, h.2.symm⟩
      | false =>
        rw [hs] at h
        simp only [Bool.false_eq_true, if_false, Option.some.injEq, Prod.mk.injEq] at h
        exact Or.inr ⟨rfl, h.1.symm, h.2.symm⟩
    · cases h
  | startSend v =>
    right; right; left
    change s.startSend v = _ at h
    unfold startSend at h
    by_cases hs : s.senders = 0
    · simp [hs] at h
    · simp only [hs, if_false, Option.some.injEq, Prod.mk.injEq] at h
      exact ⟨v, rfl, hs, h.1.symm, h.2.symm⟩
  | pollSend j =>
    right; right; right; left
    change s.pollSend j = _ at h
    unfold pollSend at h
    cases hj : s.sending[j]? with
    | none => simp only [hj] at h; cases h
    | some v =>
      simp only [hj] at h
      refine ⟨j, v, rfl, hj, ?_⟩
      by_cases hr : s.receiverHandles = 0
      · simp only [hr, if_true, Option.some.injEq, Prod.mk.injEq] at h
        exact Or.inl ⟨hr, h.1.symm, h.2.symm⟩
      · simp only [hr, if_false] at h
        by_cases hq : s.queue = []
        · simp only [hq, List.length_nil, Nat.zero_lt_one, if_true, List.nil_append, Option.some.injEq,
            Prod.mk.injEq] at h
          exact Or.inr (Or.inl ⟨hr, hq, h.1.symm, h.2.symm⟩)
        · have : ¬ s.queue.length < 1 := by
            have := List.length_pos_of_ne_nil hq
            omega
          simp only [this, if_false, Option.some.injEq, Prod.mk.injEq] at h
          exact Or.inr (Or.inr ⟨hr, hq, h.1.symm, h.2.symm⟩)
  | dropSend j =>
    right; right; right; right; left
    change s.dropSend j = _ at h
    unfold dropSend at h
    cases hj : s.sending[j]? with
    | none => simp only [hj] at h; cases h
    | some v =>
      simp only [hj, Option.some.injEq, Prod.mk.injEq] at h
      exact ⟨j, v, rfl, hj, h.1.symm, h.2.symm⟩
  | dropSender =>
    right; right; right; right; right; left
    change s.dropSender = _ at h
    unfold dropSender at h
    by_cases hs : s.senders = 0
    · simp [hs] at h
    · simp only [hs, if_false, Option.some.injEq, Prod.mk.injEq] at h
      exact ⟨rfl, hs, h.1.symm, h.2.symm⟩
  | pollRecv =>
    right; right; right; right; right; right; left
    change s.pollRecv = _ at h
    unfold pollRecv at h
    by_cases hs : s.receivers = 0
    · simp [hs] at h
    · simp only [hs, if_false] at h
      refine ⟨rfl, hs, ?_⟩
      cases hq : s.queue with
      | cons v q =>
        simp only [hq, Option.some.injEq, Prod.mk.injEq] at h
        exact Or.inl ⟨v, q, rfl, h.1.symm, h.2.symm⟩
      | nil =>
        simp only [hq] at h
        by_cases hh : s.senderHandles = 0
        · simp only [hh, if_true, Option.some.injEq, Prod.mk.injEq] at h
          exact Or.inr (Or.inl ⟨rfl, hh, h.1.symm, h.2.symm⟩)
        · simp only [hh, if_false, Option.some.injEq, Prod.mk.injEq] at h
          exact Or.inr (Or.inr ⟨rfl, hh, h.1.symm, h.2.symm⟩)
  | dropReceiver =>
    right; right; right; right; right; right; right; left
    change s.dropReceiver = _ at h
    unfold dropReceiver at h
    by_cases hs : s.receivers = 0
    · simp [hs] at h
    · simp only [hs, if_false, Option.some.injEq, Prod.mk.injEq] at h
      exact ⟨rfl, hs, h.1.symm, h.2.symm⟩
  | dropMsg i =>
    right; right; right; right; right; right; right; right; left
    change s.dropMsg i = _ at h
    unfold dropMsg at h
    split at h
    · rename_i e he
      simp only [Option.some.injEq, Prod.mk.injEq] at h
      exact ⟨i, e, rfl, he, h.1.symm, h.2.symm⟩
    · cases h
  | clone i =>
    right; right; right; right; right; right; right; right; right
    change s.clone k i = _ at h
    unfold clone at h
    split at h
    · rename_i e he
      simp only [Option.some.injEq, Prod.mk.injEq] at h
      exact ⟨i, e, rfl, he, h.1.symm, h.2.symm⟩
    · cases h

theorem countP_pos_of_get {p : Option Ends → Bool} {l : List (Option Ends)} {i : Nat} {x : Option Ends}
    (h : l[i]? = some x) (hp : p x = true) : l.countP p ≠ 0 := by
  rw [Nat.ne_zero_iff_zero_lt, List.countP_pos_iff]
  exact ⟨x, List.mem_of_getElem? h, hp⟩

/-- A channel without receivers never gets one again. -/
theorem receiverHandles_zero {k : ChanKind} {s s' : Chan V} {a : ChanAct V} {o : ChanObs V}
    (h : s.step k a = some (o, s')) (h0 : s.receiverHandles = 0) : s'.receiverHandles = 0 := by
  unfold receiverHandles at h0
  have h1 : s.msgs.countP hasReceiver = 0 := by omega
  have h2 : s.receivers = 0 := by omega
  have key : ∀ (i : Nat) (e : Ends), s.msgs[i]? = some (some e) → e.receiver = false := by
    intro i e he
    cases hr : e.receiver with
    | false => rfl
    | true => exact absurd h1 (countP_pos_of_get he hr)
  have keyset : ∀ (i : Nat) (e : Ends) y, s.msgs[i]? = some (some e) → hasReceiver y = false →
      (s.msgs.set i y).countP hasReceiver = 0 := by
    intro i e y he hy
    have := countP_set_add hasReceiver s.msgs i (some e) y he
    rw [hy, h1, show hasReceiver (some e) = false from key i e he] at this
    simpa using this
  rcases step_cases h with ⟨i, e, -, he, ⟨-, -, rfl⟩ | ⟨-, -, rfl⟩⟩ | ⟨i, e, f, -, he, -, ⟨hr, -, rfl⟩ | ⟨hr, -, rfl⟩⟩ |
    ⟨v, -, -, -, rfl⟩ | ⟨j, v, -, -, ⟨-, -, rfl⟩ | ⟨-, -, -, rfl⟩ | ⟨-, -, -, rfl⟩⟩ | ⟨j, v, -, -, -, rfl⟩ |
    ⟨-, -, -, rfl⟩ | ⟨-, hr, -⟩ | ⟨-, hr, -, -⟩ | ⟨i, e, -, he, -, rfl⟩ | ⟨i, e, -, he, -, rfl⟩
  · simp only [receiverHandles]
    rw [keyset i e (some { e with sender := false, flag := true }) he (key i e he), h2]
  · simp only [receiverHandles]
    rw [keyset i e (some { e with flag := true }) he (key i e he), h2]
  · rw [key i e he] at hr; cases hr
  · simp only [receiverHandles]
    rw [keyset i e (some { e with flag := f }) he hr, h2]
  · simp [receiverHandles, h1, h2]
  · simp [receiverHandles, h1, h2]
  · simp [receiverHandles, h1, h2]
  · simp [receiverHandles, h1, h2]
  · simp [receiverHandles, h1, h2]
  · simp [receiverHandles, h1, h2]
  · exact absurd h2 hr
  · exact absurd h2 hr
  · simp only [receiverHandles]
    rw [keyset i e _ he rfl, h2]
  · simp only [receiverHandles, List.countP_append, h1, h2]
    by_cases hk : k = .reqTrailers
    · simp [hk, hasReceiver]
    · simp [hk, hasReceiver, key i e he]

theorem perm_erase {l : List V} {j : Nat} {v : V} (h : l[j]? = some v) : l.Perm (v :: l.eraseIdx j) := by
  obtain ⟨hj, hv⟩ := List.getElem?_eq_some_iff.mp h
  rw [← hv]
  exact (List.getElem_cons_eraseIdx_perm hj).symm

theorem sentOf_one (a : ChanAct V) (o : ChanObs V) :
    sentOf [(a, o)] = match a with | .startSend v => [v] | _ => [] := by cases a <;> rfl
theorem completedOf_one (a : ChanAct V) (o : ChanObs V) :
    completedOf [(a, o)] = match o with | .completed v => [v] | _ => [] := by cases o <;> rfl
theorem cancelledOf_one (a : ChanAct V) (o : ChanObs V) :
    cancelledOf [(a, o)] = match o with | .cancelled v => [v] | _ => [] := by cases o <;> rfl
theorem receivedOf_one (a : ChanAct V) (o : ChanObs V) :
    receivedOf [(a, o)] = match o with | .ready (some v) => [v] | _ => [] := by
  rcases o with _ | _ | _ | _ | _ | (_ | _) <;> rfl
theorem sendersOut_one (a : ChanAct V) (o : ChanObs V) :
    sendersOut [(a, o)] = match a, o with | .takeSender _, .unit => 1 | _, _ => 0 := by cases a <;> cases o <;> rfl
theorem receiversOut_one (a : ChanAct V) (o : ChanObs V) :
    receiversOut [(a, o)] = match a, o with | .takeReceiver _, .unit => 1 | _, _ => 0 := by cases a <;> cases o <;> rfl
theorem sendersDropped_one (a : ChanAct V) (o : ChanObs V) :
    sendersDropped [(a, o)] = match a with | .dropSender => 1 | _ => 0 := by cases a <;> rfl
theorem clonesMade_one (a : ChanAct V) (o : ChanObs V) :
    clonesMade [(a, o)] = match a with | .clone _ => 1 | _ => 0 := by cases a <;> rfl

theorem inv_run {k : ChanKind} {s : Chan V} {tr : Trace V} (h : ChanRun k s tr) : Inv s tr := by
  induction h with
  | init => exact ⟨rfl, by simp [sentOf, cancelledOf, completedOf, init], ⟨[], by simp [completedOf, receivedOf, init], by simp⟩,
      by simp [init]⟩
  | @step s s' tr a o hr hs ih =>
    obtain ⟨i1, i2, ⟨lost, i3, i4⟩, i5⟩ := ih
    have i4' : lost ≠ [] → s'.receiverHandles = 0 := fun hl => receiverHandles_zero hs (i4 hl)
    rcases step_cases hs with ⟨i, e, rfl, he, ⟨-, rfl, rfl⟩ | ⟨-, rfl, rfl⟩⟩ |
      ⟨i, e, f, rfl, he, -, ⟨-, rfl, rfl⟩ | ⟨-, rfl, rfl⟩⟩ |
      ⟨v, rfl, h0, rfl, rfl⟩ | ⟨j, v, rfl, hj, ⟨h0, rfl, rfl⟩ | ⟨-, hq, rfl, rfl⟩ | ⟨-, -, rfl, rfl⟩⟩ |
      ⟨j, v, rfl, hj, rfl, rfl⟩ | ⟨rfl, h0, rfl, rfl⟩ |
      ⟨rfl, -, ⟨v, q, hq, rfl, rfl⟩ | ⟨-, -, rfl, rfl⟩ | ⟨-, -, rfl, rfl⟩⟩ | ⟨rfl, -, rfl, rfl⟩ |
      ⟨i, e, rfl, he, rfl, rfl⟩ | ⟨i, e, rfl, he, rfl, rfl⟩ <;>
    refine ⟨?_, ?_, ?_, ?_⟩ <;>
    try simp only [sentOf_append, completedOf_append, cancelledOf_append, receivedOf_append, sendersOut_append,
      sendersDropped_append, sentOf_one, completedOf_one, cancelledOf_one, receivedOf_one, sendersOut_one,
      sendersDropped_one, List.append_nil, List.length_append, List.length_cons, List.length_nil]
    all_goals first
      | exact i2
      | exact ⟨lost, i3, i4'⟩
      | exact i5
      | omega
      | skip
    all_goals
      classical
      simp only [List.perm_iff_count, List.count_append] at i2 i3 ⊢
      try have hj' := List.perm_iff_count.mp (perm_erase hj)
      try simp only [List.count_cons] at hj'
    · intro a; have := i2 a; simp only [List.count_cons, List.count_nil]; omega
    · intro a; have := i2 a; have := hj' a; simp only [List.count_cons, List.count_nil]; omega
    · refine ⟨lost ++ [v], ?_, fun _ => receiverHandles_zero hs h0⟩
      intro a; have := i3 a; simp only [List.count_cons, List.count_nil, List.count_append]; omega
    · intro a; have := i2 a; have := hj' a; simp only [List.count_cons, List.count_nil]; omega
    · refine ⟨lost, ?_, i4'⟩
      intro a; have := i3 a; rw [hq] at this; simp only [List.count_cons, List.count_nil] at this ⊢; omega
    · intro a; have := i2 a; have := hj' a; simp only [List.count_cons, List.count_nil]; omega
    · refine ⟨lost, ?_, i4'⟩
      intro a; have := i3 a; rw [hq] at this; simp only [List.count_cons, List.count_nil] at this ⊢; omega
    · rw [hq, List.length_cons] at i5
      omega

/-- With requests, or without clones, only the original message has ends to give away. -/
structure Inv2 (s : Chan V) (tr : Trace V) : Prop where
  first : ∃ x xs, s.msgs = x :: xs ∧ (∀ e, some e ∈ xs → e.sender = false ∧ e.receiver = false) ∧
    (x = none ↔ OriginalDropped tr) ∧
    ∀ e, x = some e → (e.sender = true ↔ sendersOut tr = 0) ∧ (e.receiver = true ↔ receiversOut tr = 0)
  outS : sendersOut tr ≤ 1
  outR : receiversOut tr ≤ 1

theorem cloneSafe_prefix {k : ChanKind} {tr : Trace V} {x : ChanAct V × ChanObs V} (h : CloneSafe k (tr ++ [x])) :
    CloneSafe k tr := by
  rcases h with h | h
  · exact Or.inl h
  · rw [clonesMade_append] at h
    exact Or.inr (by omega)

theorem originalDropped_append (tr : Trace V) (a : ChanAct V) (o : ChanObs V) :
    OriginalDropped (tr ++ [(a, o)]) ↔ OriginalDropped tr ∨ a = .dropMsg 0 := by
  unfold OriginalDropped
  constructor
  · rintro ⟨o', h⟩
    rcases List.mem_append.mp h with h | h
    · exact Or.inl ⟨o', h⟩
    · simp only [List.mem_singleton, Prod.mk.injEq] at h
      exact Or.inr h.1.symm
  · rintro (⟨o', h⟩ | rfl)
    · exact ⟨o', List.mem_append_left _ h⟩
    · exact ⟨o, by simp⟩

theorem inv2_run {k : ChanKind} {s : Chan V} {tr : Trace V} (h : ChanRun k s tr) (hc : CloneSafe k tr) :
    Inv2 s tr := by
  induction h with
  | init =>
    refine ⟨⟨some ⟨true, true, false⟩, [], rfl, by simp, ⟨by simp, ?_⟩, ?_⟩, by simp [sendersOut], by simp [receiversOut]⟩
    · rintro ⟨o, ho⟩; cases ho
    · rintro e he; cases he; simp [sendersOut, receiversOut]
  | @step s s' tr a o hr hs ih =>
    obtain ⟨⟨x, xs, i1, i2, i3, i4⟩, i5, i6⟩ := ih (cloneSafe_prefix hc)
    have hset : ∀ (i : Nat) (e e' : Ends), s.msgs[i]? = some (some e) →
        (e'.sender = true → e.sender = true) → (e'.receiver = true → e.receiver = true) →
        (i = 0 ∧ x = some e ∧ s.msgs.set i (some e') = some e' :: xs) ∨
        (i ≠ 0 ∧ e.sender = false ∧ e.receiver = false ∧ ∃ ys, s.msgs.set i (some e') = x :: ys ∧
          ∀ e, some e ∈ ys → e.sender = false ∧ e.receiver = false) := by
      intro i e e' he h1 h2
      rw [i1] at he ⊢
      cases i with
      | zero =>
        left
        simp only [List.getElem?_cons_zero, Option.some.injEq] at he
        exact ⟨rfl, he, rfl⟩
      | succ i =>
        right
        simp only [List.getElem?_cons_succ] at he
        obtain ⟨g1, g2⟩ := i2 e (List.mem_of_getElem? he)
        refine ⟨by simp, g1, g2, _, rfl, ?_⟩
        intro e0 he0
        rcases List.mem_or_eq_of_mem_set he0 with h | h
        · exact i2 e0 h
        · cases h
          constructor
          · cases hh : e'.sender with
            | false => rfl
            | true => rw [h1 hh] at g1; cases g1
          · cases hh : e'.receiver with
            | false => rfl
            | true => rw [h2 hh] at g2; cases g2
    have hother : (∀ i, a ≠ .dropMsg i) → (sendersOut [(a, o)] = 0) → (receiversOut [(a, o)] = 0) →
        s'.msgs = s.msgs → Inv2 s' (tr ++ [(a, o)]) := by
      intro h1 h2 h3 h4
      refine ⟨⟨x, xs, by rw [h4, i1], i2, ?_, ?_⟩, ?_, ?_⟩
      · rw [originalDropped_append, i3]; simp [h1 0]
      · rw [sendersOut_append, receiversOut_append, h2, h3]; exact i4
      · rw [sendersOut_append, h2]; exact i5
      · rw [receiversOut_append, h3]; exact i6
    rcases step_cases hs with ⟨i, e, rfl, he, ⟨hb, rfl, rfl⟩ | ⟨hb, rfl, rfl⟩⟩ |
      ⟨i, e, f, rfl, he, -, ⟨hb, rfl, rfl⟩ | ⟨hb, rfl, rfl⟩⟩ |
      ⟨v, rfl, h0, rfl, rfl⟩ | ⟨j, v, rfl, hj, ⟨h0, rfl, rfl⟩ | ⟨-, hq, rfl, rfl⟩ | ⟨-, -, rfl, rfl⟩⟩ |
      ⟨j, v, rfl, hj, rfl, rfl⟩ | ⟨rfl, h0, rfl, rfl⟩ |
      ⟨rfl, -, ⟨v, q, hq, rfl, rfl⟩ | ⟨-, -, rfl, rfl⟩ | ⟨-, -, rfl, rfl⟩⟩ | ⟨rfl, -, rfl, rfl⟩ |
      ⟨i, e, rfl, he, rfl, rfl⟩ | ⟨i, e, rfl, he, rfl, rfl⟩
    · rcases hset i e { e with sender := false, flag := true } he (by simp) (by simp) with ⟨rfl, hx, hm⟩ | ⟨-, g1, -⟩
      · have := (i4 e hx).1.mp hb
        refine ⟨⟨_, xs, hm, i2, ?_, ?_⟩, ?_, ?_⟩
        · rw [originalDropped_append, ← i3, hx]; simp
        · rintro e' ⟨⟩
          rw [sendersOut_append, receiversOut_append, sendersOut_one, receiversOut_one]
          simp only [Bool.false_eq_true, Nat.add_zero, false_iff]
          exact ⟨by omega, (i4 e hx).2⟩
        · rw [sendersOut_append, sendersOut_one, this]; exact Nat.le_refl _
        · rw [receiversOut_append, receiversOut_one]; simpa using i6
      · rw [g1] at hb; cases hb
    · rcases hset i e { e with flag := true } he (by simp) (by simp) with ⟨rfl, hx, hm⟩ | ⟨-, -, -, ys, hm, hy⟩
      · refine ⟨⟨_, xs, hm, i2, ?_, ?_⟩, ?_, ?_⟩
        · rw [originalDropped_append, ← i3, hx]; simp
        · rintro e' ⟨⟩
          rw [sendersOut_append, receiversOut_append, sendersOut_one, receiversOut_one]
          exact i4 e hx
        · rw [sendersOut_append, sendersOut_one]; simpa using i5
        · rw [receiversOut_append, receiversOut_one]; simpa using i6
      · refine ⟨⟨x, ys, hm, hy, ?_, ?_⟩, ?_, ?_⟩
        · rw [originalDropped_append, i3]; simp
        · rw [sendersOut_append, receiversOut_append, sendersOut_one, receiversOut_one]
          exact i4
        · rw [sendersOut_append, sendersOut_one]; simpa using i5
        · rw [receiversOut_append, receiversOut_one]; simpa using i6
    · rcases hset i e { e with receiver := false, flag := f } he (by simp) (by simp) with ⟨rfl, hx, hm⟩ | ⟨-, -, g1, -⟩
      · have := (i4 e hx).2.mp hb
        refine ⟨⟨_, xs, hm, i2, ?_, ?_⟩, ?_, ?_⟩
        · rw [originalDropped_append, ← i3, hx]; simp
        · rintro e' ⟨⟩
          rw [sendersOut_append, receiversOut_append, sendersOut_one, receiversOut_one]
          simp only [Bool.false_eq_true, Nat.add_zero, false_iff]
          exact ⟨(i4 e hx).1, by omega⟩
        · rw [sendersOut_append, sendersOut_one]; simpa using i5
        · rw [receiversOut_append, receiversOut_one, this]; exact Nat.le_refl _
      · rw [g1] at hb; cases hb
    · rcases hset i e { e with flag := f } he (by simp) (by simp) with ⟨rfl, hx, hm⟩ | ⟨-, -, -, ys, hm, hy⟩
      · refine ⟨⟨_, xs, hm, i2, ?_, ?_⟩, ?_, ?_⟩
        · rw [originalDropped_append, ← i3, hx]; simp
        · rintro e' ⟨⟩
          rw [sendersOut_append, receiversOut_append, sendersOut_one, receiversOut_one]
          exact i4 e hx
        · rw [sendersOut_append, sendersOut_one]; simpa using i5
        · rw [receiversOut_append, receiversOut_one]; simpa using i6
      · refine ⟨⟨x, ys, hm, hy, ?_, ?_⟩, ?_, ?_⟩
        · rw [originalDropped_append, i3]; simp
        · rw [sendersOut_append, receiversOut_append, sendersOut_one, receiversOut_one]
          exact i4
        · rw [sendersOut_append, sendersOut_one]; simpa using i5
        · rw [receiversOut_append, receiversOut_one]; simpa using i6
    · exact hother (by simp) rfl rfl rfl
    · exact hother (by simp) rfl rfl rfl
    · exact hother (by simp) rfl rfl rfl
    · exact hother (by simp) rfl rfl rfl
    · exact hother (by simp) rfl rfl rfl
    · exact hother (by simp) rfl rfl rfl
    · exact hother (by simp) rfl rfl rfl
    · exact hother (by simp) rfl rfl rfl
    · exact hother (by simp) rfl rfl rfl
    · exact hother (by simp) rfl rfl rfl
    · -- dropMsg
      have e1 : sendersOut (tr ++ [(.dropMsg i, .unit)]) = sendersOut tr := by
        rw [sendersOut_append, sendersOut_one]; rfl
      have e2 : receiversOut (tr ++ [(.dropMsg i, .unit)]) = receiversOut tr := by
        rw [receiversOut_append, receiversOut_one]; rfl
      cases i with
      | zero =>
        refine ⟨⟨none, xs, by simp [i1], i2, ?_, by simp⟩, by rw [e1]; exact i5, by rw [e2]; exact i6⟩
        rw [originalDropped_append]; simp
      | succ i =>
        refine ⟨⟨x, xs.set i none, by simp [i1], ?_, ?_, by rw [e1, e2]; exact i4⟩, by rw [e1]; exact i5,
          by rw [e2]; exact i6⟩
        · intro e0 he0
          rcases List.mem_or_eq_of_mem_set he0 with h | h
          · exact i2 e0 h
          · cases h
        · rw [originalDropped_append, i3]; simp
    · -- clone
      have hk : k = .reqTrailers := by
        rcases hc with h | h
        · exact h
        · rw [clonesMade_append, clonesMade_one] at h; cases h
      have e1 : sendersOut (tr ++ [(.clone i, .unit)]) = sendersOut tr := by
        rw [sendersOut_append, sendersOut_one]; rfl
      have e2 : receiversOut (tr ++ [(.clone i, .unit)]) = receiversOut tr := by
        rw [receiversOut_append, receiversOut_one]; rfl
      refine ⟨⟨x, xs ++ [some ⟨false, false, false⟩], by simp [i1, hk], ?_, ?_, by rw [e1, e2]; exact i4⟩,
        by rw [e1]; exact i5, by rw [e2]; exact i6⟩
      · intro e0 he0
        rcases List.mem_append.mp he0 with h | h
        · exact i2 e0 h
        · simp only [List.mem_singleton, Option.some.injEq] at h
          subst h; simp
      · rw [originalDropped_append, i3]; simp

theorem countP_of_first {p : Option Ends → Bool} {x : Option Ends} {xs : List (Option Ends)}
    (h : ∀ y ∈ xs, p y = false) : (x :: xs).countP p = (p x).toNat := by
  rw [List.countP_cons, List.countP_eq_zero.mpr (by intro y hy; simp [h y hy])]
  cases p x <;> rfl

/-- The number of senders still inside messages. -/
theorem slots_eq {s : Chan V} {tr : Trace V} (h : Inv2 s tr) :
    (s.msgs.countP hasSender = 0 ↔ sendersOut tr ≠ 0 ∨ OriginalDropped tr) := by
  obtain ⟨⟨x, xs, i1, i2, i3, i4⟩, -, -⟩ := h
  rw [i1, countP_of_first (by
    intro y hy
    cases y with
    | none => rfl
    | some e => exact (i2 e hy).1)]
  rw [← i3]
  cases x with
  | none => simp [hasSender]
  | some e =>
    have := (i4 e rfl).1
    cases he : e.sender with
    | false => rw [he] at this; simp [hasSender, he]; simpa using this
    | true => rw [he] at this; simp [hasSender, he]; simpa using this

end Chan

end HT
