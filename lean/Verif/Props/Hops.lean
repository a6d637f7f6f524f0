import Verif.Spec.Hops
import Mathlib.Data.List.Range

/-! C144: trailers through gateways; all the same for upgraded connections. -/

namespace HT
open Spec
variable {V : Type} {k : ChanKind}

/-- How far a hop is. -/
inductive HopLine (V : Type) where
  | idle
  | calling (v : V)
  | full (v : V)
  | closed

/-- The channel of a hop, with its receiver or without. -/
def HopLine.chan (rx : Bool) : HopLine V → Chan V
  | .idle => ⟨[some ⟨false, false, true⟩], 1, [], rx.toNat, []⟩
  | .calling v => ⟨[some ⟨false, false, true⟩], 0, [v], rx.toNat, []⟩
  | .full v => ⟨[some ⟨false, false, true⟩], 0, [], rx.toNat, [v]⟩
  | .closed => ⟨[some ⟨false, false, true⟩], 0, [], rx.toNat, []⟩

theorem handed_eq : (handed k : Chan V) = HopLine.chan true .idle := by cases k <;> rfl

section
variable (rx : Bool) (v w : V)
theorem on_send_idle : onChan k (.startSend v) (HopLine.chan rx .idle) = HopLine.chan rx (.calling v) := rfl
theorem on_send_calling : onChan k (.startSend v) (HopLine.chan rx (.calling w)) = HopLine.chan rx (.calling w) := rfl
theorem on_send_full : onChan k (.startSend v) (HopLine.chan rx (.full w)) = HopLine.chan rx (.full w) := rfl
theorem on_send_closed : onChan k (.startSend v) (HopLine.chan rx .closed) = HopLine.chan rx .closed := rfl
theorem on_poll_idle : onChan k (.pollSend 0) (HopLine.chan rx (.idle : HopLine V)) = HopLine.chan rx .idle := rfl
theorem on_poll_calling : onChan k (.pollSend 0) (HopLine.chan rx (.calling w)) = HopLine.chan rx (if rx then .full w else .closed) := by
  cases rx <;> rfl
theorem on_poll_full : onChan k (.pollSend 0) (HopLine.chan rx (.full w)) = HopLine.chan rx (.full w) := rfl
theorem on_poll_closed : onChan k (.pollSend 0) (HopLine.chan rx (.closed : HopLine V)) = HopLine.chan rx .closed := rfl
theorem on_drop_idle : onChan k .dropSender (HopLine.chan rx (.idle : HopLine V)) = HopLine.chan rx .closed := rfl
theorem on_rx (l : HopLine V) : onChan k .dropReceiver (l.chan rx) = l.chan false := by cases rx <;> cases l <;> rfl
theorem on_drops (l : HopLine V) : onChan k (.dropSend 0) (onChan k .dropSender (l.chan rx)) =
    HopLine.chan rx (match l with | .idle => .closed | .calling _ => .closed | l => l) := by cases rx <;> cases l <;> rfl
theorem recv_idle : (HopLine.chan true (.idle : HopLine V)).step k .pollRecv = some (.pending, HopLine.chan true .idle) := rfl
theorem recv_calling : (HopLine.chan true (.calling w)).step k .pollRecv = some (.pending, HopLine.chan true (.calling w)) := rfl
theorem recv_full : (HopLine.chan true (.full w)).step k .pollRecv = some (.ready (some w), HopLine.chan true .closed) := rfl
theorem recv_closed : (HopLine.chan true (.closed : HopLine V)).step k .pollRecv = some (.ready none, HopLine.chan true .closed) := rfl
end

/-- The states of the hops as lines. -/
structure HopLines (V : Type) where
  line : Nat → HopLine V
  runs : Nat → Bool
  got : List (Option V)

/-- Line `i` is written anew. -/
def setLine (f : Nat → HopLine V) (i : Nat) (l : HopLine V) : Nat → HopLine V := fun j => if j = i then l else f j

def HopLines.new : HopLines V := ⟨fun _ => .idle, fun _ => true, []⟩

/-- Whether line `i` has a receiver: the client's always does. -/
def HopLines.rx (n : Nat) (s : HopLines V) (i : Nat) : Bool := i == n || s.runs i

def HopLines.step (n : Nat) (s : HopLines V) : HopAct V → HopLines V
  | .send v => { s with line := setLine s.line 0 (match s.line 0 with | .idle => .calling v | l => l) }
  | .poll => { s with line := setLine s.line 0 (match s.line 0 with | .calling v => if s.rx n 0 then .full v else .closed | l => l) }
  | .drop => { s with line := setLine s.line 0 (match s.line 0 with | .idle => .closed | .calling _ => .closed | l => l) }
  | .gateway i =>
    if i < n ∧ s.runs i = true then
      match s.line i with
      | .full v => ⟨setLine (setLine s.line i .closed) (i + 1) (if s.rx n (i + 1) then .full v else .closed),
          fun j => if j = i then false else s.runs j, s.got⟩
      | .closed => ⟨setLine (setLine s.line i .closed) (i + 1) .closed, fun j => if j = i then false else s.runs j, s.got⟩
      | _ => s
    else s
  | .crash i => if i < n ∧ s.runs i = true then
      ⟨setLine (setLine s.line i (s.line i)) (i + 1) .closed, fun j => if j = i then false else s.runs j, s.got⟩ else s
  | .client =>
    match s.line n with
    | .full v => { s with line := setLine s.line n .closed, got := s.got ++ [some v] }
    | .closed => { s with got := s.got ++ [none] }
    | _ => s

/-- A gateway that has not ended has not sent. -/
def HopLines.Ok (n : Nat) (s : HopLines V) : Prop := ∀ i, i < n → s.runs i = true → s.line (i + 1) = .idle

/-- The lines tell the state. -/
def HopLines.Of (n : Nat) (s : HopLines V) (t : TrailerHops V) : Prop :=
  (∀ i, i ≤ n → t.chan i = (s.line i).chan (s.rx n i)) ∧ t.runs = s.runs ∧ t.got = s.got ∧ s.Ok n

theorem of_new (n : Nat) : (HopLines.new : HopLines V).Of n (.new k) :=
  ⟨fun i _ => by simp [TrailerHops.new, handed_eq, HopLines.new, HopLines.rx], rfl, rfl, fun _ _ _ => rfl⟩

theorem ok_first {n : Nat} {s : HopLines V} (h : s.Ok n) (l : HopLine V) : HopLines.Ok n { s with line := setLine s.line 0 l } := by
  intro i hi hr
  show setLine s.line 0 l (i + 1) = .idle
  unfold setLine
  rw [if_neg (by omega)]
  exact h i hi hr

theorem of_step {n : Nat} {s : HopLines V} {t : TrailerHops V} (h : s.Of n t) (a : HopAct V) : (s.step n a).Of n (t.step k n a) := by
  obtain ⟨hc, hr, hg, ho⟩ := h
  have first : ∀ (g : Chan V → Chan V) (l : HopLine V), g ((s.line 0).chan (s.rx n 0)) = l.chan (s.rx n 0) →
      HopLines.Of n { s with line := setLine s.line 0 l } { t with chan := setChan t.chan 0 g } := by
    intro g l hl
    refine ⟨fun i hi => ?_, hr, hg, ok_first ho l⟩
    simp only [setChan, setLine, HopLines.rx]
    split
    · next e => subst e; rw [hc 0 hi, hl]; rfl
    · exact hc i hi
  have ended : ∀ (i : Nat) (l m : HopLine V) (f : Nat → Chan V), i < n → (s.line i = .idle → l = .idle) →
      (∀ j, j ≤ n → f j = (setLine (setLine s.line i l) (i + 1) m j).chan (s.rx n j)) →
      HopLines.Of n ⟨setLine (setLine s.line i l) (i + 1) m, fun j => if j = i then false else s.runs j, s.got⟩ (t.ends k i f) := by
    intro i l m f hi hli hf
    refine ⟨fun j hj => ?_, by simp only [TrailerHops.ends, hr], hg, ?_⟩
    · simp only [TrailerHops.ends, setChan, HopLines.rx]
      by_cases e : j = i
      · subst e
        rw [if_pos rfl, if_pos rfl, hf j hj, on_rx]
        simp [show (j == n) = false by simp; omega]
      · rw [if_neg e, if_neg e, hf j hj]
        rfl
    · intro j hj hrj
      simp only at hrj ⊢
      split at hrj
      · cases hrj
      · next e =>
        unfold setLine
        rw [if_neg (by omega)]
        split
        · next e' => subst e'; exact hli (ho j hj hrj)
        · exact ho j hj hrj
  cases a with
  | send v => exact first _ _ (by cases h : s.line 0 <;> rfl)
  | poll => exact first _ _ (by
      cases h : s.line 0 with
      | calling v => exact on_poll_calling _ v
      | _ => rfl)
  | drop => exact first _ _ (on_drops _ _)
  | gateway i =>
    simp only [TrailerHops.step, HopLines.step, hr]
    split
    · next hi =>
      have hrx : s.rx n i = true := by simp [HopLines.rx, hi.2]
      have hci := hc i (by omega)
      have hnext := hc (i + 1) (by omega)
      rw [ho i hi.1 hi.2] at hnext
      rw [hrx] at hci
      cases hl : s.line i with
      | idle => rw [hci, hl, recv_idle]; exact ⟨hc, hr, hg, ho⟩
      | calling v => rw [hci, hl, recv_calling]; exact ⟨hc, hr, hg, ho⟩
      | full v =>
        rw [hci, hl, recv_full]
        refine ended i .closed _ _ hi.1 (fun h => by rw [hl] at h; cases h) fun j hj => ?_
        simp only [setChan, setLine]
        by_cases e : j = i + 1
        · subst e
          rw [if_pos rfl, if_pos rfl, if_neg (by omega), hnext, on_send_idle, on_poll_calling]
        · rw [if_neg e, if_neg e]
          by_cases e' : j = i
          · subst e'; rw [if_pos rfl, if_pos rfl, hrx]
          · rw [if_neg e', if_neg e']; exact hc j hj
      | closed =>
        rw [hci, hl, recv_closed]
        refine ended i .closed _ _ hi.1 (fun h => by rw [hl] at h; cases h) fun j hj => ?_
        simp only [setChan, setLine]
        by_cases e : j = i + 1
        · subst e
          rw [if_pos rfl, if_pos rfl, if_neg (by omega), hnext, on_drop_idle]
        · rw [if_neg e, if_neg e]
          by_cases e' : j = i
          · subst e'; rw [if_pos rfl, if_pos rfl, hrx]
          · rw [if_neg e', if_neg e']; exact hc j hj
    · exact ⟨hc, hr, hg, ho⟩
  | crash i =>
    simp only [TrailerHops.step, HopLines.step, hr]
    split
    · next hi =>
      have hnext := hc (i + 1) (by omega)
      rw [ho i hi.1 hi.2] at hnext
      refine ended i (s.line i) _ _ hi.1 (fun h => h) fun j hj => ?_
      simp only [setChan, setLine]
      by_cases e : j = i + 1
      · subst e
        rw [if_pos rfl, if_pos rfl, hnext, on_drop_idle]
      · rw [if_neg e, if_neg e]
        by_cases e' : j = i
        · subst e'; rw [if_pos rfl]; exact hc j hj
        · rw [if_neg e']; exact hc j hj
    · exact ⟨hc, hr, hg, ho⟩
  | client =>
    have hrx : s.rx n n = true := by simp [HopLines.rx]
    have hcn := hc n (Nat.le_refl _)
    rw [hrx] at hcn
    simp only [TrailerHops.step, HopLines.step]
    cases hl : s.line n with
    | idle => rw [hcn, hl, recv_idle]; exact ⟨hc, hr, hg, ho⟩
    | calling v => rw [hcn, hl, recv_calling]; exact ⟨hc, hr, hg, ho⟩
    | full v =>
      rw [hcn, hl, recv_full]
      refine ⟨fun j hj => ?_, hr, by simp only [hg], fun j hj hrj => ?_⟩
      · simp only [setChan, setLine, HopLines.rx]
        split
        · next e => subst e; simp
        · exact hc j hj
      · simp only [setLine]
        have := ho j hj hrj
        split
        · next e => rw [e, hl] at this; cases this
        · exact this
    | closed =>
      rw [hcn, hl, recv_closed]
      refine ⟨fun j hj => ?_, hr, by simp only [hg], ho⟩
      simp only [setChan, HopLines.rx]
      split
      · next e => subst e; rw [hl]; simp
      · exact hc j hj

def HopLines.run (n : Nat) (hs : List (HopAct V)) : HopLines V := hs.foldl (HopLines.step n) .new

theorem of_run (n : Nat) (hs : List (HopAct V)) : (HopLines.run n hs).Of n (TrailerHops.run k n hs) := by
  have : ∀ (s : HopLines V) (t : TrailerHops V), s.Of n t → (hs.foldl (HopLines.step n) s).Of n (hs.foldl (TrailerHops.step k n) t) := by
    induction hs with
    | nil => exact fun _ _ h => h
    | cons a hs ih => exact fun s t h => ih _ _ (of_step h a)
  exact this _ _ (of_new n)

theorem HopLines.run_snoc (n : Nat) (hs : List (HopAct V)) (a : HopAct V) :
    HopLines.run n (hs ++ [a]) = (HopLines.run n hs).step n a := by simp [HopLines.run]

theorem ok_run (n : Nat) (hs : List (HopAct V)) : (HopLines.run n hs).Ok n := (of_run (k := .reqTrailers) n hs).2.2.2

theorem got_run (n : Nat) (hs : List (HopAct V)) : (TrailerHops.run k n hs).got = (HopLines.run n hs).got := (of_run n hs).2.2.1

/-- A claim about all later states. -/
theorem hops_induct {n : Nat} {P : HopLines V → Prop} {pre : List (HopAct V)} (h0 : P (HopLines.run n pre)) (ks : List (HopAct V))
    (hs : ∀ s : HopLines V, s.Ok n → ∀ a ∈ ks, P s → P (s.step n a)) : P (HopLines.run n (pre ++ ks)) := by
  induction ks generalizing pre with
  | nil => simpa using h0
  | cons a ks ih =>
    rw [show pre ++ a :: ks = (pre ++ [a]) ++ ks by simp]
    refine ih ?_ fun s ho b hb => hs s ho b (List.mem_cons_of_mem _ hb)
    rw [HopLines.run_snoc]
    exact hs _ (ok_run n pre) a List.mem_cons_self h0

/-- What is on its way. -/
def HopLine.of : Option V → HopLine V
  | some v => .full v
  | none => .closed

theorem HopLine.of_ne_idle (o : Option V) : HopLine.of o ≠ .idle := by cases o <;> simp [HopLine.of]

/-- The client was told `o`, or it is on its way at hop `i` or further. -/
def Reaches (n i : Nat) (o : Option V) (s : HopLines V) : Prop :=
  o ∈ s.got ∨ ∃ j, i ≤ j ∧ j ≤ n ∧ s.line j = HopLine.of o ∧ ∀ m, j ≤ m → m < n → s.runs m = true

/-- A polled gateway passes it on. -/
theorem reaches_gateway {n j : Nat} {o : Option V} {s : HopLines V} (hj : j < n) (hl : s.line j = HopLine.of o)
    (hr : ∀ m, j ≤ m → m < n → s.runs m = true) : Reaches n (j + 1) o (s.step n (.gateway j)) := by
  right
  have hx : s.rx n (j + 1) = true := by
    unfold HopLines.rx
    by_cases e : j + 1 = n
    · simp [e]
    · rw [hr (j + 1) (by omega) (by omega)]; simp
  refine ⟨j + 1, Nat.le_refl _, hj, ?_⟩
  have hrj := hr j (Nat.le_refl _) hj
  simp only [HopLines.step, hj, hrj, true_and, if_true]
  cases o with
  | none =>
    rw [show s.line j = .closed from hl]
    refine ⟨by simp [setLine, HopLine.of], fun m h1 h2 => ?_⟩
    simp only
    rw [if_neg (by omega)]
    exact hr m (by omega) h2
  | some v =>
    rw [show s.line j = .full v from hl]
    refine ⟨by simp [setLine, HopLine.of, hx], fun m h1 h2 => ?_⟩
    simp only
    rw [if_neg (by omega)]
    exact hr m (by omega) h2

theorem reaches_mono {n i j : Nat} {o : Option V} {s : HopLines V} (hij : i ≤ j) (h : Reaches n j o s) : Reaches n i o s := by
  rcases h with h | ⟨k, h1, h2⟩
  · exact .inl h
  · exact .inr ⟨k, by omega, h2⟩

/-- Nothing else stops it. -/
theorem reaches_step {n i : Nat} {o : Option V} {s : HopLines V} (ho : s.Ok n) (a : HopAct V) (ha : ∀ g, a ≠ .crash g)
    (h : Reaches n i o s) : Reaches n i o (s.step n a) := by
  rcases h with h | ⟨j, h1, h2, h3, h4⟩
  · left
    cases a with
    | gateway g =>
      simp only [HopLines.step]
      split
      · cases s.line g <;> exact h
      · exact h
    | client =>
      simp only [HopLines.step]
      cases s.line n <;> simp [h]
    | crash g => exact absurd rfl (ha g)
    | _ => exact h
  · have zero : ∀ l : HopLine V, (s.line 0 = HopLine.of o → l = HopLine.of o) →
        Reaches n i o { s with line := setLine s.line 0 l } := by
      intro l hl
      refine .inr ⟨j, h1, h2, ?_, h4⟩
      simp only [setLine]
      split
      · next e => exact hl (e ▸ h3)
      · exact h3
    have same : Reaches n i o s := .inr ⟨j, h1, h2, h3, h4⟩
    cases a with
    | send v => exact zero _ fun e => by rw [e]; cases o <;> rfl
    | poll => exact zero _ fun e => by rw [e]; cases o <;> rfl
    | drop => exact zero _ fun e => by rw [e]; cases o <;> rfl
    | crash g => exact absurd rfl (ha g)
    | client =>
      simp only [HopLines.step]
      by_cases e : j = n
      · subst e
        cases o with
        | none => rw [show s.line j = .closed from h3]; exact .inl (by simp)
        | some v => rw [show s.line j = .full v from h3]; exact .inl (by simp)
      · have : s.line n = .idle := by
          have := ho (n - 1) (by omega) (h4 (n - 1) (by omega) (by omega))
          rwa [show n - 1 + 1 = n by omega] at this
        rw [this]
        exact same
    | gateway g =>
      by_cases hg : g < n ∧ s.runs g = true
      · rcases Nat.lt_trichotomy g j with hlt | rfl | hgt
        · have hj : g + 1 ≠ j := fun e => HopLine.of_ne_idle o (by rw [← h3, ← e]; exact ho g hg.1 hg.2)
          simp only [HopLines.step, hg, true_and, if_true]
          have key : ∀ l m : HopLine V, Reaches n i o
              ⟨setLine (setLine s.line g l) (g + 1) m, fun k => if k = g then false else s.runs k, s.got⟩ := by
            intro l m
            refine .inr ⟨j, h1, h2, ?_, fun k hk1 hk2 => ?_⟩
            · simp only [setLine]
              rw [if_neg (by omega), if_neg (by omega)]
              exact h3
            · simp only
              rw [if_neg (by omega)]
              exact h4 k hk1 hk2
          cases s.line g
          · exact same
          · exact same
          · exact key _ _
          · exact key _ _
        · exact reaches_mono (by omega) (reaches_gateway hg.1 h3 h4)
        · have : s.line g = .idle := by
            have := ho (g - 1) (by omega) (h4 (g - 1) (by omega) (by omega))
            rwa [show g - 1 + 1 = g by omega] at this
          simp only [HopLines.step, hg, this, true_and, if_true]
          exact same
      · simp only [HopLines.step, if_neg hg]
        exact same

/-- The gateways bring it to the client. -/
theorem reaches_client {n i : Nat} {o : Option V} {pre : List (HopAct V)} (ks : List (HopAct V)) (hc : ∀ g, .crash g ∉ ks)
    (hi : i ≤ n) (ht : InTurn i n ks) (h : Reaches n i o (HopLines.run n pre)) :
    o ∈ (TrailerHops.run k n (pre ++ ks ++ [.client])).got := by
  have fin : Reaches n n o (HopLines.run n (pre ++ ks)) := by
    induction ks generalizing pre i with
    | nil =>
      unfold InTurn at ht
      rw [List.sublist_nil, List.map_eq_nil_iff, List.range'_eq_nil_iff] at ht
      obtain rfl : i = n := by omega
      simpa using h
    | cons a ks ih =>
      rw [show pre ++ a :: ks = (pre ++ [a]) ++ ks by simp]
      have hc' : ∀ g, HopAct.crash g ∉ ks := fun g hg => hc g (List.mem_cons_of_mem _ hg)
      have ha : ∀ g, a ≠ .crash g := fun g e => hc g (e ▸ List.mem_cons_self)
      have hst := reaches_step (ok_run n pre) a ha h
      unfold InTurn at ht
      by_cases e : i = n
      · subst e
        exact ih hc' hi (by unfold InTurn; simp) (by rw [HopLines.run_snoc]; exact hst)
      · rw [show n - i = (n - (i + 1)) + 1 by omega, List.range'_succ, List.map_cons] at ht
        rw [List.cons_sublist_cons'] at ht
        rcases ht with ht | ⟨rfl, ht⟩
        · refine ih hc' hi ?_ (by rw [HopLines.run_snoc]; exact hst)
          unfold InTurn
          rw [show n - i = (n - (i + 1)) + 1 by omega, List.range'_succ, List.map_cons]
          exact ht
        · refine ih hc' (by omega) ht ?_
          rw [HopLines.run_snoc]
          rcases h with h | ⟨j, h1, h2, h3, h4⟩
          · exact reaches_step (ok_run n pre) _ ha (.inl h)
          · by_cases ej : j = i
            · subst ej; exact reaches_gateway (by omega) h3 h4
            · exact reaches_step (ok_run n pre) _ ha (.inr ⟨j, by omega, h2, h3, h4⟩)
  rw [got_run, HopLines.run_snoc]
  rcases fin with h | ⟨j, h1, h2, h3, -⟩
  · simp only [HopLines.step]
    cases (HopLines.run n (pre ++ ks)).line n <;> simp [h]
  · obtain rfl : j = n := by omega
    simp only [HopLines.step]
    cases o with
    | none => rw [show (HopLines.run j (pre ++ ks)).line j = .closed from h3]; simp
    | some v => rw [show (HopLines.run j (pre ++ ks)).line j = .full v from h3]; simp

/-- Nothing has been sent, and every gateway waits; the server may have called `send`, if `p` allows it. -/
def StillBefore (n : Nat) (p : V → Prop) (s : HopLines V) : Prop :=
  (s.line 0 = .idle ∨ ∃ v, p v ∧ s.line 0 = .calling v) ∧ (∀ m, m < n → s.runs m = true) ∧ s.got = []

/-- Gateways and the client find nothing then. -/
theorem before_still {n : Nat} {p : V → Prop} {s : HopLines V} (ho : s.Ok n) (h : StillBefore n p s) :
    s.step n .client = s ∧ ∀ g, s.step n (.gateway g) = s := by
  have none : ∀ g, g ≤ n → s.line g = .idle ∨ ∃ v, s.line g = .calling v := by
    intro g hg
    cases g with
    | zero => rcases h.1 with h | ⟨v, -, h⟩
              · exact .inl h
              · exact .inr ⟨v, h⟩
    | succ g => exact .inl (ho g (by omega) (h.2.1 g (by omega)))
  constructor
  · rcases none n (Nat.le_refl _) with e | ⟨v, e⟩ <;> simp only [HopLines.step, e]
  · intro g
    by_cases hg : g < n ∧ s.runs g = true
    · rcases none g (by omega) with e | ⟨v, e⟩ <;> simp only [HopLines.step, hg, e, true_and, if_true]
    · simp only [HopLines.step, if_neg hg]

theorem before_new (n : Nat) (p : V → Prop) : StillBefore n p (HopLines.run n []) := ⟨.inl rfl, fun _ _ => rfl, rfl⟩

/-- StillBefore the server has decided. -/
theorem before_undecided (n : Nat) (pre : List (HopAct V)) (hp : Undecided pre) (hc : ∀ g, .crash g ∉ pre) :
    StillBefore n (fun _ => False) (HopLines.run n pre) := by
  have := hops_induct (P := StillBefore n fun _ => False) (before_new n _) pre (fun s ho a ha h => by
    cases a with
    | send v => exact absurd ha (hp.1 v)
    | drop => exact absurd ha hp.2
    | crash g => exact absurd ha (hc g)
    | client => rw [(before_still ho h).1]; exact h
    | gateway g => rw [(before_still ho h).2]; exact h
    | poll =>
      obtain ⟨h1 | ⟨v, h1, -⟩, h2⟩ := h
      · exact ⟨.inl (by simp [HopLines.step, setLine, h1]), h2⟩
      · exact h1.elim)
  simpa using this

/-- The server has called `send` for `v`. -/
def Called (n : Nat) (v : V) (s : HopLines V) : Prop :=
  s.line 0 = .calling v ∧ (∀ m, m < n → s.runs m = true) ∧ s.got = []

theorem Called.before {n : Nat} {v : V} {s : HopLines V} (h : Called n v s) : StillBefore n (fun _ => True) s :=
  ⟨.inr ⟨v, trivial, h.1⟩, h.2⟩

theorem called_poll {n : Nat} {v : V} {s : HopLines V} (h : Called n v s) : Reaches n 0 (some v) (s.step n .poll) := by
  have hx : s.rx n 0 = true := by
    unfold HopLines.rx
    by_cases e0 : 0 = n
    · simp [← e0]
    · rw [h.2.1 0 (by omega)]; simp
  exact .inr ⟨0, Nat.le_refl _, Nat.zero_le _, by simp [HopLines.step, setLine, h.1, hx, HopLine.of], fun m _ hm => h.2.1 m hm⟩

theorem called_step {n : Nat} {v : V} {s : HopLines V} (ho : s.Ok n) (a : HopAct V) (hd : a ≠ .drop) (hc : ∀ g, a ≠ .crash g)
    (h : Called n v s ∨ Reaches n 0 (some v) s) : Called n v (s.step n a) ∨ Reaches n 0 (some v) (s.step n a) := by
  rcases h with h | h
  · cases a with
    | send u => exact .inl ⟨by simp [HopLines.step, setLine, h.1], h.2⟩
    | drop => exact absurd rfl hd
    | crash g => exact absurd rfl (hc g)
    | client => rw [(before_still ho h.before).1]; exact .inl h
    | gateway g => rw [(before_still ho h.before).2]; exact .inl h
    | poll => exact .inr (called_poll h)
  · exact .inr (reaches_step ho a hc h)

/-- Trailers whose sending is done reach the client, however many gateways there are and whatever is polled in between, as soon as
each gateway was polled after the one before it. -/
theorem C144_delivered (k : ChanKind) (n : Nat) (v : V) (pre mid post : List (HopAct V)) (hp : Undecided pre) (hm : .drop ∉ mid)
    (hc : ∀ g, .crash g ∉ pre ++ mid ++ post) (ht : InTurn 0 n post) :
    some v ∈ (TrailerHops.run k n (pre ++ .send v :: (mid ++ .poll :: (post ++ [.client])))).got := by
  have hb := before_undecided n pre hp fun g h => hc g (by simp [h])
  have h1 : Called n v (HopLines.run n (pre ++ [.send v])) := by
    obtain ⟨e | ⟨w, e, -⟩, h2⟩ := hb
    · rw [HopLines.run_snoc]
      exact ⟨by simp [HopLines.step, setLine, e], h2⟩
    · exact e.elim
  have h2 := hops_induct (P := fun s => Called n v s ∨ Reaches n 0 (some v) s) (.inl h1) mid fun s ho a ha =>
    called_step ho a (fun e => hm (e ▸ ha)) fun g e => hc g (by rw [← e]; simp [ha])
  have h3 : Reaches n 0 (some v) (HopLines.run n (pre ++ [.send v] ++ mid ++ [.poll])) := by
    rw [HopLines.run_snoc]
    rcases h2 with h2 | h2
    · exact called_poll h2
    · exact reaches_step (ok_run n _) _ (fun g => by simp) h2
  have := reaches_client (k := k) post (fun g h => hc g (by simp [h])) (Nat.zero_le _) ht h3
  simpa using this

example : (TrailerHops.run .reqTrailers 2 [.client, .send 7, .gateway 0, .poll, .gateway 1, .gateway 0, .client, .gateway 1, .client] : TrailerHops Nat).got =
    [some 7] := by decide +kernel

/-- Nothing is done with the server's sender yet that it could not take back. -/
theorem open_step {n : Nat} {s : HopLines V} (ho : s.Ok n) (a : HopAct V) (hp : a ≠ .poll) (hc : ∀ g, a ≠ .crash g)
    (h : StillBefore n (fun _ => True) s ∨ Reaches n 0 none s) : StillBefore n (fun _ => True) (s.step n a) ∨ Reaches n 0 none (s.step n a) := by
  rcases h with h | h
  · cases a with
    | send u =>
      obtain ⟨e | ⟨w, -, e⟩, hr⟩ := h
      · exact .inl ⟨.inr ⟨u, trivial, by simp [HopLines.step, setLine, e]⟩, hr⟩
      · exact .inl ⟨.inr ⟨w, trivial, by simp [HopLines.step, setLine, e]⟩, hr⟩
    | drop =>
      refine .inr (.inr ⟨0, Nat.le_refl _, Nat.zero_le _, ?_, fun m _ hm => h.2.1 m hm⟩)
      obtain ⟨e | ⟨w, -, e⟩, hr⟩ := h <;> simp [HopLines.step, setLine, e, HopLine.of]
    | crash g => exact absurd rfl (hc g)
    | client => rw [(before_still ho h).1]; exact .inl h
    | gateway g => rw [(before_still ho h).2]; exact .inl h
    | poll => exact absurd rfl hp
  · exact .inr (reaches_step ho a hc h)

theorem open_drop {n : Nat} {s : HopLines V} (ho : s.Ok n) (h : StillBefore n (fun _ => True) s ∨ Reaches n 0 none s) :
    Reaches n 0 none (s.step n .drop) := by
  rcases h with h | h
  · refine .inr ⟨0, Nat.le_refl _, Nat.zero_le _, ?_, fun m _ hm => h.2.1 m hm⟩
    obtain ⟨e | ⟨w, -, e⟩, hr⟩ := h <;> simp [HopLines.step, setLine, e, HopLine.of]
  · exact reaches_step ho _ (fun g => by simp) h

/-- If the server drops its sender, or the sending that it had not begun to poll, the client is told that nothing comes. -/
theorem C144_nothing (k : ChanKind) (n : Nat) (pre post : List (HopAct V)) (hp : .poll ∉ pre) (hc : ∀ g, .crash g ∉ pre ++ post)
    (ht : InTurn 0 n post) : none ∈ (TrailerHops.run k n (pre ++ .drop :: (post ++ [.client]))).got := by
  have h1 := hops_induct (P := fun s => StillBefore n (fun _ => True) s ∨ Reaches n 0 none s) (.inl (before_new (V := V) n _)) pre
    fun s ho a ha => open_step ho a (fun e => hp (e ▸ ha)) fun g e => hc g (by rw [← e]; simp [ha])
  rw [List.nil_append] at h1
  have h2 : Reaches n 0 none (HopLines.run n (pre ++ [.drop])) := by
    rw [HopLines.run_snoc]
    exact open_drop (ok_run n _) h1
  have := reaches_client (k := k) post (fun g h => hc g (by simp [h])) (Nat.zero_le _) ht h2
  simpa using this

example : (TrailerHops.run .reqTrailers 2 [.send 7, .drop, .gateway 1, .gateway 0, .client, .gateway 1, .client] : TrailerHops Nat).got = [none] := by
  decide +kernel

/-- Until the server polls its sending or drops it, the client is told nothing. -/
theorem C144_waits (k : ChanKind) (n : Nat) (hs : List (HopAct V)) (hp : .poll ∉ hs) (hd : .drop ∉ hs) (hc : ∀ g, .crash g ∉ hs) :
    (TrailerHops.run k n hs).got = [] := by
  have h1 := hops_induct (P := StillBefore n fun _ : V => True) (before_new n _) hs fun s ho a ha h => by
    cases a with
    | send u =>
      obtain ⟨e | ⟨w, -, e⟩, hr⟩ := h
      · exact ⟨.inr ⟨u, trivial, by simp [HopLines.step, setLine, e]⟩, hr⟩
      · exact ⟨.inr ⟨w, trivial, by simp [HopLines.step, setLine, e]⟩, hr⟩
    | drop => exact absurd ha hd
    | crash g => exact absurd ha (hc g)
    | client => rw [(before_still ho h).1]; exact h
    | gateway g => rw [(before_still ho h).2]; exact h
    | poll => exact absurd ha hp
  rw [got_run]
  exact h1.2.2

example : (TrailerHops.run .respUpgrade 1 [.client, .send 7, .gateway 0, .client] : TrailerHops Nat).got = [] := by decide +kernel

/-- Without crashes, gateways end from the first on. -/
theorem later_run (n : Nat) (pre : List (HopAct V)) (hc : ∀ g, .crash g ∉ pre) :
    ∀ i m, i < m → m < n → (HopLines.run n pre).runs i = true → (HopLines.run n pre).runs m = true := by
  have := hops_induct (n := n) (P := fun s : HopLines V => ∀ i m, i < m → m < n → s.runs i = true → s.runs m = true)
    (pre := []) (fun _ _ _ _ _ => rfl) pre fun s ho a ha h => by
    cases a with
    | crash g => exact absurd ha (hc g)
    | client =>
      simp only [HopLines.step]
      cases s.line n <;> exact h
    | gateway g =>
      have key : ∀ l m : HopLine V, s.line g ≠ .idle → ∀ i k, i < k → k < n →
          (if i = g then false else s.runs i) = true → (if k = g then false else s.runs k) = true := by
        intro l m hl i k hik hk hi
        split at hi
        · cases hi
        · next e =>
          split
          · next e' =>
            subst e'
            have : s.runs (k - 1) = true := by
              by_cases e1 : i = k - 1
              · rw [← e1]; exact hi
              · exact h i (k - 1) (by omega) (by omega) hi
            have := ho (k - 1) (by omega) this
            rw [show k - 1 + 1 = k by omega] at this
            exact absurd this hl
          · exact h i k hik hk hi
      simp only [HopLines.step]
      split
      · cases hl : s.line g with
        | full v => exact key .idle .idle (by rw [hl]; simp)
        | closed => exact key .idle .idle (by rw [hl]; simp)
        | _ => exact h
      · exact h
    | _ => exact h
  simpa using this

theorem runs_until (n i : Nat) (pre : List (HopAct V)) (hc : ∀ g, .crash g ∉ pre) (hg : .gateway i ∉ pre) :
    (HopLines.run n pre).runs i = true := by
  have := hops_induct (n := n) (P := fun s : HopLines V => s.runs i = true) (pre := []) rfl pre fun s ho a ha h => by
    cases a with
    | crash g => exact absurd ha (hc g)
    | client =>
      simp only [HopLines.step]
      cases s.line n <;> exact h
    | gateway g =>
      have hne : i ≠ g := fun e => hg (e ▸ ha)
      simp only [HopLines.step]
      split
      · cases s.line g with
        | full v => simpa [hne] using h
        | closed => simpa [hne] using h
        | _ => exact h
      · exact h
    | _ => exact h
  simpa using this

/-- If a gateway goes away before it was polled, the client is told that nothing comes. -/
theorem C144_crash (k : ChanKind) (n i : Nat) (hi : i < n) (pre post : List (HopAct V)) (hg : .gateway i ∉ pre) (hc : ∀ g, .crash g ∉ pre ++ post)
    (ht : InTurn (i + 1) n post) : none ∈ (TrailerHops.run k n (pre ++ .crash i :: (post ++ [.client]))).got := by
  have hr := runs_until n i pre (fun g h => hc g (by simp [h])) hg
  have h2 : Reaches n (i + 1) none (HopLines.run n (pre ++ [.crash i])) := by
    rw [HopLines.run_snoc]
    refine .inr ⟨i + 1, Nat.le_refl _, hi, ?_⟩
    simp only [HopLines.step, hi, hr, true_and, if_true]
    refine ⟨by simp [setLine, HopLine.of], fun m h1 h2 => ?_⟩
    rw [if_neg (by omega)]
    exact later_run n pre (fun g h => hc g (by simp [h])) i m (by omega) h2 hr
  have := reaches_client (k := k) post (fun g h => hc g (by simp [h])) hi ht h2
  simpa using this

example : (TrailerHops.run .reqTrailers 2 [.send 7, .poll, .gateway 0, .crash 1, .client] : TrailerHops Nat).got = [none] := by decide +kernel

theorem firstSent_append {hs ks : List (HopAct V)} (h : Undecided hs) : firstSent (hs ++ ks) = firstSent ks := by
  induction hs with
  | nil => rfl
  | cons a hs ih =>
    have ih := ih ⟨fun v hv => h.1 v (List.mem_cons_of_mem _ hv), fun hd => h.2 (List.mem_cons_of_mem _ hd)⟩
    cases a with
    | send v => exact absurd List.mem_cons_self (h.1 v)
    | drop => exact absurd List.mem_cons_self h.2
    | _ => exact ih

theorem firstSent_snoc {hs ks : List (HopAct V)} (h : ¬ Undecided hs) : firstSent (hs ++ ks) = firstSent hs := by
  induction hs with
  | nil => exact absurd ⟨fun _ => by simp, by simp⟩ h
  | cons a hs ih =>
    have key : (∀ v, a ≠ .send v) → a ≠ .drop → firstSent (hs ++ ks) = firstSent hs := fun h1 h2 => ih fun hu => h
      ⟨fun v hv => (List.mem_cons.mp hv).elim (fun e => h1 v e.symm) (hu.1 v),
        fun hd => (List.mem_cons.mp hd).elim (fun e => h2 e.symm) hu.2⟩
    cases a with
    | send v => rfl
    | drop => rfl
    | _ => exact key (fun v => by simp) (by simp)

/-- Whatever happens, and whichever gateways go away, the client gets no trailers but those for which the server first called
`send`, and gets them once. -/
theorem C144_once (k : ChanKind) (n : Nat) (hs : List (HopAct V)) : (TrailerHops.run k n hs).got.filterMap id <+: (firstSent hs).toList := by
  have inv : ∀ hs : List (HopAct V), let s := HopLines.run n hs
      (s.line 0 = .idle → Undecided hs) ∧ (∀ i v, s.line i = .calling v ∨ s.line i = .full v → firstSent hs = some v) ∧
      (s.got.filterMap id = [] ∨ ∃ v, firstSent hs = some v ∧ s.got.filterMap id = [v] ∧ s.line n = .closed) := by
    intro hs
    induction hs using List.reverseRecOn with
    | nil => exact ⟨fun _ => ⟨fun _ => by simp, by simp⟩, fun i v h => by simp [HopLines.run, HopLines.new] at h, .inl rfl⟩
    | append_singleton hs a ih =>
      have ho := ok_run n hs
      simp only at ih ⊢
      rw [HopLines.run_snoc]
      generalize HopLines.run n hs = s at ih ho ⊢
      obtain ⟨h0, hv, hg⟩ := ih
      have keep : ∀ v, firstSent hs = some v → firstSent (hs ++ [a]) = some v := by
        intro v h
        rw [firstSent_snoc, h]
        intro hu
        have := firstSent_append (ks := []) hu
        rw [List.append_nil, h] at this
        cases this
      have und : (∀ v, a ≠ .send v) → a ≠ .drop → Undecided hs → Undecided (hs ++ [a]) := by
        intro h1 h2 hu
        refine ⟨fun v hm => ?_, fun hm => ?_⟩
        · rcases List.mem_append.mp hm with hm | hm
          · exact hu.1 v hm
          · exact h1 v (List.mem_singleton.mp hm).symm
        · rcases List.mem_append.mp hm with hm | hm
          · exact hu.2 hm
          · exact h2 (List.mem_singleton.mp hm).symm
      have hg' : s.got.filterMap id = [] ∨ ∃ v, firstSent (hs ++ [a]) = some v ∧ s.got.filterMap id = [v] ∧ s.line n = .closed :=
        hg.imp_right fun ⟨v, h1, h2⟩ => ⟨v, keep v h1, h2⟩
      have same : (∀ v, a ≠ .send v) → a ≠ .drop → (s.line 0 = .idle → Undecided (hs ++ [a])) ∧
          (∀ i v, s.line i = .calling v ∨ s.line i = .full v → firstSent (hs ++ [a]) = some v) ∧
          (s.got.filterMap id = [] ∨ ∃ v, firstSent (hs ++ [a]) = some v ∧ s.got.filterMap id = [v] ∧ s.line n = .closed) :=
        fun h1 h2 => ⟨fun h => und h1 h2 (h0 h), fun i v h => keep v (hv i v h), hg'⟩
      have zero : ∀ l : HopLine V, (l = .idle → Undecided (hs ++ [a])) →
          (∀ v, l = .calling v ∨ l = .full v → firstSent (hs ++ [a]) = some v) → (s.line 0 = .closed → l = .closed) →
          (setLine s.line 0 l 0 = .idle → Undecided (hs ++ [a])) ∧
          (∀ i v, setLine s.line 0 l i = .calling v ∨ setLine s.line 0 l i = .full v → firstSent (hs ++ [a]) = some v) ∧
          (s.got.filterMap id = [] ∨
            ∃ v, firstSent (hs ++ [a]) = some v ∧ s.got.filterMap id = [v] ∧ setLine s.line 0 l n = .closed) := by
        intro l h1 h2 h3
        refine ⟨fun h => h1 (by simpa [setLine] using h), fun i v h => ?_, hg'.imp_right fun ⟨v, e1, e2, e3⟩ => ⟨v, e1, e2, ?_⟩⟩
        · simp only [setLine] at h
          split at h
          · exact h2 v h
          · exact keep v (hv i v h)
        · simp only [setLine]
          split
          · next e => exact h3 (e ▸ e3)
          · exact e3
      have ended : ∀ (i : Nat) (l m : HopLine V), i < n → s.runs i = true → (∀ v, a ≠ .send v) → a ≠ .drop →
          (l = .idle → s.line i = .idle) → m ≠ .idle →
          (∀ v, l = .calling v ∨ l = .full v ∨ m = .calling v ∨ m = .full v → firstSent hs = some v) →
          (setLine (setLine s.line i l) (i + 1) m 0 = .idle → Undecided (hs ++ [a])) ∧
          (∀ j v, setLine (setLine s.line i l) (i + 1) m j = .calling v ∨ setLine (setLine s.line i l) (i + 1) m j = .full v →
            firstSent (hs ++ [a]) = some v) ∧
          (s.got.filterMap id = [] ∨ ∃ v, firstSent (hs ++ [a]) = some v ∧ s.got.filterMap id = [v] ∧
            setLine (setLine s.line i l) (i + 1) m n = .closed) := by
        intro i l m hi hr h1 h2 hl hm hlm
        refine ⟨fun h => und h1 h2 (h0 ?_), fun j v h => keep v ?_, hg'.imp_right fun ⟨v, e1, e2, e3⟩ => ⟨v, e1, e2, ?_⟩⟩
        · simp only [setLine] at h
          rw [if_neg (by omega)] at h
          split at h
          · next e => rw [e]; exact hl h
          · exact h
        · simp only [setLine] at h
          split at h
          · exact hlm v (.inr (.inr h))
          · split at h
            · exact hlm v (h.imp_right .inl)
            · exact hv j v h
        · have := ho i hi hr
          simp only [setLine]
          split
          · next e => rw [e, this] at e3; cases e3
          · rw [if_neg (by omega)]
            exact e3
      cases a with
      | send v =>
        simp only [HopLines.step]
        refine zero _ ?_ ?_ ?_
        · cases h : s.line 0 <;> simp
        · intro w hw
          cases h : s.line 0 with
          | idle =>
            rw [h] at hw
            simp only [HopLine.calling.injEq, reduceCtorEq, or_false] at hw
            rw [firstSent_append (h0 h), ← hw]; rfl
          | calling u => rw [h] at hw; exact keep w (hv 0 w (h ▸ hw))
          | full u => rw [h] at hw; exact keep w (hv 0 w (h ▸ hw))
          | closed => rw [h] at hw; simp at hw
        · intro h; rw [h]
      | poll =>
        simp only [HopLines.step]
        refine zero _ ?_ ?_ ?_
        · cases h : s.line 0 with
          | idle => exact fun _ => und (by simp) (by simp) (h0 h)
          | calling u => simp only; split <;> simp
          | _ => simp
        · intro w hw
          cases h : s.line 0 with
          | calling u =>
            rw [h] at hw
            simp only at hw
            split at hw
            · simp only [HopLine.full.injEq, reduceCtorEq, false_or] at hw
              exact keep w (hv 0 w (.inl (hw ▸ h)))
            · simp at hw
          | full u => rw [h] at hw; exact keep w (hv 0 w (h ▸ hw))
          | _ => rw [h] at hw; simp at hw
        · intro h; rw [h]
      | drop =>
        simp only [HopLines.step]
        refine zero _ ?_ ?_ ?_
        · cases h : s.line 0 <;> simp
        · intro w hw
          cases h : s.line 0 with
          | full u => rw [h] at hw; exact keep w (hv 0 w (h ▸ hw))
          | _ => rw [h] at hw; simp at hw
        · intro h; rw [h]
      | gateway i =>
        simp only [HopLines.step]
        split
        · next hi =>
          cases h : s.line i with
          | full v =>
            refine ended i .closed _ hi.1 hi.2 (by simp) (by simp) (by simp) (by split <;> simp) fun w hw => ?_
            have hf := hv i v (.inr h)
            split at hw
            · simp only [reduceCtorEq, HopLine.full.injEq, false_or] at hw
              rw [← hw]; exact hf
            · simp at hw
          | closed => exact ended i .closed .closed hi.1 hi.2 (by simp) (by simp) (by simp) (by simp) (by simp)
          | _ => exact same (by simp) (by simp)
        · exact same (by simp) (by simp)
      | crash i =>
        simp only [HopLines.step]
        split
        · next hi =>
          exact ended i (s.line i) .closed hi.1 hi.2 (by simp) (by simp) (fun h => h) (by simp) fun w hw => by
            simp only [reduceCtorEq, or_false] at hw
            exact hv i w hw
        · exact same (by simp) (by simp)
      | client =>
        simp only [HopLines.step]
        cases h : s.line n with
        | full v =>
          have hf := keep v (hv n v (.inr h))
          refine ⟨fun e => und (by simp) (by simp) (h0 ?_), fun j w hw => ?_, .inr ⟨v, hf, ?_, by simp [setLine]⟩⟩
          · simp only [setLine] at e
            split at e
            · cases e
            · exact e
          · simp only [setLine] at hw
            split at hw
            · simp at hw
            · exact keep w (hv j w hw)
          · rcases hg with hg | ⟨w, -, -, hg⟩
            · rw [List.filterMap_append, hg]; rfl
            · rw [h] at hg; cases hg
        | closed =>
          obtain ⟨a1, a2, a3⟩ := same (by simp) (by simp)
          refine ⟨a1, a2, ?_⟩
          rw [List.filterMap_append]
          simpa using a3
        | _ => exact same (by simp) (by simp)
  rw [got_run]
  rcases (inv hs).2.2 with h | ⟨v, h1, h2, -⟩
  · rw [h]; exact List.nil_prefix
  · rw [h2, h1]; exact List.prefix_refl _

example : firstSent [.poll, .send 7, .send 8, .drop] = some 7 ∧ firstSent [.drop, .send (7 : Nat)] = none := by decide

end HT
