import Verif.Spec.Tracing
import Verif.Props.Traceparent

/-! C119: traces through services that call one another. -/

namespace HT
open Spec

theorem setSampled_wf {c : TraceContext} (h : TraceWF c) (b : Bool) : TraceWF (c.setSampled b) := by
  obtain ⟨h1, h2, h3, h4, h5⟩ := h
  refine ⟨h1, h2, h3, h4, ?_⟩
  apply Nat.lt_pow_two_of_testBit
  intro i hi
  rw [(C55_sampled c b).2.2.1 i, if_neg (by omega)]
  exact Nat.testBit_lt_two_pow (Nat.lt_of_lt_of_le h5 (Nat.pow_le_pow_right (by decide) hi))

theorem child_wf {c : TraceContext} (h : TraceWF c) {r : Nat} (hr : r < 2 ^ 64) : TraceWF (c.child r) := by
  obtain ⟨h1, h2, h3, h4, h5⟩ := h
  refine ⟨hr, h2, h3, ?_, h5⟩
  intro p hp
  cases hp
  exact h1

/-- The fresh ids among some steps. -/
def stepIds (es : List TraceStep) : List Nat := es.filterMap fun | .child r => some r | .record _ => none

/-- The decisions among some steps. -/
def stepSays (es : List TraceStep) : List Bool := es.filterMap fun | .child _ => none | .record b => some b

theorem steps_run (es : List TraceStep) : ∀ c : TraceContext, TraceWF c → (∀ r ∈ stepIds es, r < 2 ^ 64) →
    TraceWF (es.foldl TraceStep.run c) := by
  induction es with
  | nil => intro c h _; exact h
  | cons e es ih =>
    intro c h hr
    cases e with
    | child r => exact ih _ (child_wf h (hr r (by simp [stepIds]))) fun x hx => hr x (by
        simp only [stepIds] at hx ⊢; simp [hx])
    | record b => exact ih _ (setSampled_wf h b) fun x hx => hr x (by simpa [stepIds] using hx)

theorem steps_keep (es : List TraceStep) : ∀ c : TraceContext,
    let d := es.foldl TraceStep.run c
    d.traceId = c.traceId ∧ d.version = c.version ∧
    (∀ i, i ≠ 0 → d.flags.testBit i = c.flags.testBit i) ∧
    d.sampled = (c.sampled :: stepSays es).getLast (by simp) ∧
    d.id = (c.id :: stepIds es).getLast (by simp) ∧
    d.parentId = (if stepIds es = [] then c.parentId else (c.id :: stepIds es).dropLast.getLast?) := by
  induction es with
  | nil => intro c; exact ⟨rfl, rfl, fun _ _ => rfl, rfl, rfl, rfl⟩
  | cons e es ih =>
    intro c
    cases e with
    | child r =>
      obtain ⟨h1, h2, h3, h4, h5, h6⟩ := ih (c.child r)
      refine ⟨h1, h2, h3, h4, h5, h6.trans (Eq.trans ?_ (if_neg (List.cons_ne_nil r _)).symm)⟩
      show _ = (c.id :: r :: stepIds es).dropLast.getLast?
      cases stepIds es with
      | nil => exact if_pos rfl
      | cons x xs => exact if_neg (List.cons_ne_nil x xs)
    | record b =>
      obtain ⟨h1, h2, h3, h4, h5, h6⟩ := ih (c.setSampled b)
      obtain ⟨g1, -, g3, -⟩ := C55_sampled c b
      refine ⟨h1, h2, ?_, ?_, h5, h6⟩
      · intro i hi
        rw [← show _ = c.flags.testBit i from (g3 i).trans (if_neg hi)]
        exact h3 i hi
      · simp only [g1] at h4
        exact h4

/-- Everything that happens on the way: being called is, for the trace, like starting a child. -/
def onTheWay (ss : List Service) : List TraceStep := ss.flatMap fun s => .child s.fresh :: s.steps

theorem calls_eq (ss : List Service) : ∀ c : TraceContext, TraceWF c → (∀ s ∈ ss, ∀ r ∈ s.ids, r < 2 ^ 64) →
    calls c ss = .ok (some ((onTheWay ss).foldl TraceStep.run c)) := by
  induction ss with
  | nil => intro c _ _; rfl
  | cons s ss ih =>
    intro c hc hr
    obtain ⟨h', v, e1, -, -, e2⟩ := C55_round_trip c hc s.fresh s.req
    have hcall : call c s = .ok (some (s.steps.foldl TraceStep.run (c.child s.fresh))) := by
      unfold call
      rw [e1]
      simp only [Res.bind]
      rw [e2]
      rfl
    have hwf : TraceWF (s.steps.foldl TraceStep.run (c.child s.fresh)) := by
      apply steps_run _ _ (child_wf hc (hr s (by simp) _ (by simp [Service.ids])))
      intro r h
      exact hr s (by simp) r (List.mem_cons_of_mem _ h)
    unfold calls
    rw [hcall]
    simp only [Res.bind]
    rw [ih _ hwf fun t ht => hr t (by simp [ht])]
    unfold onTheWay
    rw [List.flatMap_cons, List.foldl_append]
    rfl

theorem onTheWay_ids (ss : List Service) : stepIds (onTheWay ss) = ss.flatMap Service.ids := by
  induction ss with
  | nil => rfl
  | cons s ss ih =>
    unfold onTheWay stepIds at ih ⊢
    rw [List.flatMap_cons, List.flatMap_cons, List.filterMap_append, ih]
    rfl

theorem onTheWay_says (ss : List Service) : stepSays (onTheWay ss) = ss.flatMap Service.decisions := by
  induction ss with
  | nil => rfl
  | cons s ss ih =>
    unfold onTheWay stepSays at ih ⊢
    rw [List.flatMap_cons, List.flatMap_cons, List.filterMap_append, ih]
    rfl

/-- However many services call one another, and whatever children they start, the last context is in the trace of the
first, of the same version, recorded as was decided last, with the other flags as they were, the last fresh id as its
id, and the id before it as its parent. -/
theorem C119_trace (c : TraceContext) (hc : TraceWF c) (ss : List Service)
    (hr : ∀ s ∈ ss, ∀ r ∈ s.ids, r < 2 ^ 64) :
    ∃ d, calls c ss = .ok (some d) ∧ d.traceId = c.traceId ∧ d.version = c.version ∧
      (∀ i, i ≠ 0 → d.flags.testBit i = c.flags.testBit i) ∧
      d.sampled = (c.sampled :: ss.flatMap Service.decisions).getLast (by simp) ∧
      d.id = (c.id :: ss.flatMap Service.ids).getLast (by simp) ∧
      (ss ≠ [] → d.parentId = (c.id :: ss.flatMap Service.ids).dropLast.getLast?) := by
  refine ⟨_, calls_eq ss c hc hr, ?_⟩
  obtain ⟨h1, h2, h3, h4, h5, h6⟩ := steps_keep (onTheWay ss) c
  simp only [onTheWay_ids, onTheWay_says] at h4 h5 h6
  refine ⟨h1, h2, h3, h4, h5, fun hne => ?_⟩
  rw [h6, if_neg]
  cases ss with
  | nil => exact absurd rfl hne
  | cons s ss => simp [Service.ids]

example : calls (.new 1 2) [⟨3, [.child 4, .record false], [(s!!"traceparent", [s!!"x"])]⟩, ⟨5, [], []⟩] =
    .ok (some ⟨5, 0, 2, some 4, 0⟩) := by decide +kernel

/-- What the last service sends on is valid by the recommendation if the first context was and the last fresh id is not
zero; it then says the trace of the first and the id of the last. -/
theorem C119_valid (c : TraceContext) (hc : TraceWF c) (ss : List Service)
    (hr : ∀ s ∈ ss, ∀ r ∈ s.ids, r < 2 ^ 64) (hv : ∃ ver t p f, ValidTraceparent c.headerValue ver t p f)
    (h0 : (c.id :: ss.flatMap Service.ids).getLast (by simp) ≠ 0) :
    ∃ d, calls c ss = .ok (some d) ∧
      ValidTraceparent d.headerValue c.version c.traceId ((c.id :: ss.flatMap Service.ids).getLast (by simp)) d.flags := by
  obtain ⟨ver, t, p, f, hv⟩ := hv
  obtain ⟨-, v1, v2, -⟩ := (C93_written_partial c hc ver t p f).mp hv
  obtain ⟨d, e, h1, h2, -, -, h5, -⟩ := C119_trace c hc ss hr
  have hd : TraceWF d := by
    rw [calls_eq ss c hc hr] at e
    cases e
    apply steps_run _ _ hc
    rw [onTheWay_ids]
    intro r h
    obtain ⟨s, hs, h⟩ := List.mem_flatMap.mp h
    exact hr s hs r h
  refine ⟨d, e, (C93_written_partial d hd _ _ _ _).mpr ⟨⟨h2.symm, h1.symm, h5.symm, rfl⟩, ?_⟩⟩
  rw [h1, h2, h5]
  exact ⟨v1, v2, h0⟩

example : ∃ ver t p f, ValidTraceparent (TraceContext.new 1 2).headerValue ver t p f :=
  ⟨0, 2, 1, 1, ((C93_new_partial (by decide) (by decide)).2.2.2.2.2).mpr ⟨by decide, by decide⟩⟩

end HT
