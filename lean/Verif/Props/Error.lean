import Verif.Spec.Error
import Verif.Props.Tables

/-! C82: errors keep what they were made from. C83: the early-return macros. -/

namespace HT
open Spec
variable {W : ErrTypes}

theorem find_eq_some {t : W.Ty} {v : W.Val t} {l : List (ErrVal W)} :
    Anyhow.find t l = some v ↔ FirstOf t v l := by
  induction l with
  | nil =>
    constructor
    · intro h; cases h
    · rintro ⟨pre, post, h, -⟩; cases pre <;> cases h
  | cons x xs ih =>
    obtain ⟨u, w⟩ := x
    unfold Anyhow.find
    by_cases hu : u = t
    · subst hu
      simp only [dif_pos]
      constructor
      · intro h; cases h; exact ⟨[], xs, rfl, by simp⟩
      · rintro ⟨pre, post, h, hp⟩
        cases pre with
        | nil => simp at h; rw [h.1]
        | cons y ys => simp at h; exact absurd (by rw [← h.1]) (hp y (by simp))
    · simp only [dif_neg hu]
      rw [ih]
      constructor
      · rintro ⟨pre, post, rfl, hp⟩
        refine ⟨⟨u, w⟩ :: pre, post, rfl, ?_⟩
        intro x hx
        rcases List.mem_cons.mp hx with rfl | hx
        · exact hu
        · exact hp x hx
      · rintro ⟨pre, post, h, hp⟩
        cases pre with
        | nil => simp at h; exact absurd h.1.1 hu
        | cons y ys => simp at h; exact ⟨ys, post, h.2, fun x hx => hp x (by simp [hx])⟩

theorem find_eq_none {t : W.Ty} {l : List (ErrVal W)} : Anyhow.find t l = none ↔ Lacks t l := by
  induction l with
  | nil => simp [Anyhow.find, Lacks]
  | cons x xs ih =>
    unfold Anyhow.find
    by_cases hu : x.1 = t
    · simp [hu, Lacks]
    · simp only [dif_neg hu, ih, Lacks, List.mem_cons, forall_eq_or_imp]
      exact ⟨fun h => ⟨hu, h⟩, fun h => h.2⟩

theorem put_types (t : W.Ty) (v : W.Val t) (l : List (ErrVal W)) :
    (Anyhow.put t v l).map (·.1) = l.map (·.1) := by
  induction l with
  | nil => rfl
  | cons x xs ih =>
    unfold Anyhow.put
    by_cases h : x.1 = t
    · simp [h]
    · simp [h, ih]

theorem find_put (t : W.Ty) (v : W.Val t) (l : List (ErrVal W)) :
    Anyhow.find t (Anyhow.put t v l) = (Anyhow.find t l).map fun _ => v := by
  induction l with
  | nil => rfl
  | cons x xs ih =>
    by_cases h : x.1 = t
    · simp [Anyhow.put, Anyhow.find, h]
    · simp [Anyhow.put, Anyhow.find, h, ih]

theorem find_put_ne {t u : W.Ty} (v : W.Val t) (hu : u ≠ t) (l : List (ErrVal W)) :
    Anyhow.find u (Anyhow.put t v l) = Anyhow.find u l := by
  induction l with
  | nil => rfl
  | cons x xs ih =>
    by_cases h : x.1 = t
    · simp [Anyhow.put, Anyhow.find, h, Ne.symm hu]
    · simp only [Anyhow.put, if_neg h, Anyhow.find, ih]

theorem downcastSet_layers (t : W.Ty) (v : W.Val t) (a : Anyhow W) :
    (a.downcastSet t v).layers = Anyhow.put t v a.layers := by
  unfold Anyhow.downcastSet
  cases h : Anyhow.put t v a.layers with
  | nil =>
    have := put_types t v a.layers
    rw [h] at this
    simp [Anyhow.layers] at this
  | cons x xs => rfl

/-- Two text types and a number type. -/
def demoTypes : ErrTypes where
  Ty := Fin 3
  dec := inferInstance
  Val t := if t = 2 then Nat else Str
  typeName t := if t = 0 then s!!"&str" else if t = 1 then s!!"alloc::string::String" else s!!"u64"
  display t := match t with
    | 0 => fun s => s
    | 1 => fun s => s
    | 2 => fun n => dec n
  debug t := match t with
    | 0 => fun s => s
    | 1 => fun s => s
    | 2 => fun n => dec n
  str := 0
  ofStr s := s
  string := 1
  ofString s := s

example : Lawful demoTypes := ⟨fun _ => rfl, fun _ => rfl, by decide, by decide⟩

/-- `downcast_ref` and `downcast` find the outermost value of the type asked for; `downcast` gives it, or
the whole error back, and never panics. -/
theorem C82_downcast (e : HError W) (t : W.Ty) :
    (∀ v, e.downcastRef t = some v ↔ FirstOf t v e.intoInner.layers) ∧
    (∀ v, e.downcast t = .ok v ↔ FirstOf t v e.intoInner.layers) ∧
    (e.downcastRef t = none ↔ Lacks t e.intoInner.layers) ∧
    (∀ e', e.downcast t = .err e' ↔ Lacks t e.intoInner.layers ∧ e' = e) ∧
    e.downcast t ≠ .panic := by
  have h1 : ∀ v, e.downcastRef t = some v ↔ FirstOf t v e.intoInner.layers := fun v => find_eq_some
  have h2 : e.downcastRef t = none ↔ Lacks t e.intoInner.layers := find_eq_none
  refine ⟨h1, ?_, h2, ?_, ?_⟩
  · intro v
    rw [← h1]
    unfold HError.downcast HError.downcastRef
    cases e.error.downcastRef t <;> simp
  · intro e'
    rw [← h2]
    unfold HError.downcast HError.downcastRef
    cases e.error.downcastRef t <;> simp [eq_comm]
  · unfold HError.downcast
    cases e.error.downcastRef t <;> simp

example : (⟨⟨⟨(0 : Fin 3), s!!"while reading"⟩, [⟨(2 : Fin 3), (7 : Nat)⟩]⟩, .ok, none⟩ : HError demoTypes).downcastRef (2 : Fin 3) =
    some (7 : Nat) := rfl

/-- An error made with a status and a value keeps the value: it can be had back at its type, the status is
the one given, the text is the value's, and the type name is the value's. A number that is no status code
panics. -/
theorem C82_new (s : StatusArg) (t : W.Ty) (v : W.Val t) :
    (∀ e, HError.new s (.val ⟨t, v⟩) = some e ↔
      Denotes s e.getStatus ∧ e.intoInner.layers = [⟨t, v⟩] ∧ e.getTypeName = some (W.typeName t)) ∧
    (∀ e, HError.fromStr s ⟨t, v⟩ = some e ↔
      Denotes s e.getStatus ∧ e.intoInner.layers = [⟨t, v⟩] ∧ e.getTypeName = none) ∧
    (∀ e : HError W, e.intoInner.layers = [⟨t, v⟩] →
      e.display = W.display t v ∧ e.downcast t = .ok v ∧ ∀ u, u ≠ t → e.downcastRef u = none) := by
  have hd : ∀ c, s.tryInto = some c ↔ Denotes s c := by
    intro c
    cases s with
    | code d => simp [StatusArg.tryInto, Denotes]
    | num n => exact StatusCode.tryFrom_iff n c
  have key : ∀ (tn : Option Str) (e : HError W),
      s.tryInto.map (fun c => (⟨.ofVal ⟨t, v⟩, c, tn⟩ : HError W)) = some e ↔
      Denotes s e.getStatus ∧ e.intoInner.layers = [⟨t, v⟩] ∧ e.getTypeName = tn := by
    intro tn e
    rw [Option.map_eq_some_iff]
    constructor
    · rintro ⟨c, hc, rfl⟩
      exact ⟨(hd c).mp hc, rfl, rfl⟩
    · rintro ⟨h1, h2, h3⟩
      refine ⟨_, (hd _).mpr h1, ?_⟩
      obtain ⟨⟨o, i⟩, st, n⟩ := e
      simp [HError.intoInner, Anyhow.layers, HError.getTypeName, HError.getStatus] at h2 h3 ⊢
      simp [Anyhow.ofVal, h2, h3]
  refine ⟨key _, key _, ?_⟩
  intro e he
  have h1 : e.downcast t = .ok v := ((C82_downcast e t).2.1 v).mpr ⟨[], [], by rw [he]; rfl, by simp⟩
  refine ⟨?_, h1, ?_⟩
  · obtain ⟨⟨o, i⟩, st, n⟩ := e
    simp [HError.intoInner, Anyhow.layers] at he
    obtain ⟨rfl, rfl⟩ := he
    rfl
  · intro u hu
    refine (C82_downcast e u).2.2.1.mpr ?_
    rw [he]
    intro x hx
    simp at hx
    subst hx
    exact Ne.symm hu

example : (HError.new (.num 404) (.val ⟨(2 : Fin 3), (7 : Nat)⟩) : Option (HError demoTypes)).map
      (fun e => (e.getStatus, e.getTypeName, e.display)) = some (.notFound, some s!!"u64", s!!"7") := by decide +kernel

/-- Errors made from the text of something show that text, have status 500 and hold it as a string.
Converting to `anyhow::Error` and back keeps the layers and the text, and resets the status to 500. -/
theorem C82_text (hW : Lawful W) (text : Str) (e : HError W) :
    (∃ x : HError W, HError.fromDisplay text = some x ∧ x.display = text ∧ x.getStatus.toNat = 500 ∧
      x.downcast W.string = .ok (W.ofString text)) ∧
    HError.fromDebug (W := W) text = HError.fromDisplay text ∧
    (∃ x : HError W, HError.ofError (.any e.intoInner) = some x ∧ x.intoInner = e.intoInner ∧
      x.display = e.display ∧ x.getStatus.toNat = 500) := by
  refine ⟨⟨_, rfl, hW.show_string text, rfl, ?_⟩, rfl, ⟨_, rfl, rfl, rfl, rfl⟩⟩
  exact ((C82_downcast _ _).2.1 _).mpr ⟨[], [], rfl, by simp⟩

example : (HError.fromDisplay (W := demoTypes) s!!"no route").map (fun e => (e.display, e.getStatus)) =
    some (s!!"no route", .internalServerError) := by decide +kernel

/-- The type name need not be the name of anything in the error: an error made by `from_display` or
`from_debug` calls itself `anyhow::Error` and can be downcast to no type of that name. -/
theorem C82_violated_type_name (hW : Lawful W) (text : Str) (e : HError W)
    (he : HError.fromDisplay text = some e) :
    ∃ n, e.getTypeName = some n ∧ ∀ t, W.typeName t = n → e.downcastRef t = none := by
  have : e = ⟨.ofVal ⟨W.string, W.ofString text⟩, .internalServerError, some s!!"anyhow::Error"⟩ := by
    have h : HError.fromDisplay (W := W) text = some
      ⟨.ofVal ⟨W.string, W.ofString text⟩, .internalServerError, some s!!"anyhow::Error"⟩ := rfl
    rw [h] at he; cases he; rfl
  subst this
  refine ⟨_, rfl, ?_⟩
  intro t ht
  refine (C82_downcast _ t).2.2.1.mpr ?_
  intro x hx
  have hx : x = ⟨W.string, W.ofString text⟩ := by
    simpa [HError.intoInner, Anyhow.layers, Anyhow.ofVal] using hx
  subst hx
  intro h
  exact hW.name_string ((congrArg W.typeName h).trans ht)

/-! ### Histories -/

theorem step_alive {e e' : HError W} {op : ErrOp W} (h : op.step e = .alive e') :
    e'.typeName = e.typeName ∧ e'.error.layers.map (·.1) = e.error.layers.map (·.1) ∧
    (GivesStatus e'.status op ∨ (∀ c, ¬ GivesStatus c op) ∧ e'.status = e.status) ∧
    (∀ t, (∃ v, op = .write t v ∧ e'.downcastRef t = (e.downcastRef t).map fun _ => v) ∨
      ¬ WritesType t op ∧ e'.downcastRef t = e.downcastRef t) := by
  cases op with
  | setStatus s =>
    unfold ErrOp.step HError.setStatus at h
    cases hs : s.tryInto with
    | none => simp [hs] at h
    | some c =>
      simp [hs] at h
      subst h
      refine ⟨rfl, rfl, Or.inl ?_, fun t => Or.inr ⟨id, rfl⟩⟩
      cases s with
      | code d => simp [StatusArg.tryInto] at hs; simp [GivesStatus, Denotes, hs]
      | num n => exact (StatusCode.tryFrom_iff n c).mp hs
  | writeStatus c =>
    unfold ErrOp.step HError.writeStatus at h
    cases h
    exact ⟨rfl, rfl, Or.inl rfl, fun t => Or.inr ⟨id, rfl⟩⟩
  | write t v =>
    unfold ErrOp.step HError.downcastSet at h
    cases h
    refine ⟨rfl, ?_, Or.inr ⟨fun c => id, rfl⟩, ?_⟩
    · rw [downcastSet_layers, put_types]
    · intro u
      by_cases hu : u = t
      · subst hu
        left
        refine ⟨v, rfl, ?_⟩
        unfold HError.downcastRef Anyhow.downcastRef
        rw [downcastSet_layers, find_put]
      · right
        refine ⟨fun h => hu h.symm, ?_⟩
        unfold HError.downcastRef Anyhow.downcastRef
        rw [downcastSet_layers, find_put_ne v hu]
  | take t =>
    unfold ErrOp.step at h
    cases hd : e.downcast t with
    | ok v => simp [hd] at h
    | panic => exact absurd hd (C82_downcast e t).2.2.2.2
    | err x =>
      simp [hd] at h
      subst h
      have := ((C82_downcast e t).2.2.2.1 x).mp hd
      rw [this.2]
      exact ⟨rfl, rfl, Or.inr ⟨fun c => id, rfl⟩, fun t => Or.inr ⟨id, rfl⟩⟩

theorem run_append (e : HError W) (a b : List (ErrOp W)) :
    ErrOp.run e (a ++ b) = match ErrOp.run e a with
      | .alive e => ErrOp.run e b
      | r => r := by
  induction a generalizing e with
  | nil => rfl
  | cons op a ih =>
    simp only [List.cons_append, ErrOp.run]
    cases op.step e with
    | alive e' => exact ih e'
    | taken t v => rfl
    | panic => rfl

/-- After any calls that leave the error in hand, the type name and the types inside are as at the start,
the status is the one given last, and the value of each type is the one written last. -/
theorem C82_history (e e' : HError W) (ops : List (ErrOp W)) (h : ErrOp.run e ops = .alive e') :
    e'.getTypeName = e.getTypeName ∧
    e'.intoInner.layers.map (·.1) = e.intoInner.layers.map (·.1) ∧
    ((∃ pre op post, ops = pre ++ op :: post ∧ GivesStatus e'.getStatus op ∧
        ∀ o ∈ post, ∀ c, ¬ GivesStatus c o) ∨
      (∀ o ∈ ops, ∀ c, ¬ GivesStatus c o) ∧ e'.getStatus = e.getStatus) ∧
    (∀ t, (∃ pre v post, ops = pre ++ .write t v :: post ∧ (∀ o ∈ post, ¬ WritesType t o) ∧
        e'.downcastRef t = (e.downcastRef t).map fun _ => v) ∨
      (∀ o ∈ ops, ¬ WritesType t o) ∧ e'.downcastRef t = e.downcastRef t) := by
  induction ops using List.reverseRecOn generalizing e' with
  | nil =>
    cases h
    exact ⟨rfl, rfl, Or.inr ⟨by simp, rfl⟩, fun t => Or.inr ⟨by simp, rfl⟩⟩
  | append_singleton ops op ih =>
    rw [run_append] at h
    cases hr : ErrOp.run e ops with
    | taken t v => simp [hr] at h
    | panic => simp [hr] at h
    | alive m =>
      simp only [hr, ErrOp.run] at h
      obtain ⟨i1, i2, i3, i4⟩ := ih m hr
      have hs : op.step m = .alive e' := by
        cases hs : op.step m with
        | alive x => simpa [hs] using h
        | taken t v => simp [hs] at h
        | panic => simp [hs] at h
      obtain ⟨s1, s2, s3, s4⟩ := step_alive hs
      refine ⟨s1.trans i1, s2.trans i2, ?_, ?_⟩
      · rcases s3 with s3 | ⟨s3, s3'⟩
        · exact Or.inl ⟨ops, op, [], rfl, s3, by simp⟩
        · rcases i3 with ⟨pre, o, post, rfl, g, hp⟩ | ⟨g, hp⟩
          · refine Or.inl ⟨pre, o, post ++ [op], by simp, ?_, ?_⟩
            · have : e'.getStatus = m.getStatus := s3'
              rw [this]; exact g
            · intro x hx
              rcases List.mem_append.mp hx with hx | hx
              · exact hp x hx
              · simp at hx; subst hx; exact s3
          · refine Or.inr ⟨?_, s3'.trans hp⟩
            intro x hx
            rcases List.mem_append.mp hx with hx | hx
            · exact g x hx
            · simp at hx; subst hx; exact s3
      · intro t
        rcases s4 t with ⟨v, rfl, hv⟩ | ⟨hn, hv⟩
        · refine Or.inl ⟨ops, v, [], rfl, by simp, ?_⟩
          rw [hv]
          rcases i4 t with ⟨pre, w, post, -, -, hw⟩ | ⟨-, hw⟩
          · rw [hw]; cases e.downcastRef t <;> rfl
          · rw [hw]
        · rcases i4 t with ⟨pre, w, post, rfl, hp, hw⟩ | ⟨hp, hw⟩
          · refine Or.inl ⟨pre, w, post ++ [op], by simp, ?_, hv.trans hw⟩
            intro x hx
            rcases List.mem_append.mp hx with hx | hx
            · exact hp x hx
            · simp at hx; subst hx; exact hn
          · refine Or.inr ⟨?_, hv.trans hw⟩
            intro x hx
            rcases List.mem_append.mp hx with hx | hx
            · exact hp x hx
            · simp at hx; subst hx; exact hn

example : ErrOp.run (W := demoTypes) ⟨⟨⟨(2 : Fin 3), (7 : Nat)⟩, []⟩, .ok, none⟩
    [.setStatus (.num 404), .write (2 : Fin 3) (8 : Nat), .take (1 : Fin 3)] =
      .alive ⟨⟨⟨(2 : Fin 3), (8 : Nat)⟩, []⟩, .notFound, none⟩ := rfl

theorem step_taken {e : HError W} {op : ErrOp W} {t : W.Ty} {v : W.Val t} :
    op.step e = .taken t v ↔ op = .take t ∧ FirstOf t v e.intoInner.layers := by
  cases op with
  | setStatus s => cases hs : e.setStatus s <;> simp [ErrOp.step, hs]
  | writeStatus c => simp [ErrOp.step]
  | write t v => simp [ErrOp.step]
  | take u =>
    cases hd : e.downcast u with
    | ok w =>
      simp only [ErrOp.step, hd, ErrEnd.taken.injEq, ErrOp.take.injEq]
      have hw := ((C82_downcast e u).2.1 w).mp hd
      constructor
      · rintro ⟨rfl, h⟩; cases h; exact ⟨rfl, hw⟩
      · rintro ⟨rfl, h⟩
        have := ((C82_downcast e u).2.1 v).mpr h
        rw [hd] at this
        cases this
        exact ⟨rfl, HEq.rfl⟩
    | err x =>
      simp only [ErrOp.step, hd, reduceCtorEq, ErrOp.take.injEq, false_iff]
      rintro ⟨rfl, h⟩
      have := ((C82_downcast e u).2.1 v).mpr h
      rw [hd] at this; cases this
    | panic => exact absurd hd (C82_downcast e u).2.2.2.2

theorem step_panic {e : HError W} {op : ErrOp W} :
    op.step e = .panic ↔ ∃ s, op = .setStatus s ∧ ∀ c, ¬ Denotes s c := by
  cases op with
  | setStatus s =>
    cases hs : s.tryInto with
    | none =>
      simp only [ErrOp.step, HError.setStatus, hs, Option.map_none, true_iff, ErrOp.setStatus.injEq]
      refine ⟨s, rfl, ?_⟩
      intro c hc
      cases s with
      | code d => simp [StatusArg.tryInto] at hs
      | num n =>
        have := (StatusCode.tryFrom_iff n c).mpr hc
        simp [StatusArg.tryInto, this] at hs
    | some c =>
      simp only [ErrOp.step, HError.setStatus, hs, Option.map_some, reduceCtorEq, ErrOp.setStatus.injEq, false_iff]
      rintro ⟨s', rfl, h⟩
      refine h c ?_
      cases s with
      | code d => simpa [StatusArg.tryInto, Denotes] using hs
      | num n => exact (StatusCode.tryFrom_iff n c).mp hs
  | writeStatus c => simp [ErrOp.step]
  | write t v => simp [ErrOp.step]
  | take u =>
    cases hd : e.downcast u with
    | ok w => simp [ErrOp.step, hd]
    | err x => simp [ErrOp.step, hd]
    | panic => exact absurd hd (C82_downcast e u).2.2.2.2

theorem run_stop (e : HError W) (ops : List (ErrOp W)) (r : ErrEnd W) (hr : ∀ x, r ≠ .alive x) :
    ErrOp.run e ops = r ↔
      ∃ pre op post m, ops = pre ++ op :: post ∧ ErrOp.run e pre = .alive m ∧ op.step m = r := by
  induction ops generalizing e with
  | nil =>
    constructor
    · intro h; exact absurd h.symm (hr e)
    · rintro ⟨pre, op, post, m, h, -⟩; cases pre <;> cases h
  | cons o ops ih =>
    cases ho : o.step e with
    | alive m =>
      simp only [ErrOp.run, ho]
      rw [ih]
      constructor
      · rintro ⟨pre, op, post, k, rfl, h1, h2⟩
        exact ⟨o :: pre, op, post, k, rfl, by simp [ErrOp.run, ho, h1], h2⟩
      · rintro ⟨pre, op, post, k, h, h1, h2⟩
        cases pre with
        | nil =>
          simp [ErrOp.run] at h h1
          rw [← h1, ← h.1, ho] at h2
          exact absurd h2.symm (hr m)
        | cons p pre =>
          simp at h
          refine ⟨pre, op, post, k, h.2, ?_, h2⟩
          rw [← h.1] at h1
          simpa [ErrOp.run, ho] using h1
    | taken t v =>
      simp only [ErrOp.run, ho]
      constructor
      · intro h; exact ⟨[], o, ops, e, rfl, rfl, by rw [ho]; exact h⟩
      · rintro ⟨pre, op, post, k, h, h1, h2⟩
        cases pre with
        | nil => simp [ErrOp.run] at h h1; rw [← h1, ← h.1, ho] at h2; exact h2
        | cons p pre => simp at h; rw [← h.1] at h1; simp [ErrOp.run, ho] at h1
    | panic =>
      simp only [ErrOp.run, ho]
      constructor
      · intro h; exact ⟨[], o, ops, e, rfl, rfl, by rw [ho]; exact h⟩
      · rintro ⟨pre, op, post, k, h, h1, h2⟩
        cases pre with
        | nil => simp [ErrOp.run] at h h1; rw [← h1, ← h.1, ho] at h2; exact h2
        | cons p pre => simp at h; rw [← h.1] at h1; simp [ErrOp.run, ho] at h1

/-- A sequence of calls stops early only at a `downcast` to a type that is inside, which gives the value
inside at that moment, or by a panic at a `set_status` with a number that is no status code. -/
theorem C82_stops (e : HError W) (ops : List (ErrOp W)) :
    (∀ t v, ErrOp.run e ops = .taken t v ↔ ∃ pre post m, ops = pre ++ .take t :: post ∧
      ErrOp.run e pre = .alive m ∧ FirstOf t v m.intoInner.layers) ∧
    (ErrOp.run e ops = .panic ↔ ∃ pre s post m, ops = pre ++ .setStatus s :: post ∧
      ErrOp.run e pre = .alive m ∧ ∀ c, ¬ Denotes s c) := by
  constructor
  · intro t v
    rw [run_stop _ _ _ (by simp)]
    constructor
    · rintro ⟨pre, op, post, m, h, h1, h2⟩
      obtain ⟨rfl, h3⟩ := step_taken.mp h2
      exact ⟨pre, post, m, h, h1, h3⟩
    · rintro ⟨pre, post, m, h, h1, h2⟩
      exact ⟨pre, _, post, m, h, h1, step_taken.mpr ⟨rfl, h2⟩⟩
  · rw [run_stop _ _ _ (by simp)]
    constructor
    · rintro ⟨pre, op, post, m, h, h1, h2⟩
      obtain ⟨s, rfl, h3⟩ := step_panic.mp h2
      exact ⟨pre, s, post, m, h, h1, h3⟩
    · rintro ⟨pre, s, post, m, h, h1, h2⟩
      exact ⟨pre, _, post, m, h, h1, step_panic.mpr ⟨s, rfl, h2⟩⟩

/-- A number under a context text; the number is overwritten, the status set twice, the text not found as a
`String`, the number taken. -/
example : ErrOp.run (W := demoTypes) ⟨⟨⟨(0 : Fin 3), s!!"while reading"⟩, [⟨(2 : Fin 3), (7 : Nat)⟩]⟩, .ok, none⟩
    [.setStatus (.num 404), .write (2 : Fin 3) (8 : Nat), .take (1 : Fin 3), .writeStatus .badGateway,
      .take (2 : Fin 3)] = .taken (2 : Fin 3) (8 : Nat) := rfl

/-! ## C83 the macros -/

variable {α β σ : Type}

/-- The macros without a status: the rest of the function runs exactly when the condition holds, and then
the message is not evaluated; otherwise the function returns an error of status 500 holding the message,
which is evaluated once. -/
theorem C83_plain [DecidableEq β] (cond : σ → Bool × σ) (left right : σ → β × σ) (msg : σ → ErrVal W × σ)
    (rest : σ → Out α (HError W) × σ) (st : σ) :
    let s1 := (cond st).2
    let s2 := (right (left st).2).2
    let fails := fun s => (Out.err (⟨.ofVal (msg s).1, .internalServerError, none⟩ : HError W), (msg s).2)
    (Macro.bail msg st : Out α (HError W) × σ) = fails st ∧
    Macro.ensure cond msg rest st = (if (cond st).1 = true then rest s1 else fails s1) ∧
    Macro.ensureEq left right msg rest st =
      (if (left st).1 = (right (left st).2).1 then rest s2 else fails s2) ∧
    Macro.formatErr msg st = (some ⟨.ofVal (msg st).1, .internalServerError, none⟩, (msg st).2) := by
  refine ⟨rfl, ?_, ?_, rfl⟩
  · unfold Macro.ensure
    cases h : (cond st).1 <;> simp [h] <;> rfl
  · unfold Macro.ensureEq
    by_cases h : (left st).1 = (right (left st).2).1 <;> simp [h] <;> rfl

example : (Macro.ensure (W := demoTypes) (fun n : Nat => (decide (n < 3), n + 1)) (fun n => (⟨(2 : Fin 3), n⟩, n + 10))
      (fun n => (.ok n, n + 100)) 2 : Out Nat (HError demoTypes) × Nat) = (.ok 3, 103) ∧
    (Macro.ensure (W := demoTypes) (fun n : Nat => (decide (n < 3), n + 1)) (fun n => (⟨(2 : Fin 3), n⟩, n + 10))
      (fun n => (.ok n, n + 100)) 5 : Out Nat (HError demoTypes) × Nat) =
        (.err ⟨⟨⟨(2 : Fin 3), (6 : Nat)⟩, []⟩, .internalServerError, none⟩, 16) := ⟨rfl, rfl⟩

/-- The macros with a status: the same, with that status. -/
theorem C83_status [DecidableEq β] (cond : σ → Bool × σ) (left right : σ → β × σ) (c : StatusCode)
    (msg : σ → ErrVal W × σ) (rest : σ → Out α (HError W) × σ) (st : σ) :
    let s1 := (cond st).2
    let s2 := (right (left st).2).2
    let fails := fun s => (Out.err (⟨.ofVal (msg s).1, c, none⟩ : HError W), (msg s).2)
    (Macro.bailStatus c.toNat msg st : Out α (HError W) × σ) = fails st ∧
    Macro.ensureStatus cond c.toNat msg rest st = (if (cond st).1 = true then rest s1 else fails s1) ∧
    Macro.ensureEqStatus left right c.toNat msg rest st =
      (if (left st).1 = (right (left st).2).1 then rest s2 else fails s2) ∧
    Macro.formatErrStatus c.toNat msg st = (some ⟨.ofVal (msg st).1, c, none⟩, (msg st).2) := by
  have hc : StatusCode.tryFrom c.toNat = some c := (StatusCode.tryFrom_iff _ c).mpr rfl
  have hf : ∀ s, Macro.formatErrStatus c.toNat msg s =
      (some (⟨.ofVal (msg s).1, c, none⟩ : HError W), (msg s).2) := by
    intro s
    simp [Macro.formatErrStatus, HError.newAdhoc, HError.fromStr, HError.setStatus, StatusArg.tryInto, hc]
  have hb : ∀ s, (Macro.bailStatus c.toNat msg s : Out α (HError W) × σ) =
      (Out.err (⟨.ofVal (msg s).1, c, none⟩ : HError W), (msg s).2) := by
    intro s
    simp [Macro.bailStatus, hf, Macro.ret]
  refine ⟨hb st, ?_, ?_, hf st⟩
  · unfold Macro.ensureStatus
    cases h : (cond st).1 <;> simp [h, hb]
  · unfold Macro.ensureEqStatus
    by_cases h : (left st).1 = (right (left st).2).1 <;> simp [h, hb]

example : (Macro.ensureStatus (W := demoTypes) (fun n : Nat => (decide (n < 3), n + 1)) 404 (fun n => (⟨(2 : Fin 3), n⟩, n + 10))
      (fun n => (.ok n, n + 100)) 5 : Out Nat (HError demoTypes) × Nat) =
        (.err ⟨⟨⟨(2 : Fin 3), (6 : Nat)⟩, []⟩, .notFound, none⟩, 16) := rfl

/-- A status literal that is no status code makes them panic, but only when the check fails. -/
theorem C83_bad_status [DecidableEq β] (cond : σ → Bool × σ) (left right : σ → β × σ) (n : Nat)
    (hn : ∀ c : StatusCode, c.toNat ≠ n) (msg : σ → ErrVal W × σ) (rest : σ → Out α (HError W) × σ) (st : σ) :
    (Macro.bailStatus n msg st : Out α (HError W) × σ).1 = .panic ∧
    ((cond st).1 = false → (Macro.ensureStatus cond n msg rest st).1 = .panic) ∧
    ((cond st).1 = true → Macro.ensureStatus cond n msg rest st = rest (cond st).2) ∧
    ((left st).1 ≠ (right (left st).2).1 → (Macro.ensureEqStatus left right n msg rest st).1 = .panic) ∧
    ((left st).1 = (right (left st).2).1 →
      Macro.ensureEqStatus left right n msg rest st = rest (right (left st).2).2) := by
  have hc : StatusCode.tryFrom n = none := by
    cases h : StatusCode.tryFrom n with
    | none => rfl
    | some c => exact absurd ((StatusCode.tryFrom_iff n c).mp h) (hn c)
  have hb : ∀ s, (Macro.bailStatus n msg s : Out α (HError W) × σ).1 = .panic := by
    intro s
    simp [Macro.bailStatus, Macro.formatErrStatus, HError.newAdhoc, HError.fromStr, HError.setStatus,
      StatusArg.tryInto, hc, Macro.ret]
  refine ⟨hb st, ?_, ?_, ?_, ?_⟩
  · intro h; unfold Macro.ensureStatus; simp [h, hb]
  · intro h; unfold Macro.ensureStatus; simp [h]
  · intro h; unfold Macro.ensureEqStatus; simp [h, hb]
  · intro h; unfold Macro.ensureEqStatus; simp [h]

example : ∀ c : StatusCode, c.toNat ≠ 600 := by intro c; cases c <;> decide

end HT
