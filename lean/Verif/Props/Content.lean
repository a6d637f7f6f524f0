import Verif.Lemmas.FloatText
import Verif.Spec.Content
import Verif.Lemmas.Lists
import Verif.Lemmas.Round

/-! Properties C36–C40, C43: weights, order, negotiation, single codings. -/

namespace HT

open Spec

/-! ### weights -/

theorem Fl.partialCmp_fin (m u : Nat) : Fl.partialCmp (.fin false m) (.fin false u) = some (compare m u) := by
  unfold Fl.partialCmp Fl.rank
  simp only [Option.some.injEq]
  have : compare (0 : Int) 0 = .eq := by decide
  rw [this, Ordering.eq_then]
  simp only [compare, compareOfLessAndEq]
  simp only [Int.ofNat_lt, Int.natCast_inj]

theorem Fl.le_fin (m u : Nat) : Fl.le (.fin false m) (.fin false u) = true ↔ m ≤ u := by
  unfold Fl.le
  rw [partialCmp_fin]
  simp only [compare, compareOfLessAndEq]
  by_cases h1 : m < u
  · simp [h1]; omega
  · by_cases h2 : m = u
    · simp [h2]
    · simp [h1, h2]; omega

theorem Fl.inf_le (u : Nat) : Fl.le (.inf false) (.fin false u) = false := by
  unfold Fl.le Fl.partialCmp Fl.rank
  have : compare (1 : Int) 0 = .gt := by decide
  simp only [this, Ordering.gt_then]

theorem inRange_iff (x : Fl) : Proposal.inRange x = true ↔ UnitWeight x := by
  unfold Proposal.inRange UnitWeight Fl.one f32Format
  simp only
  generalize (2 : Nat) ^ 149 = u
  cases x with
  | nan => simp [Fl.le, Fl.partialCmp, Fl.rank]
  | inf neg =>
    cases neg with
    | true => simp [Fl.isSignPositive]
    | false => simp [Fl.inf_le]
  | fin neg m =>
    cases neg with
    | true => simp [Fl.isSignPositive]
    | false => simp [Fl.isSignPositive, Fl.le_fin]

/-- C40 (constructing): a proposal with a weight can be made exactly when the weight is between 0 and 1;
NaN, infinities, negative numbers including -0, and numbers above 1 are refused. -/
theorem C40_new {α : Type} (item : α) (x : Fl) :
    (UnitWeight x → Proposal.new item (some x) = .ok ⟨item, some x⟩) ∧
    (¬ UnitWeight x → Proposal.new item (some x) = .err 500) ∧
    Proposal.new item none = .ok ⟨item, none⟩ := by
  refine ⟨fun h => ?_, fun h => ?_, rfl⟩
  · unfold Proposal.new; simp [(inRange_iff x).mpr h]
  · unfold Proposal.new
    have : Proposal.inRange x = false := by
      rw [Bool.eq_false_iff]; intro h'; exact h ((inRange_iff x).mp h')
    simp [this]

example : Proposal.new 'a' none = .ok ⟨'a', none⟩ := rfl

/-- The special values. -/
theorem C40_special {α : Type} (item : α) :
    Proposal.new item (some .nan) = .err 500 ∧
    (∀ neg, Proposal.new item (some (.inf neg)) = .err 500) ∧
    (∀ m, Proposal.new item (some (.fin true m)) = .err 500) ∧
    (∀ m, Proposal.new item (some (.fin false m)) = .err 500 ↔ 2 ^ 149 < m) := by
  have key : ∀ x, ¬ UnitWeight x → Proposal.new item (some x) = .err 500 := fun x => (C40_new item x).2.1
  refine ⟨key _ ?_, fun neg => key _ ?_, fun m => key _ ?_, fun m => ⟨?_, fun h => key _ ?_⟩⟩
  · rintro ⟨m, _, h⟩; cases h
  · rintro ⟨m, _, h⟩; cases h
  · rintro ⟨m, _, h⟩; cases h
  · intro h
    by_contra hn
    rw [(C40_new item _).1 ⟨m, by omega, rfl⟩] at h
    cases h
  · rintro ⟨m', h', e⟩; cases e; omega

example : UnitWeight (.fin false (2 ^ 148)) ∧ ¬ UnitWeight (.fin true 0) :=
  ⟨⟨2 ^ 148, Nat.pow_le_pow_right (by decide) (by decide), rfl⟩, fun ⟨_, _, h⟩ => by cases h⟩

theorem parseWeight_ok {w : Str} {x : Fl} : parseWeight w = .ok x ↔ WeightText w x := by
  unfold parseWeight WeightText
  simp only [← Fl.parse_iff (F := f32Format) (by decide)]
  cases h : split '=' w with
  | nil => simp
  | cons q rest =>
    simp only
    by_cases hq : q = s!!"q"
    · rw [if_pos hq]
      cases rest with
      | nil => simp
      | cons t tl =>
        simp only [Res.status_eq_ok_iff, Res.ofOption_eq_ok_iff, List.cons.injEq]
        constructor
        · intro h; exact ⟨t, tl, ⟨hq, rfl, rfl⟩, h⟩
        · rintro ⟨t', tl', ⟨_, rfl, rfl⟩, h⟩; exact h
    · rw [if_neg hq]
      simp [hq]

theorem parseWeight_clean (w : Str) : (parseWeight w).Clean 400 := by
  unfold parseWeight
  cases split '=' w with
  | nil => exact .inr rfl
  | cons q rest =>
    simp only
    split
    · cases rest with
      | nil => exact .inr rfl
      | cons t tl => exact clean_ofOption _
    · exact .inr rfl

theorem parseWeight_err {w : Str} (h : ¬ ∃ x, WeightText w x) : parseWeight w = .err 400 := by
  rcases parseWeight_clean w with ⟨x, hx⟩ | h'
  · exact absurd ⟨x, parseWeight_ok.mp hx⟩ h
  · exact h'

/-- C40 (reading): what an entry of `Accept-Encoding` or `TE` gives, by the parts of its text. Missing: a
number out of range gives status 500 where a client error is meant, see `C40_violated_status`. -/
theorem C40_reads_partial {α : Type} (coding : Str → Option α) (s name : Str) (rest : List Str)
    (hs : split ';' s = name :: rest) :
    (coding name = none → Proposal.fromStr coding s = .ok none) ∧
    ∀ c, coding name = some c →
      (rest = [] → Proposal.fromStr coding s = .ok (some ⟨c, none⟩)) ∧
      ∀ w tl, rest = w :: tl →
        (∀ x, WeightText w x → UnitWeight x → Proposal.fromStr coding s = .ok (some ⟨c, some x⟩)) ∧
        (∀ x, WeightText w x → ¬ UnitWeight x → Proposal.fromStr coding s = .err 500) ∧
        ((¬ ∃ x, WeightText w x) → Proposal.fromStr coding s = .err 400) := by
  unfold Proposal.fromStr
  rw [hs]
  refine ⟨fun h => by simp only [h], fun c h => ?_⟩
  simp only [h]
  refine ⟨fun h => by subst h; rfl, ?_⟩
  rintro w tl rfl
  refine ⟨fun x hx hu => ?_, fun x hx hu => ?_, fun hn => ?_⟩
  · simp only [parseWeight_ok.mpr hx, Res.bind, (C40_new c x).1 hu, Res.map]
  · simp only [parseWeight_ok.mpr hx, Res.bind, (C40_new c x).2.1 hu, Res.map]
  · simp only [parseWeight_err hn, Res.bind]

example : Proposal.fromStr Encoding.fromStr s!!"gzip;q=0.5;x" = .ok (some ⟨.gzip, some (.fin false (2 ^ 148))⟩) := by
  decide +kernel
example : Proposal.fromStr Encoding.fromStr s!!" br ;q=1e-1"
    = .ok (some ⟨.brotli, some (.fin false (13421773 * 2 ^ 122))⟩) := by
  decide +kernel
example : Proposal.fromStr Encoding.fromStr s!!"gzip;q=half" = .err 400 := by decide +kernel

/-- C40: the status is violated by every weight that is a number out of range. -/
theorem C40_violated_status {α : Type} (coding : Str → Option α) (name w : Str) (hn : ';' ∉ name) (hw : ';' ∉ w)
    (c : α) (hc : coding name = some c) (x : Fl) (hx : WeightText w x) (hu : ¬ UnitWeight x) :
    Proposal.fromStr coding (name ++ ';' :: w) = .err 500 :=
  (((C40_reads_partial coding _ name [w] (by rw [split_append_sep hn, split_of_not_mem hw])).2 c hc).2 w [] rfl).2.1
    x hx hu

example : Proposal.fromStr Encoding.fromStr s!!"gzip;q=1.5" = .err 500 := by decide +kernel
example : Proposal.fromStr TEncoding.fromStr s!!"chunked;q=-0" = .err 500 := by decide +kernel
example : Proposal.fromStr TEncoding.fromStr s!!"chunked;q=NaN" = .err 500 := by decide +kernel

theorem split_head_exists (c : Char) (s : Str) : ∃ p ps, split c s = p :: ps := by
  cases h : split c s with
  | nil => exact absurd h (split_ne_nil c s)
  | cons p ps => exact ⟨p, ps, rfl⟩

theorem fromStr_weightOk {α : Type} {coding : Str → Option α} {s : Str} {p : Proposal α}
    (h : Proposal.fromStr coding s = .ok (some p)) : WeightOk p := by
  obtain ⟨name, rest, hs⟩ := split_head_exists ';' s
  obtain ⟨h1, h2⟩ := C40_reads_partial coding s name rest hs
  cases hc : coding name with
  | none => rw [h1 hc] at h; cases h
  | some c =>
    obtain ⟨h3, h4⟩ := h2 c hc
    cases rest with
    | nil => rw [h3 rfl] at h; cases h; intro x hx; cases hx
    | cons w tl =>
      obtain ⟨h5, h6, h7⟩ := h4 w tl rfl
      by_cases hw : ∃ x, WeightText w x
      · obtain ⟨x, hx⟩ := hw
        by_cases hu : UnitWeight x
        · rw [h5 x hx hu] at h; cases h; intro y hy; cases hy; exact hu
        · rw [h6 x hx hu] at h; cases h
      · rw [h7 hw] at h; cases h

/-- C40 (numbers): a text stands for at most one floating-point number, in either format. -/
theorem C40_number_unique (F : FlFormat) (hF : F = f32Format ∨ F = f64Format) (s : Str) (x y : Fl)
    (hx : NumberText F s x) (hy : NumberText F s y) : x = y := by
  have hp : 0 < F.prec := by rcases hF with rfl | rfl <;> decide
  rw [← Fl.parse_iff hp] at hx hy
  exact Option.some.inj (hx.symm.trans hy)

example : NumberText f32Format s!!"+5.0e-1" (.fin false (2 ^ 148)) ∧ NumberText f32Format s!!"-iNF" (.inf true) := by
  simp only [← Fl.parse_iff (F := f32Format) (by decide)]
  decide +kernel

/-- C40 (media types): an entry of `Accept` always has a weight between 0 and 1, which is 1 when the text has
no `q` parameter. -/
theorem C40_media (s : Str) (p : Proposal Mime) :
    Proposal.mediaFromStr s = .ok p ↔ ∃ m, Mime.parse s = .ok m ∧ p.item = (m.removeParam s!!"q").2 ∧
      ∃ x, p.weight = some x ∧ UnitWeight x ∧ match (m.removeParam s!!"q").1 with
        | none => x = .fin false (2 ^ 149)
        | some t => NumberText f32Format t x := by
  simp only [← Fl.parse_iff (F := f32Format) (by decide)]
  unfold Proposal.mediaFromStr
  rw [Res.bind_eq_ok_iff]
  apply exists_congr
  intro m
  apply and_congr_right
  intro _
  generalize m.removeParam s!!"q" = r
  obtain ⟨t, m'⟩ := r
  have hone : UnitWeight (Fl.one f32Format) := ⟨2 ^ 149, Nat.le_refl _, rfl⟩
  cases t with
  | none =>
    simp only [Proposal.newMedia, Res.ok.injEq]
    constructor
    · rintro rfl; exact ⟨rfl, _, rfl, hone, rfl⟩
    · rintro ⟨h1, x, h2, _, rfl⟩; cases p; simp_all; rfl
  | some t =>
    simp only [Res.bind_eq_ok_iff, Res.ofOption_eq_ok_iff, Proposal.newMedia]
    constructor
    · rintro ⟨x, h1, h2⟩
      split at h2
      · rename_i hr
        cases h2
        exact ⟨rfl, x, rfl, (inRange_iff x).mp hr, h1⟩
      · cases h2
    · rintro ⟨h1, x, h2, h3, h4⟩
      refine ⟨x, h4, ?_⟩
      rw [if_pos ((inRange_iff x).mpr h3)]
      cases p; simp_all

example : Proposal.mediaFromStr s!!"text/html;q=0.5"
    = .ok ⟨⟨s!!"text/html", s!!"text", s!!"html", false, []⟩, some (.fin false (2 ^ 148))⟩ := by decide +kernel
example : Proposal.mediaFromStr s!!"text/html"
    = .ok ⟨⟨s!!"text/html", s!!"text", s!!"html", false, []⟩, some (.fin false (2 ^ 149))⟩ := by decide +kernel
example : Proposal.mediaFromStr s!!"text/html;q=2" = .err 500 := by decide +kernel

/-- C40 (constructing media proposals): `MediaTypeProposal::new` takes exactly the weights between 0 and 1, keeps
the type it is given, and gives weight 1 when it is given none. -/
theorem C40_new_media (m : Mime) (x : Fl) :
    (UnitWeight x → Proposal.newMedia m (some x) = .ok ⟨m, some x⟩) ∧
    (¬ UnitWeight x → Proposal.newMedia m (some x) = .err 500) ∧
    Proposal.newMedia m none = .ok ⟨m, some (.fin false (2 ^ 149))⟩ := by
  refine ⟨fun h => ?_, fun h => ?_, rfl⟩
  · unfold Proposal.newMedia; simp [(inRange_iff x).mpr h]
  · unfold Proposal.newMedia
    have : Proposal.inRange x = false := by
      rw [Bool.eq_false_iff]; intro h'; exact h ((inRange_iff x).mp h')
    simp [this]

example : UnitWeight (.fin false (2 ^ 148)) := ⟨2 ^ 148, by decide +kernel, rfl⟩
example : ¬ UnitWeight (.fin true 0) := by rintro ⟨u, _, h⟩; cases h

/-- C40 (refused media proposals): a media type whose `q` is not a number, or is one outside 0 to 1, is refused
with status 500; no text makes the reader panic over its weight. -/
theorem C40_media_refused (s : Str) (m : Mime) (t : Str) (hm : Mime.parse s = .ok m)
    (ht : (m.removeParam s!!"q").1 = some t)
    (hbad : ∀ x, NumberText f32Format t x → ¬ UnitWeight x) : Proposal.mediaFromStr s = .err 500 := by
  unfold Proposal.mediaFromStr
  rw [hm]
  simp only [Res.bind]
  revert ht
  generalize m.removeParam s!!"q" = r
  obtain ⟨t', m'⟩ := r
  rintro ⟨⟩
  cases h : Fl.parse f32Format t with
  | none => simp only [h, Res.ofOption]
  | some x =>
    simp only [h, Res.ofOption]
    exact (C40_new_media m' x).2.1 (hbad x ((Fl.parse_iff (by decide)).mp h))

example : Mime.parse s!!"text/html;q=2" = .ok ⟨s!!"text/html", s!!"text", s!!"html", false, [(s!!"q", s!!"2")]⟩ := by
  decide +kernel

/-- Steps that can change the entries of a list. -/
inductive AcceptList.Op (α : Type) where
  | pushNew (item : α) (weight : Option Fl)
  | pushItem (item : α)
  | setWildcard (w : Bool)
  | setItem (i : Nat) (item : α)
  | sort

/-- One step; a refused proposal leaves the list alone. `iter_mut` gives access to the items only. -/
def AcceptList.step {α : Type} (a : AcceptList α) : AcceptList.Op α → AcceptList α
  | .pushNew x w => match Proposal.new x w with
    | .ok p => a.push p
    | _ => a
  | .pushItem x => a.push (.ofItem x)
  | .setWildcard w => a.setWildcard w
  | .setItem i x => { a with entries := a.entries.modify i fun p => { p with item := x } }
  | .sort => a.sort

theorem mem_sortByWeight {α : Type} (ps : List (Proposal α)) : (sortByWeight ps).Perm ps := by
  unfold sortByWeight
  refine ((List.perm_insertionSort _ _).map _).trans ?_
  rw [List.map_map]
  have : ((fun x : Nat × Proposal α => x.2) ∘ fun x : Proposal α × Nat => (x.2, x.1)) = Prod.fst := rfl
  show (ps.zipIdx.map ((fun x : Nat × Proposal α => x.2) ∘ fun x : Proposal α × Nat => (x.2, x.1))).Perm ps
  rw [this, List.zipIdx_map_fst]

/-- The entries of `loop` come from the accumulator or from parsing. -/
theorem loop_mem {α : Type} {parse : Str → Res (Option (Proposal α))} {parts : List Str} {acc a : AcceptList α}
    (h : AcceptList.loop parse parts acc = .ok a) :
    ∀ p ∈ a.entries, p ∈ acc.entries ∨ ∃ t, parse t = .ok (some p) := by
  induction parts generalizing acc with
  | nil => cases h; exact fun p hp => .inl hp
  | cons part parts ih =>
    unfold AcceptList.loop at h
    simp only at h
    split at h
    · exact ih h
    · split at h
      · exact fun p hp => ih h p hp
      · rw [Res.bind_eq_ok_iff] at h
        obtain ⟨e, he, h⟩ := h
        cases e with
        | none => exact ih h
        | some q =>
          intro p hp
          rcases ih h p hp with h' | h'
          · rcases List.mem_append.mp h' with h'' | h''
            · exact .inl h''
            · simp only [List.mem_singleton] at h''; subst h''; exact .inr ⟨_, he⟩
          · exact .inr h'

theorem fromHeaders_mem {α : Type} {name : HeaderName} {parse : Str → Res (Option (Proposal α))} {h : Headers}
    {a : AcceptList α} (hr : AcceptList.fromHeaders name parse h = .ok (some a)) :
    ∀ p ∈ a.entries, ∃ t, parse t = .ok (some p) := by
  unfold AcceptList.fromHeaders at hr
  split at hr
  · cases hr
  · rename_i vs _
    cases hl : AcceptList.loop parse (trimmedParts vs) AcceptList.new with
    | ok b =>
      rw [hl] at hr
      cases hr
      intro p hp
      rcases loop_mem hl p hp with h' | h'
      · cases h'
      · exact h'
    | err e => rw [hl] at hr; cases hr
    | panic => rw [hl] at hr; cases hr

/-- C40 (reachable lists): every list read from headers has weights between 0 and 1 only, and every sequence
of operations keeps it so. -/
theorem C40_invariant :
    (∀ h a, AcceptEncoding.fromHeaders h = .ok (some a) → ∀ p ∈ a.entries, WeightOk p) ∧
    (∀ h a, TE.fromHeaders h = .ok (some a) → ∀ p ∈ a.entries, WeightOk p) ∧
    (∀ h a, Accept.fromHeaders h = .ok (some a) → ∀ p ∈ a.entries, WeightOk p) ∧
    (∀ {α : Type} (a : AcceptList α) (ops : List (AcceptList.Op α)), (∀ p ∈ a.entries, WeightOk p) →
      ∀ p ∈ (ops.foldl AcceptList.step a).entries, WeightOk p) := by
  refine ⟨fun h a hr p hp => ?_, fun h a hr p hp => ?_, fun h a hr p hp => ?_, ?_⟩
  · obtain ⟨t, ht⟩ := fromHeaders_mem hr p hp; exact fromStr_weightOk ht
  · obtain ⟨t, ht⟩ := fromHeaders_mem hr p hp; exact fromStr_weightOk ht
  · obtain ⟨t, ht⟩ := fromHeaders_mem hr p hp
    unfold Accept.parse at ht
    cases hm : Proposal.mediaFromStr t with
    | ok q =>
      rw [hm] at ht
      cases ht
      obtain ⟨m, _, _, x, hx, hu, _⟩ := (C40_media t p).mp hm
      intro y hy
      rw [hx] at hy; cases hy; exact hu
    | err e => rw [hm] at ht; cases ht
    | panic => rw [hm] at ht; cases ht
  · intro α a ops
    induction ops generalizing a with
    | nil => exact fun h => h
    | cons op ops ih =>
      intro h
      apply ih
      cases op with
      | pushNew x w =>
        show ∀ p ∈ (match Proposal.new x w with
          | .ok p => a.push p
          | _ => a).entries, WeightOk p
        cases hn : Proposal.new x w with
        | ok p =>
          intro q hq
          simp only [AcceptList.push, List.mem_append, List.mem_singleton] at hq
          rcases hq with hq | rfl
          · exact h q hq
          · cases w with
            | none => cases hn; intro y hy; cases hy
            | some w =>
              by_cases hu : UnitWeight w
              · rw [(C40_new x w).1 hu] at hn; cases hn; intro y hy; cases hy; exact hu
              · rw [(C40_new x w).2.1 hu] at hn; cases hn
        | err e => exact h
        | panic => exact h
      | pushItem x =>
        intro q hq
        simp only [AcceptList.step, AcceptList.push, List.mem_append, List.mem_singleton] at hq
        rcases hq with hq | rfl
        · exact h q hq
        · intro y hy; cases hy
      | setWildcard w => exact h
      | setItem i x =>
        intro q hq
        simp only [AcceptList.step] at hq
        obtain ⟨j, hj, rfl⟩ := List.mem_iff_getElem.mp hq
        rw [List.getElem_modify]
        split
        · intro y hy; exact h _ (List.getElem_mem _) y hy
        · exact h _ (List.getElem_mem _)
      | sort =>
        intro q hq
        exact h q ((mem_sortByWeight a.entries).mem_iff.mp hq)

example : ∀ a, TE.fromHeaders [(s!!"te", [s!!"gzip;q=0.5, chunked"])] = .ok (some a) → ∀ p ∈ a.entries, WeightOk p :=
  C40_invariant.2.1 _
example : (TE.fromHeaders [(s!!"te", [s!!"gzip;q=0.5, chunked"])]).map (fun o => o.map fun a => a.entries.length) = .ok (some 2) := by
  decide +kernel

/-! ### order -/

/-- The order the comparison implements, on positions with weights. -/
def before {α : Type} (a b : Nat × Proposal α) : Prop :=
  worth b.2.weight < worth a.2.weight ∨ worth b.2.weight = worth a.2.weight ∧ b.1 ≤ a.1

instance {α : Type} : DecidableRel (before (α := α)) := fun _ _ => by unfold before; infer_instance

instance {α : Type} : IsTrans (Nat × Proposal α) before := ⟨by
  intro a b c h1 h2; unfold before at *; omega⟩

instance {α : Type} : Std.Total (before (α := α)) := ⟨by
  intro a b; unfold before; omega⟩

theorem propCmp_eq {α : Type} {a b : Proposal α} (ha : WeightOk a) (hb : WeightOk b) :
    Proposal.partialCmp a b = none ∧ worth a.weight = worth b.weight ∨
    Proposal.partialCmp a b = some (compare (worth a.weight) (worth b.weight)) := by
  obtain ⟨x, wa⟩ := a
  obtain ⟨y, wb⟩ := b
  unfold Proposal.partialCmp
  cases wa with
  | none =>
    cases wb with
    | none => exact .inl ⟨rfl, rfl⟩
    | some w =>
      obtain ⟨m, _, rfl⟩ := hb w rfl
      right
      simp [worth, compare, compareOfLessAndEq]
  | some v =>
    obtain ⟨k, _, rfl⟩ := ha v rfl
    cases wb with
    | none => right; simp [worth, compare, compareOfLessAndEq]
    | some w =>
      obtain ⟨m, _, rfl⟩ := hb w rfl
      right
      simp only [Fl.partialCmp_fin, worth, Option.some.injEq]
      simp [compare, compareOfLessAndEq]

theorem sortCmp_iff {α : Type} {a b : Nat × Proposal α} (ha : WeightOk a.2) (hb : WeightOk b.2) :
    sortCmp a b ≠ .gt ↔ before a b := by
  unfold sortCmp before
  rcases propCmp_eq hb ha with ⟨h1, h2⟩ | h
  · rw [h1, h2]
    show compare b.1 a.1 ≠ .gt ↔ _
    rw [ne_eq, Nat.compare_eq_gt]
    omega
  · rw [h]
    rcases Nat.lt_trichotomy (worth b.2.weight) (worth a.2.weight) with h' | h' | h'
    · rw [Nat.compare_eq_lt.mpr h']; simp [h']
    · rw [h', Nat.compare_eq_eq.mpr rfl]
      show compare b.1 a.1 ≠ .gt ↔ _
      rw [ne_eq, Nat.compare_eq_gt]
      omega
    · rw [Nat.compare_eq_gt.mpr h']
      simp
      omega

/-- Positions paired with proposals. -/
def indexed {α : Type} (ps : List (Proposal α)) : List (Nat × Proposal α) := ps.zipIdx.map fun (p, i) => (i, p)

theorem mem_indexed {α : Type} {ps : List (Proposal α)} {x : Nat × Proposal α} :
    x ∈ indexed ps ↔ ps[x.1]? = some x.2 := by
  unfold indexed
  rw [List.mem_map]
  constructor
  · rintro ⟨⟨p, i⟩, h, rfl⟩
    simpa using List.mem_zipIdx_iff_getElem?.mp h
  · intro h
    exact ⟨(x.2, x.1), List.mem_zipIdx_iff_getElem?.mpr h, rfl⟩

theorem indexed_fst {α : Type} (ps : List (Proposal α)) : (indexed ps).map (·.1) = List.range ps.length := by
  unfold indexed
  rw [List.map_map]
  have : ((fun x : Nat × Proposal α => x.1) ∘ fun x : Proposal α × Nat => (x.2, x.1)) = Prod.snd := rfl
  show ps.zipIdx.map ((fun x : Nat × Proposal α => x.1) ∘ fun x : Proposal α × Nat => (x.2, x.1)) = _
  rw [this, List.zipIdx_map_snd, List.range_eq_range']

/-- C36: sorting rearranges the proposals so that each outranks all that follow: greater weights first,
proposals without weight last, and among equals the one given later first. -/
theorem C36_sorted {α : Type} (ps : List (Proposal α)) (hp : ∀ p ∈ ps, WeightOk p) :
    ∃ order, Arranges ps order (sortByWeight ps) ∧ order.Pairwise (Outranks ps) := by
  have hok : ∀ x ∈ indexed ps, WeightOk x.2 := fun x hx => hp _ (List.mem_of_getElem? (mem_indexed.mp hx))
  have hs : List.insertionSort (fun a b => sortCmp a b ≠ .gt) (indexed ps) = List.insertionSort before (indexed ps) := by
    have := List.map_insertionSort (r := fun a b => sortCmp a b ≠ .gt) (s := before) id (indexed ps)
      (fun a ha b hb => sortCmp_iff (hok a ha) (hok b hb))
    simpa using this
  set L := List.insertionSort before (indexed ps) with hL
  have hperm : L.Perm (indexed ps) := List.perm_insertionSort _ _
  have hpw : L.Pairwise before := List.pairwise_insertionSort _ _
  refine ⟨L.map (·.1), ⟨?_, ?_⟩, ?_⟩
  · rw [← indexed_fst]; exact hperm.map _
  · show ((List.insertionSort (fun a b => sortCmp a b ≠ .gt) (indexed ps)).map (·.2)).map some = _
    rw [hs, List.map_map, List.map_map]
    apply List.map_congr_left
    intro x hx
    exact (mem_indexed.mp (hperm.mem_iff.mp hx)).symm
  · rw [List.pairwise_map]
    have hnd : L.Pairwise fun a b => a.1 ≠ b.1 := by
      have : (L.map (·.1)).Nodup := (hperm.map _).nodup_iff.mpr (by rw [indexed_fst]; exact List.nodup_range)
      exact List.pairwise_map.mp this
    refine (hpw.and hnd).imp_of_mem ?_
    intro a b ha hb ⟨h1, h2⟩
    refine ⟨a.2, b.2, mem_indexed.mp (hperm.mem_iff.mp ha), mem_indexed.mp (hperm.mem_iff.mp hb), ?_⟩
    unfold before at h1
    omega

example : sortByWeight [⟨'a', none⟩, ⟨'b', some (.fin false 5)⟩, ⟨'c', some (.fin false 7)⟩, ⟨'d', none⟩,
    ⟨'e', some (.fin false 5)⟩] = [⟨'c', some (.fin false 7)⟩, ⟨'e', some (.fin false 5)⟩,
    ⟨'b', some (.fin false 5)⟩, ⟨'d', none⟩, ⟨'a', none⟩] := by decide +kernel

theorem outranks_antisymm {α : Type} {ps : List (Proposal α)} {i j : Nat} (h : Outranks ps i j) :
    ¬ Outranks ps j i := by
  obtain ⟨p, q, hp, hq, h⟩ := h
  rintro ⟨q', p', hq', hp', h'⟩
  rw [hp] at hp'; rw [hq] at hq'
  cases hp'; cases hq'
  omega

/-- C36: there is only one such arrangement, so the choice of sorting algorithm does not matter. -/
theorem C36_unique {α : Type} (ps : List (Proposal α)) (o₁ o₂ : List Nat) (out₁ out₂ : List (Proposal α))
    (h₁ : Arranges ps o₁ out₁) (h₂ : Arranges ps o₂ out₂) (p₁ : o₁.Pairwise (Outranks ps))
    (p₂ : o₂.Pairwise (Outranks ps)) : o₁ = o₂ ∧ out₁ = out₂ := by
  have ho : o₁ = o₂ :=
    (h₁.1.trans h₂.1.symm).eq_of_pairwise (fun a b _ _ h1 h2 => absurd h2 (outranks_antisymm h1)) p₁ p₂
  refine ⟨ho, ?_⟩
  have : out₁.map some = out₂.map some := by rw [h₁.2, h₂.2, ho]
  exact List.map_injective_iff.mpr (Option.some_injective _) this

example : Arranges [(⟨1, none⟩ : Proposal Nat), ⟨2, none⟩] [1, 0] [⟨2, none⟩, ⟨1, none⟩] ∧
    [1, 0].Pairwise (Outranks [(⟨1, none⟩ : Proposal Nat), ⟨2, none⟩]) := by
  refine ⟨⟨by decide, by decide⟩, ?_⟩
  simp [Outranks]

/-! ### negotiation -/

theorem best_unique {α : Type} {ps : List (Proposal α)} {ok : α → Prop} {i j : Nat} {p q : Proposal α}
    (hp : Best ps ok i p) (hq : Best ps ok j q) : i = j ∧ p = q := by
  obtain ⟨h1, h2, h3⟩ := hp
  obtain ⟨g1, g2, g3⟩ := hq
  have : i = j := by
    rcases h3 j q g1 g2 with h | h
    · exact h.symm
    · rcases g3 i p h1 h2 with g | g
      · exact g
      · exact absurd g (outranks_antisymm h)
  subst this
  rw [h1] at g1
  exact ⟨rfl, Option.some.inj g1⟩

theorem find_best {α : Type} {ps : List (Proposal α)} (hp : ∀ p ∈ ps, WeightOk p) {ok : α → Prop}
    {f : Proposal α → Bool} (hf : ∀ p, f p = true ↔ ok p.item) (p : Proposal α) :
    (sortByWeight ps).find? f = some p ↔ ∃ i, Best ps ok i p := by
  have fwd : ∀ p, (sortByWeight ps).find? f = some p → ∃ i, Best ps ok i p := by
    intro p h
    obtain ⟨order, ⟨hperm, hmap⟩, hpw⟩ := C36_sorted ps hp
    rw [List.find?_eq_some_iff_append] at h
    obtain ⟨hfp, as, bs, hs, has⟩ := h
    rw [hs, List.map_append, List.map_cons] at hmap
    obtain ⟨o1, o2', ho, h1, h2⟩ := List.map_eq_append_iff.mp hmap.symm
    obtain ⟨i, o2, ho2, h3, h4⟩ := List.map_eq_cons_iff.mp h2
    subst ho2 ho
    refine ⟨i, h3, (hf p).mp hfp, ?_⟩
    intro j q hj hq
    have hjm : j ∈ o1 ++ i :: o2 := hperm.mem_iff.mpr (List.mem_range.mpr (List.getElem?_eq_some_iff.mp hj).1)
    rcases List.mem_append.mp hjm with hm | hm
    · have : some q ∈ as.map some := by
        rw [← h1, List.mem_map]; exact ⟨j, hm, hj⟩
      obtain ⟨q', hq', e⟩ := List.mem_map.mp this
      cases e
      have := has q hq'
      rw [(hf q).mpr hq] at this
      cases this
    · rcases List.mem_cons.mp hm with rfl | hm
      · exact .inl rfl
      · exact .inr ((List.pairwise_cons.mp (List.pairwise_append.mp hpw).2.1).1 j hm)
  refine ⟨fwd p, ?_⟩
  rintro ⟨i, hb⟩
  cases hfind : (sortByWeight ps).find? f with
  | some q =>
    obtain ⟨j, hq⟩ := fwd q hfind
    rw [(best_unique hb hq).2]
  | none =>
    rw [List.find?_eq_none] at hfind
    have := hfind p ((mem_sortByWeight ps).mem_iff.mpr (List.mem_of_getElem? hb.1))
    exact absurd ((hf p).mpr hb.2.1) this

theorem find_none {α : Type} {ps : List (Proposal α)} {ok : α → Prop}
    {f : Proposal α → Bool} (hf : ∀ p, f p = true ↔ ok p.item) :
    (sortByWeight ps).find? f = none ↔ ∀ p ∈ ps, ¬ ok p.item := by
  rw [List.find?_eq_none]
  constructor
  · intro h p hp hk
    exact h p ((mem_sortByWeight ps).mem_iff.mpr hp) ((hf p).mpr hk)
  · intro h p hp hk
    exact h p ((mem_sortByWeight ps).mem_iff.mp hp) ((hf p).mp hk)

/-- C37: the outcome of negotiating an encoding (`AcceptEncoding::negotiate` and `TE::negotiate`). -/
theorem C37_negotiate {α : Type} [DecidableEq α] (a : AcceptList α) (available : List α)
    (hp : ∀ p ∈ a.entries, WeightOk p) :
    (∀ r, (a.negotiate available).2 = .ok r ↔
      (∃ i p, Best a.entries (· ∈ available) i p ∧ p.item = r) ∨
      ((∀ p ∈ a.entries, p.item ∉ available) ∧ a.wildcard = true ∧ available.head? = some r)) ∧
    ((a.negotiate available).2 = .err 406 ↔
      (∀ p ∈ a.entries, p.item ∉ available) ∧ (a.wildcard = true → available = [])) ∧
    (a.negotiate available).2.Clean 406 ∧
    (a.negotiate available).1 = a.sort := by
  have hf : ∀ p : Proposal α, available.contains p.item = true ↔ p.item ∈ available := fun p => List.contains_iff_mem
  have hfb := fun p => find_best hp (ok := (· ∈ available)) (f := fun p => available.contains p.item) hf p
  have hfn := find_none (ps := a.entries) (ok := (· ∈ available)) (f := fun p => available.contains p.item) hf
  have he : (a.negotiate available).2 = (match (sortByWeight a.entries).find? fun p => available.contains p.item with
    | some p => Res.ok p.item
    | none =>
      match (generalizing := false) a.wildcard, available with
      | true, e :: _ => .ok e
      | _, _ => .err 406) := rfl
  cases hfind : (sortByWeight a.entries).find? fun p => available.contains p.item with
  | some p =>
    rw [hfind] at he
    simp only at he
    obtain ⟨i, hb⟩ := (hfb p).mp hfind
    have hmem : p ∈ a.entries := List.mem_of_getElem? hb.1
    rw [he]
    refine ⟨fun r => ?_, ?_, .inl ⟨_, rfl⟩, rfl⟩
    · constructor
      · intro h; cases h; exact .inl ⟨i, p, hb, rfl⟩
      · rintro (⟨j, q, hq, rfl⟩ | ⟨h, _⟩)
        · rw [(best_unique hb hq).2]
        · exact absurd hb.2.1 (h p hmem)
    · simp only [reduceCtorEq, false_iff]
      rintro ⟨h, _⟩
      exact h p hmem hb.2.1
  | none =>
    have hn := hfn.mp hfind
    rw [hfind] at he
    simp only at he
    have hno : ∀ r, ¬ ∃ i p, Best a.entries (· ∈ available) i p ∧ p.item = r := by
      rintro r ⟨i, p, hb, _⟩
      exact hn p (List.mem_of_getElem? hb.1) hb.2.1
    rw [he]
    cases hw : a.wildcard with
    | false =>
      refine ⟨fun r => ?_, ?_, .inr rfl, rfl⟩
      · simp only [reduceCtorEq, false_iff]
        rintro (h | ⟨_, h, _⟩)
        · exact hno r h
        · cases h
      · simp only [true_iff]; exact ⟨hn, fun h => by cases h⟩
    | true =>
      cases hav : available with
      | nil =>
        subst hav
        refine ⟨fun r => ?_, ?_, .inr rfl, rfl⟩
        · simp only [reduceCtorEq, false_iff]
          rintro (h | ⟨_, _, h⟩)
          · exact hno r h
          · cases h
        · simp only [true_iff]; exact ⟨hn, fun _ => trivial⟩
      | cons e es =>
        subst hav
        refine ⟨fun r => ?_, ?_, .inl ⟨_, rfl⟩, rfl⟩
        · simp only [Res.ok.injEq]
          constructor
          · rintro rfl; exact .inr ⟨hn, trivial, rfl⟩
          · rintro (h | ⟨_, _, h⟩)
            · exact absurd h (hno r)
            · exact Option.some.inj h
        · simp only [reduceCtorEq, false_iff]
          rintro ⟨_, h⟩
          cases h trivial

example : (AcceptList.negotiate ⟨false, [⟨Encoding.brotli, some (.fin false 8)⟩, ⟨.gzip, some (.fin false 4)⟩,
    ⟨.identity, none⟩]⟩ [.gzip, .brotli]).2 = .ok .brotli := by decide +kernel
example : (AcceptList.negotiate ⟨true, [⟨Encoding.brotli, some (.fin false 8)⟩]⟩ [.gzip]).2 = .ok .gzip := by
  decide +kernel
example : (AcceptList.negotiate ⟨false, [⟨Encoding.brotli, some (.fin false 8)⟩]⟩ [.gzip]).2 = .err 406 := by
  decide +kernel

/-- C37: nothing unavailable is ever chosen. -/
theorem C37_available {α : Type} [DecidableEq α] (a : AcceptList α) (available : List α) (r : α)
    (h : (a.negotiate available).2 = .ok r) : r ∈ available := by
  unfold AcceptList.negotiate at h
  simp only at h
  split at h
  · rename_i p hf
    cases h
    have := List.find?_some hf
    simpa using this
  · split at h
    · cases h; exact List.mem_cons_self
    · cases h

example : ((⟨false, [⟨1, none⟩, ⟨2, none⟩]⟩ : AcceptList Nat).negotiate [2, 3]).2 = .ok 2 := by decide +kernel

theorem findSome_iff {α β : Type} {g : α → Option β} {l : List α} {b : β} :
    l.findSome? g = some b ↔ ∃ a, l.find? (fun x => (g x).isSome) = some a ∧ g a = some b := by
  induction l with
  | nil => simp
  | cons x xs ih =>
    simp only [List.findSome?_cons, List.find?_cons]
    cases hx : g x with
    | none => simpa using ih
    | some y => simp [hx]

theorem findSome_none {α β : Type} {g : α → Option β} {l : List α} :
    l.findSome? g = none ↔ l.find? (fun x => (g x).isSome) = none := by
  simp [List.findSome?_eq_none_iff, List.find?_eq_none]

/-- C38: the outcome of negotiating a media type. The proposal that counts is the best among those that cover
some available type, and the answer is the first available type it covers. -/
theorem C38_negotiate (a : AcceptList Mime) (available : List Mime) (hp : ∀ p ∈ a.entries, WeightOk p) :
    let covers (pat : Mime) := ∃ m ∈ available, m.subsetEq pat = true
    (∀ r, (a.negotiateMedia available).2 = .ok r ↔
      (∃ i p, Best a.entries covers i p ∧ FirstCovered available p.item r) ∨
      ((∀ p ∈ a.entries, ¬ covers p.item) ∧ a.wildcard = true ∧ available.head? = some r)) ∧
    ((a.negotiateMedia available).2 = .err 406 ↔
      (∀ p ∈ a.entries, ¬ covers p.item) ∧ (a.wildcard = true → available = [])) ∧
    (a.negotiateMedia available).2.Clean 406 ∧
    (a.negotiateMedia available).1 = a.sort := by
  intro covers
  let g : Proposal Mime → Option Mime := fun p => available.find? fun m => m.subsetEq p.item
  have hf : ∀ p : Proposal Mime, (g p).isSome = true ↔ covers p.item := by
    intro p
    simp [g, covers]
  have hg : ∀ (p : Proposal Mime) r, g p = some r ↔ FirstCovered available p.item r := by
    intro p r
    simp only [g, FirstCovered, List.find?_eq_some_iff_append]
    constructor
    · rintro ⟨h1, as, bs, h2, h3⟩; exact ⟨as, bs, h2, h1, fun x hx => by simpa using h3 x hx⟩
    · rintro ⟨as, bs, h2, h1, h3⟩; exact ⟨h1, as, bs, h2, fun x hx => by simpa using h3 x hx⟩
  have hfb := fun p => find_best hp (ok := covers) (f := fun p => (g p).isSome) hf p
  have hfn := find_none (ps := a.entries) (ok := covers) (f := fun p => (g p).isSome) hf
  have he : (a.negotiateMedia available).2 = (match (sortByWeight a.entries).findSome? g with
    | some m => Res.ok m
    | none =>
      match (generalizing := false) a.wildcard, available with
      | true, e :: _ => .ok e
      | _, _ => .err 406) := rfl
  cases hfind : (sortByWeight a.entries).findSome? g with
  | some m =>
    rw [hfind] at he
    simp only at he
    obtain ⟨p, hpf, hpm⟩ := findSome_iff.mp hfind
    obtain ⟨i, hb⟩ := (hfb p).mp hpf
    have hmem : p ∈ a.entries := List.mem_of_getElem? hb.1
    rw [he]
    refine ⟨fun r => ?_, ?_, .inl ⟨_, rfl⟩, rfl⟩
    · constructor
      · intro h; cases h; exact .inl ⟨i, p, hb, (hg p m).mp hpm⟩
      · rintro (⟨j, q, hq, hr⟩ | ⟨h, _⟩)
        · rw [← (best_unique hb hq).2, ← hg, hpm] at hr
          rw [Option.some.inj hr]
        · exact absurd hb.2.1 (h p hmem)
    · simp only [reduceCtorEq, false_iff]
      rintro ⟨h, _⟩
      exact h p hmem hb.2.1
  | none =>
    have hn := hfn.mp (findSome_none.mp hfind)
    rw [hfind] at he
    simp only at he
    have hno : ∀ r, ¬ ∃ i p, Best a.entries covers i p ∧ FirstCovered available p.item r := by
      rintro r ⟨i, p, hb, _⟩
      exact hn p (List.mem_of_getElem? hb.1) hb.2.1
    rw [he]
    cases hw : a.wildcard with
    | false =>
      refine ⟨fun r => ?_, ?_, .inr rfl, rfl⟩
      · simp only [reduceCtorEq, false_iff]
        rintro (h | ⟨_, h, _⟩)
        · exact hno r h
        · cases h
      · simp only [true_iff]; exact ⟨hn, fun h => by cases h⟩
    | true =>
      generalize hav : available = av at *
      cases av with
      | nil =>
        refine ⟨fun r => ?_, ?_, .inr rfl, rfl⟩
        · simp only [reduceCtorEq, false_iff]
          rintro (h | ⟨_, _, h⟩)
          · exact hno r h
          · cases h
        · simp only [true_iff]; exact ⟨hn, fun _ => trivial⟩
      | cons e es =>
        refine ⟨fun r => ?_, ?_, .inl ⟨_, rfl⟩, rfl⟩
        · simp only [Res.ok.injEq]
          constructor
          · rintro rfl; exact .inr ⟨hn, trivial, rfl⟩
          · rintro (h | ⟨_, _, h⟩)
            · exact absurd h (hno r)
            · exact Option.some.inj h
        · simp only [reduceCtorEq, false_iff]
          rintro ⟨_, h⟩
          cases h trivial

example : (AcceptList.negotiateMedia ⟨false, [⟨⟨s!!"*/*", s!!"*", s!!"*", false, []⟩, some (.fin false 4)⟩,
    ⟨⟨s!!"text/html", s!!"text", s!!"html", false, []⟩, some (.fin false 8)⟩]⟩
    [⟨s!!"text/xml", s!!"text", s!!"xml", false, []⟩, ⟨s!!"text/html", s!!"text", s!!"html", false, []⟩]).2
    = .ok ⟨s!!"text/html", s!!"text", s!!"html", false, []⟩ := by decide +kernel

/-- C38: nothing unavailable is ever chosen. -/
theorem C38_available (a : AcceptList Mime) (available : List Mime) (r : Mime)
    (h : (a.negotiateMedia available).2 = .ok r) : r ∈ available := by
  unfold AcceptList.negotiateMedia at h
  simp only at h
  split at h
  · rename_i p hf
    cases h
    obtain ⟨q, _, hq⟩ := findSome_iff.mp hf
    exact List.mem_of_find?_eq_some hq
  · split at h
    · cases h; exact List.mem_cons_self
    · cases h

example : ((⟨false, [⟨Mime.JSON, none⟩, ⟨Mime.ANY, none⟩]⟩ : AcceptList Mime).negotiateMedia [Mime.HTML]).2 = .ok Mime.HTML := by
  decide +kernel

theorem best_positive {α : Type} {ps : List (Proposal α)} (hp : ∀ p ∈ ps, WeightOk p) {ok : α → Prop} {i : Nat}
    {p q : Proposal α} (hb : Best ps ok i p) (hq : q ∈ ps) (hok : ok q.item) (hpos : Positive q) : Positive p := by
  obtain ⟨j, hj⟩ := List.mem_iff_getElem?.mp hq
  obtain ⟨m, hm, hw⟩ := hpos
  rcases hb.2.2 j q hj hok with rfl | ⟨p', q', h1, h2, h3⟩
  · rw [hb.1] at hj
    cases hj
    exact ⟨m, hm, hw⟩
  · rw [hb.1] at h1; rw [hj] at h2
    cases h1; cases h2
    have hwq : worth q.weight = m + 1 := by rw [hw]; rfl
    have hwp : m + 1 ≤ worth p.weight := by omega
    cases hpw : p.weight with
    | none => rw [hpw] at hwp; simp [worth] at hwp
    | some x =>
      obtain ⟨k, _, rfl⟩ := hp p (List.mem_of_getElem? hb.1) x hpw
      rw [hpw] at hwp
      have : m + 1 ≤ k + 1 := hwp
      exact ⟨k, by omega, hpw⟩

/-- C39 (codings): when some proposal with a positive weight is available, the choice has a proposal with a
positive weight. Missing: with no such proposal a weight of 0 is still chosen, see the two theorems below. -/
theorem C39_positive_first_partial {α : Type} [DecidableEq α] (a : AcceptList α) (available : List α)
    (hp : ∀ p ∈ a.entries, WeightOk p) (r : α) (h : (a.negotiate available).2 = .ok r)
    (q : Proposal α) (hq : q ∈ a.entries) (hav : q.item ∈ available) (hpos : Positive q) :
    ∃ p ∈ a.entries, p.item = r ∧ Positive p := by
  rcases ((C37_negotiate a available hp).1 r).mp h with ⟨i, p, hb, hr⟩ | ⟨hn, _⟩
  · exact ⟨p, List.mem_of_getElem? hb.1, hr, best_positive hp hb hq hav hpos⟩
  · exact absurd hav (hn q hq)

example : ((AcceptList.mk true [⟨s!!"a", some (.fin false 8)⟩, ⟨s!!"b", some (.fin false 0)⟩] : AcceptList Str).negotiate [s!!"b", s!!"a"]).2 = .ok s!!"a" := by
  decide +kernel

/-- C39 (media types): the same for `Accept`. -/
theorem C39_media_partial (a : AcceptList Mime) (available : List Mime)
    (hp : ∀ p ∈ a.entries, WeightOk p) (r : Mime) (h : (a.negotiateMedia available).2 = .ok r)
    (q : Proposal Mime) (hq : q ∈ a.entries) (hav : ∃ m ∈ available, m.subsetEq q.item = true) (hpos : Positive q) :
    ∃ p ∈ a.entries, r.subsetEq p.item = true ∧ Positive p := by
  rcases ((C38_negotiate a available hp).1 r).mp h with ⟨i, p, hb, hr⟩ | ⟨hn, _⟩
  · obtain ⟨_, _, _, hr, _⟩ := hr
    exact ⟨p, List.mem_of_getElem? hb.1, hr, best_positive hp hb hq hav hpos⟩
  · exact absurd hav (hn q hq)

example : Positive (⟨Encoding.gzip, some (.fin false 1)⟩ : Proposal Encoding) := ⟨1, by decide, rfl⟩

/-- C39 is violated: a coding whose only proposal has weight 0 ("not acceptable") is chosen. -/
theorem C39_violated_zero {α : Type} [DecidableEq α] (e : α) (w : Bool) (available : List α) (he : e ∈ available) :
    ((⟨w, [⟨e, some (.fin false 0)⟩]⟩ : AcceptList α).negotiate available).2 = .ok e := by
  have hp : ∀ p ∈ [(⟨e, some (.fin false 0)⟩ : Proposal α)], WeightOk p := by
    intro p hp
    simp only [List.mem_singleton] at hp
    subst hp
    intro x hx; cases hx; exact ⟨0, by decide, rfl⟩
  refine ((C37_negotiate _ available hp).1 e).mpr (.inl ⟨0, ⟨e, some (.fin false 0)⟩, ⟨rfl, he, ?_⟩, rfl⟩)
  intro j q hj _
  cases j with
  | zero => exact .inl rfl
  | succ j => simp at hj

/-- C39 is violated further: weight 0 even wins over a proposal without weight, which should count as 1. -/
theorem C39_violated_unweighted {α : Type} [DecidableEq α] (e e' : α) (w : Bool) (available : List α)
    (he : e ∈ available) :
    ((⟨w, [⟨e', none⟩, ⟨e, some (.fin false 0)⟩]⟩ : AcceptList α).negotiate available).2 = .ok e := by
  have hp : ∀ p ∈ [(⟨e', none⟩ : Proposal α), ⟨e, some (.fin false 0)⟩], WeightOk p := by
    intro p hp
    simp only [List.mem_cons, List.not_mem_nil, or_false] at hp
    rcases hp with rfl | rfl
    · intro x hx; cases hx
    · intro x hx; cases hx; exact ⟨0, by decide, rfl⟩
  refine ((C37_negotiate _ available hp).1 e).mpr (.inl ⟨1, ⟨e, some (.fin false 0)⟩, ⟨rfl, he, ?_⟩, rfl⟩)
  intro j q hj _
  match j with
  | 0 => exact .inr ⟨_, _, rfl, rfl, .inl (show 0 < 1 from Nat.one_pos)⟩
  | 1 => exact .inl rfl
  | j + 2 => simp at hj

/-- C39 is violated for media types in the same way. -/
theorem C39_violated_media (pat : Mime) (w : Bool) (m : Mime) (hm : m.subsetEq pat = true) :
    ((⟨w, [⟨pat, some (.fin false 0)⟩]⟩ : AcceptList Mime).negotiateMedia [m]).2 = .ok m := by
  have hp : ∀ p ∈ [(⟨pat, some (.fin false 0)⟩ : Proposal Mime)], WeightOk p := by
    intro p hp
    simp only [List.mem_singleton] at hp
    subst hp
    intro x hx; cases hx; exact ⟨0, by decide, rfl⟩
  refine ((C38_negotiate _ [m] hp).1 m).mpr (.inl ⟨0, ⟨pat, some (.fin false 0)⟩, ⟨rfl, ⟨m, by simp, hm⟩, ?_⟩,
    ⟨[], [], rfl, hm, by simp⟩⟩)
  intro j q hj _
  cases j with
  | zero => exact .inl rfl
  | succ j => simp at hj

example : (AcceptEncoding.fromHeaders [(s!!"accept-encoding", [s!!"br, gzip;q=0"])]).map
    (fun a => a.map fun a => (a.negotiate [.gzip, .brotli]).2) = .ok (some (.ok .gzip)) := by decide +kernel

/-! ### single codings -/

/-- The table of content codings. -/
theorem encoding_fromStr (s : Str) (e : Encoding) : Encoding.fromStr s = some e ↔ trim s = e.display := by
  unfold Encoding.fromStr
  simp only
  generalize trim s = t
  constructor
  · intro h
    repeat' split at h
    all_goals first | (cases h; assumption) | cases h
  · rintro rfl
    cases e <;> decide

/-- The table of transfer codings. -/
theorem tencoding_fromStr (s : Str) (e : TEncoding) : TEncoding.fromStr s = some e ↔ trim s = e.display := by
  unfold TEncoding.fromStr
  simp only
  generalize trim s = t
  constructor
  · intro h
    repeat' split at h
    all_goals first | (cases h; assumption) | cases h
  · rintro rfl
    cases e <;> decide

theorem codingLoop_eq {α : Type} (coding : Str → Option α) (vs : List HeaderValue) (inner : Option α) :
    codingLoop coding vs inner = (vs.reverse.findSome? coding).or inner := by
  induction vs generalizing inner with
  | nil => simp [codingLoop]
  | cons v vs ih =>
    rw [codingLoop, List.reverse_cons, List.findSome?_append]
    cases hv : coding v with
    | none => simp only; rw [ih]; simp [hv]
    | some e => simp only; rw [ih]; cases vs.reverse.findSome? coding <;> simp [hv]

theorem findSome_reverse {α : Type} {coding : Str → Option α} {vs : List Str} {e : α} :
    vs.reverse.findSome? coding = some e ↔
      ∃ pre v post, vs = pre ++ v :: post ∧ coding v = some e ∧ ∀ x ∈ post, coding x = none := by
  rw [List.findSome?_eq_some_iff]
  constructor
  · rintro ⟨l1, a, l2, h, ha, hn⟩
    have : vs = l2.reverse ++ a :: l1.reverse := by
      have := congrArg List.reverse h
      simpa using this
    exact ⟨_, a, _, this, ha, fun x hx => hn x (by simpa using hx)⟩
  · rintro ⟨pre, v, post, rfl, hv, hn⟩
    exact ⟨post.reverse, v, pre.reverse, by simp, hv, fun x hx => hn x (by simpa using hx)⟩

/-- C43 (reading): the last value that is exactly the name of a coding decides; without one, reading panics.
Missing: not panicking, see `C43_violated_panics`. -/
theorem C43_reads_partial :
    (∀ (h : Headers), h.get ContentEncoding.name = none → readCoding ContentEncoding.name Encoding.fromStr h = .ok none) ∧
    (∀ (h : Headers), h.get TransferEncoding.name = none →
      readCoding TransferEncoding.name TEncoding.fromStr h = .ok none) ∧
    (∀ (h : Headers) (vs : List Str) (e : Encoding), h.get ContentEncoding.name = some vs →
      (readCoding ContentEncoding.name Encoding.fromStr h = .ok (some e) ↔
        ∃ pre v post, vs = pre ++ v :: post ∧ trim v = e.display ∧ ∀ x ∈ post, ∀ e' : Encoding, trim x ≠ e'.display)) ∧
    (∀ (h : Headers) (vs : List Str) (e : TEncoding), h.get TransferEncoding.name = some vs →
      (readCoding TransferEncoding.name TEncoding.fromStr h = .ok (some e) ↔
        ∃ pre v post, vs = pre ++ v :: post ∧ trim v = e.display ∧ ∀ x ∈ post, ∀ e' : TEncoding, trim x ≠ e'.display)) := by
  have key : ∀ {α : Type} (name : HeaderName) (coding : Str → Option α) (h : Headers) (vs : List Str) (e : α),
      h.get name = some vs → (readCoding name coding h = .ok (some e) ↔
        ∃ pre v post, vs = pre ++ v :: post ∧ coding v = some e ∧ ∀ x ∈ post, coding x = none) := by
    intro α name coding h vs e hv
    rw [← findSome_reverse]
    unfold readCoding
    rw [hv]
    simp only
    rw [iter_eq, codingLoop_eq, Option.or_none]
    cases vs.reverse.findSome? coding with
    | none => simp [Res.unwrap, Res.map]
    | some x => simp [Res.unwrap, Res.map]
  refine ⟨fun h hn => by unfold readCoding; rw [hn], fun h hn => by unfold readCoding; rw [hn], ?_, ?_⟩
  · intro h vs e hv
    rw [key _ _ h vs e hv]
    simp only [encoding_fromStr, Option.eq_none_iff_forall_ne_some, ne_eq]
  · intro h vs e hv
    rw [key _ _ h vs e hv]
    simp only [tencoding_fromStr, Option.eq_none_iff_forall_ne_some, ne_eq]

example : readCoding ContentEncoding.name Encoding.fromStr [(ContentEncoding.name, [s!!" gzip"])] = .ok (some .gzip) ∧
    readCoding TransferEncoding.name TEncoding.fromStr [(TransferEncoding.name, [s!!"gzip", s!!"chunked", s!!"x"])] =
      .ok (some .chunked) := by decide +kernel

/-- C43 (writing): what is written is read back. -/
theorem C43_round_trip :
    (∀ e : Encoding, RoundTrips ContentEncoding.name (.ok e.display) (readCoding ContentEncoding.name Encoding.fromStr) e) ∧
    (∀ e : TEncoding, RoundTrips TransferEncoding.name (.ok e.display)
      (readCoding TransferEncoding.name TEncoding.fromStr) e) := by
  obtain ⟨-, -, h3, h4⟩ := C43_reads_partial
  refine ⟨fun e => roundTrips_of e.display rfl (by cases e <;> decide) fun h hg => ?_,
    fun e => roundTrips_of e.display rfl (by cases e <;> decide) fun h hg => ?_⟩
  · exact (h3 h _ e hg).mpr ⟨[], _, [], rfl, by cases e <;> decide, by simp⟩
  · exact (h4 h _ e hg).mpr ⟨[], _, [], rfl, by cases e <;> decide, by simp⟩

example : readCoding ContentEncoding.name Encoding.fromStr [(s!!"content-encoding", [s!!"gzip", s!!" br ", s!!"x"])]
    = .ok (some .brotli) := by decide +kernel

/-- C43 is violated: a message whose `Content-Encoding` or `Transfer-Encoding` names no known coding, or names
several in one value, crashes the reader. -/
theorem C43_violated_panics :
    (∀ (h : Headers) (vs : List Str), h.get ContentEncoding.name = some vs →
      (readCoding ContentEncoding.name Encoding.fromStr h = .panic ↔ ∀ v ∈ vs, ∀ e : Encoding, trim v ≠ e.display)) ∧
    (∀ (h : Headers) (vs : List Str), h.get TransferEncoding.name = some vs →
      (readCoding TransferEncoding.name TEncoding.fromStr h = .panic ↔ ∀ v ∈ vs, ∀ e : TEncoding, trim v ≠ e.display)) := by
  have key : ∀ {α : Type} (name : HeaderName) (coding : Str → Option α) (h : Headers) (vs : List Str),
      h.get name = some vs → (readCoding name coding h = .panic ↔ ∀ v ∈ vs, coding v = none) := by
    intro α name coding h vs hv
    have : (∀ v ∈ vs, coding v = none) ↔ vs.reverse.findSome? coding = none := by
      simp [List.findSome?_eq_none_iff]
    rw [this]
    unfold readCoding
    rw [hv]
    simp only
    rw [iter_eq, codingLoop_eq, Option.or_none]
    cases vs.reverse.findSome? coding with
    | none => simp [Res.unwrap, Res.map]
    | some x => simp [Res.unwrap, Res.map]
  refine ⟨fun h vs hv => ?_, fun h vs hv => ?_⟩
  · rw [key _ _ h vs hv]
    simp only [Option.eq_none_iff_forall_ne_some, ne_eq, encoding_fromStr]
  · rw [key _ _ h vs hv]
    simp only [Option.eq_none_iff_forall_ne_some, ne_eq, tencoding_fromStr]

example : readCoding ContentEncoding.name Encoding.fromStr [(s!!"content-encoding", [s!!"compress"])] = .panic := by
  decide +kernel
example : readCoding TransferEncoding.name TEncoding.fromStr [(s!!"transfer-encoding", [s!!"gzip, chunked"])] = .panic := by
  decide +kernel
example : readCoding ContentEncoding.name Encoding.fromStr [(s!!"content-encoding", [s!!"GZIP"])] = .panic := by
  decide +kernel

end HT
