import Verif.Props.Build

/-! C84: changing the proposals of a weighted list in place. -/

namespace HT
open Spec

section
variable {α : Type}

theorem changes_foldl (neg : AcceptList α → List α → AcceptList α × Res α) (a : AcceptList α) (ops : List (AcceptEdit α)) :
    a.changes neg ops = ops.foldl (AcceptList.change neg) a := by
  induction ops generalizing a with
  | nil => rfl
  | cons op ops ih => simp [AcceptList.changes, ih]

theorem edits_key (neg : AcceptList α → List α → AcceptList α × Res α) (hneg : ∀ a av, (neg a av).1 = a.sort)
    (a : AcceptList α) (ops : List (AcceptEdit α)) :
    let r := a.changes neg ops
    ((∀ i p, .whole i p ∉ ops) → (r.entries.map (·.weight)).Perm (a.entries.map (·.weight) ++ pushedWeights ops)) ∧
    r.entries.length = a.entries.length + (pushedWeights ops).length ∧
    (∀ p ∈ r.entries, ∃ q, (q ∈ a.entries ∨ q ∈ given ops) ∧ p.weight = q.weight) ∧
    LastSet editWildcard a.wildcard ops r.wildcard := by
  refine ⟨?_, ?_, ?_, ?_⟩
  · induction ops generalizing a with
    | nil => intro _; simp [AcceptList.changes, pushedWeights]
    | cons op ops ih =>
      intro h
      refine (ih (AcceptList.change neg a op) (fun i p hp => h i p (List.mem_cons_of_mem _ hp))).trans ?_
      match op with
      | .call (.push p) => simp [AcceptList.change, AcceptList.call, AcceptList.push, pushedWeights]
      | .call (.setWildcard b) => simp [AcceptList.change, AcceptList.call, AcceptList.setWildcard, pushedWeights]
      | .call .sort =>
        simp only [AcceptList.change, AcceptList.call, AcceptList.sort, pushedWeights, List.filterMap_cons]
        exact ((mem_sortByWeight a.entries).map _).append_right _
      | .call (.negotiate av) =>
        simp only [AcceptList.change, AcceptList.call, hneg, AcceptList.sort, pushedWeights, List.filterMap_cons]
        exact ((mem_sortByWeight a.entries).map _).append_right _
      | .item i x =>
        have : ((a.entries.modify i fun p => { p with item := x }).map (·.weight)) = a.entries.map (·.weight) := by
          apply List.ext_getElem?
          intro j
          simp only [List.getElem?_map, List.getElem?_modify]
          cases a.entries[j]? with
          | none => rfl
          | some p => by_cases hj : i = j <;> simp [hj]
        simp only [AcceptList.change, pushedWeights, List.filterMap_cons]
        rw [this]
      | .whole i p => exact absurd List.mem_cons_self (h i p)
  · induction ops generalizing a with
    | nil => simp [AcceptList.changes, pushedWeights]
    | cons op ops ih =>
      show ((AcceptList.change neg a op).changes neg ops).entries.length = _
      rw [ih (AcceptList.change neg a op)]
      match op with
      | .call (.push p) => simp [AcceptList.change, AcceptList.call, AcceptList.push, pushedWeights]; omega
      | .call (.setWildcard b) => simp [AcceptList.change, AcceptList.call, AcceptList.setWildcard, pushedWeights]
      | .call .sort =>
        simp only [AcceptList.change, AcceptList.call, AcceptList.sort, pushedWeights, List.filterMap_cons,
          (mem_sortByWeight a.entries).length_eq]
      | .call (.negotiate av) =>
        simp only [AcceptList.change, AcceptList.call, hneg, AcceptList.sort, pushedWeights, List.filterMap_cons,
          (mem_sortByWeight a.entries).length_eq]
      | .item i x => simp [AcceptList.change, pushedWeights]
      | .whole i p => simp [AcceptList.change, pushedWeights]
  · induction ops generalizing a with
    | nil => intro p hp; exact ⟨p, .inl hp, rfl⟩
    | cons op ops ih =>
      intro p hp
      obtain ⟨q, hq, hw⟩ := ih (AcceptList.change neg a op) p hp
      rcases hq with hq | hq
      · match op with
        | .call (.push x) =>
          rcases List.mem_append.mp (show q ∈ a.entries ++ [x] from hq) with hq | hq
          · exact ⟨q, .inl hq, hw⟩
          · rw [List.mem_singleton] at hq
            exact ⟨x, .inr (by simp [given]), by rw [hw, hq]⟩
        | .call (.setWildcard b) => exact ⟨q, .inl hq, hw⟩
        | .call .sort => exact ⟨q, .inl ((mem_sortByWeight a.entries).mem_iff.mp hq), hw⟩
        | .call (.negotiate av) =>
          have hq : q ∈ (neg a av).1.entries := hq
          rw [hneg] at hq
          exact ⟨q, .inl ((mem_sortByWeight a.entries).mem_iff.mp hq), hw⟩
        | .item i x =>
          obtain ⟨j, hj⟩ := List.getElem?_of_mem (show q ∈ a.entries.modify i (fun p => { p with item := x }) from hq)
          rw [List.getElem?_modify] at hj
          cases he : a.entries[j]? with
          | none => rw [he] at hj; cases hj
          | some p' =>
            rw [he] at hj
            refine ⟨p', .inl (List.mem_of_getElem? he), ?_⟩
            rw [hw]
            by_cases hij : i = j
            · simp [hij] at hj; rw [← hj]
            · simp [hij] at hj; rw [← hj]
        | .whole i x =>
          rcases List.mem_or_eq_of_mem_set (show q ∈ a.entries.set i x from hq) with hq | rfl
          · exact ⟨q, .inl hq, hw⟩
          · exact ⟨q, .inr (by simp [given]), hw⟩
      · refine ⟨q, .inr ?_, hw⟩
        unfold given at hq ⊢
        rw [List.mem_filterMap] at hq ⊢
        obtain ⟨o, ho, h⟩ := hq
        exact ⟨o, List.mem_cons_of_mem _ ho, h⟩
  · rw [changes_foldl]
    refine lastSet_foldl (AcceptList.change neg) AcceptList.wildcard editWildcard (fun s op => ?_) a ops
    match op with
    | .call (.push x) => rfl
    | .call (.setWildcard b) => rfl
    | .call .sort => rfl
    | .call (.negotiate av) => simp [AcceptList.change, AcceptList.call, hneg, editWildcard, acceptWildcard, AcceptList.sort]
    | .item i x => rfl
    | .whole i x => rfl

/-- C84: a weighted list whose proposals are changed in place between other calls. Changing codings or media types leaves the
weights as they are; every weight is one that was pushed or given as a whole; nothing is added or lost; the wildcard flag is
the last one set. -/
theorem C84_edits [DecidableEq α] (a : AcceptList α) (ops : List (AcceptEdit α)) :
    let r := a.changes AcceptList.negotiate ops
    ((∀ i p, .whole i p ∉ ops) → (r.entries.map (·.weight)).Perm (a.entries.map (·.weight) ++ pushedWeights ops)) ∧
    r.entries.length = a.entries.length + (pushedWeights ops).length ∧
    (∀ p ∈ r.entries, ∃ q, (q ∈ a.entries ∨ q ∈ given ops) ∧ p.weight = q.weight) ∧
    LastSet editWildcard a.wildcard ops r.wildcard :=
  edits_key AcceptList.negotiate (fun _ _ => rfl) a ops

example : ((⟨true, [⟨Encoding.zstd, none⟩]⟩ : AcceptList Encoding).changes AcceptList.negotiate
    [.call (.push ⟨.gzip, some (.fin false 5)⟩), .item 1 .brotli, .call (.setWildcard false)]) =
    ⟨false, [⟨.zstd, none⟩, ⟨.brotli, some (.fin false 5)⟩]⟩ := by decide +kernel

end

/-- The same for media types. -/
theorem C84_edits_media (a : AcceptList Mime) (ops : List (AcceptEdit Mime)) :
    let r := a.changes AcceptList.negotiateMedia ops
    ((∀ i p, .whole i p ∉ ops) → (r.entries.map (·.weight)).Perm (a.entries.map (·.weight) ++ pushedWeights ops)) ∧
    r.entries.length = a.entries.length + (pushedWeights ops).length ∧
    (∀ p ∈ r.entries, ∃ q, (q ∈ a.entries ∨ q ∈ given ops) ∧ p.weight = q.weight) ∧
    LastSet editWildcard a.wildcard ops r.wildcard :=
  edits_key AcceptList.negotiateMedia (fun _ _ => rfl) a ops

example : ((⟨false, []⟩ : AcceptList Encoding).changes AcceptList.negotiate
    [.call (.push ⟨.gzip, none⟩), .call (.push ⟨.brotli, some (.fin false 5)⟩), .call .sort, .item 0 .zstd]).entries =
    [⟨.zstd, some (.fin false 5)⟩, ⟨.gzip, none⟩] := by decide +kernel

/-- One change in place touches one place: the coding or media type there and not its weight, or the whole. -/
theorem C84_edit_one {α : Type} (neg : AcceptList α → List α → AcceptList α × Res α) (a : AcceptList α) (i : Nat) :
    (∀ x j, (a.change neg (.item i x)).entries[j]? =
      if j = i then a.entries[j]?.map fun p => ⟨x, p.weight⟩ else a.entries[j]?) ∧
    (∀ p j, (a.change neg (.whole i p)).entries[j]? =
      if j = i then a.entries[j]?.map fun _ => p else a.entries[j]?) ∧
    (∀ x, (a.change neg (.item i x)).wildcard = a.wildcard) ∧ (∀ p, (a.change neg (.whole i p)).wildcard = a.wildcard) := by
  refine ⟨fun x j => ?_, fun p j => ?_, fun _ => rfl, fun _ => rfl⟩
  · show (a.entries.modify i _)[j]? = _
    rw [List.getElem?_modify]
    cases a.entries[j]? with
    | none => simp
    | some p =>
      by_cases h : j = i
      · simp [h]
      · have h' : i ≠ j := fun e => h e.symm
        simp [h, h']
  · show (a.entries.set i p)[j]? = _
    rw [List.getElem?_set']
    by_cases h : j = i
    · rw [if_pos h.symm, if_pos h]; rfl
    · rw [if_neg (fun e => h e.symm), if_neg h]

example : ((⟨true, [⟨Encoding.gzip, none⟩, ⟨.brotli, none⟩]⟩ : AcceptList Encoding).change AcceptList.negotiate (.item 1 .zstd)) =
    ⟨true, [⟨.gzip, none⟩, ⟨.zstd, none⟩]⟩ := by decide

/-- Weights stay between 0 and 1 through any changes in place, as only proposals whose weight was checked can be given. -/
theorem C84_edits_weights [DecidableEq α] (a : AcceptList α) (ops : List (AcceptEdit α)) (ha : ∀ p ∈ a.entries, WeightOk p)
    (ho : ∀ p ∈ given ops, ∃ i w, Proposal.new i w = .ok p) :
    ∀ p ∈ (a.changes AcceptList.negotiate ops).entries, WeightOk p := by
  intro p hp
  obtain ⟨q, hq | hq, hw⟩ := (C84_edits a ops).2.2.1 p hp
  · intro x hx; exact ha q hq x (by rw [← hw]; exact hx)
  · obtain ⟨i, w, hn⟩ := ho q hq
    intro x hx
    rw [hw] at hx
    cases w with
    | none => rw [(C40_new i x).2.2] at hn; cases hn; cases hx
    | some y =>
      by_cases hu : UnitWeight y
      · rw [(C40_new i y).1 hu] at hn; cases hn; cases hx; exact hu
      · rw [(C40_new i y).2.1 hu] at hn; cases hn

example : ∃ i w, Proposal.new i w = .ok (⟨Encoding.gzip, some (.fin false 7)⟩ : Proposal Encoding) :=
  ⟨.gzip, some (.fin false 7), by decide +kernel⟩

/-- Iterating over a weighted list gives its proposals in order, and the count of those left is exact. -/
theorem C84_iter_accept {α : Type} (a : AcceptList α) (k : Nat) :
    let it := (fun it : ListIter (Proposal α) => it.next.2)^[k] a.iter
    it.next.1 = a.entries[k]? ∧ it.sizeHint = (a.entries.length - k, some (a.entries.length - k)) :=
  C84_iter (⟨a.entries, false⟩ : StarList (Proposal α)) k

example : ((⟨true, [⟨Encoding.gzip, none⟩, ⟨.brotli, none⟩]⟩ : AcceptList Encoding).iter.next.2.next.1) = some ⟨.brotli, none⟩ := rfl

end HT
