import Verif.Props.Content

/-! Properties C41 (weighted headers round-trip) and C66 (negotiation is repeatable). -/

namespace HT

open Spec

/-! ### repeating a negotiation -/

theorem sort_sorted {α : Type} {ps : List (Proposal α)} (hp : ∀ p ∈ ps, WeightOk p) (hd : DistinctWorth ps) :
    sortByWeight (sortByWeight ps) = sortByWeight ps := by
  have hperm := mem_sortByWeight ps
  have hp' : ∀ p ∈ sortByWeight ps, WeightOk p := fun p h => hp p (hperm.mem_iff.mp h)
  obtain ⟨order, ⟨h1, h2⟩, h3⟩ := C36_sorted ps hp
  have hdec : (sortByWeight ps).Pairwise fun a b => worth b.weight < worth a.weight := by
    have hnd : (sortByWeight ps).Pairwise fun a b => worth a.weight ≠ worth b.weight :=
      List.pairwise_map.mp ((hperm.map fun p : Proposal α => worth p.weight).nodup_iff.mpr hd)
    have hle : (sortByWeight ps).Pairwise fun a b => worth b.weight ≤ worth a.weight := by
      have : ((sortByWeight ps).map some).Pairwise fun (a b : Option (Proposal α)) =>
          ∃ p q, a = some p ∧ b = some q ∧ worth q.weight ≤ worth p.weight := by
        rw [h2, List.pairwise_map]
        refine h3.imp ?_
        rintro i j ⟨p, q, hp, hq, h⟩
        exact ⟨p, q, hp, hq, by omega⟩
      rw [List.pairwise_map] at this
      refine this.imp ?_
      rintro a b ⟨p, q, e1, e2, h⟩
      cases e1; cases e2; exact h
    refine (hnd.and hle).imp ?_
    rintro a b ⟨h1, h2⟩
    omega
  obtain ⟨o2, ha2, hp2⟩ := C36_sorted (sortByWeight ps) hp'
  refine (C36_unique (sortByWeight ps) o2 (List.range (sortByWeight ps).length) _ _ ha2
    ⟨List.Perm.refl _, ?_⟩ hp2 ?_).2
  · apply List.ext_getElem?
    intro i
    by_cases hi : i < (sortByWeight ps).length
    · simp [hi]
    · simp [hi]
  · rw [List.pairwise_iff_getElem]
    intro i j hi hj hij
    simp only [List.length_range] at hi hj
    simp only [List.getElem_range]
    refine ⟨(sortByWeight ps)[i], (sortByWeight ps)[j], by simp, by simp, .inl ?_⟩
    exact List.pairwise_iff_getElem.mp hdec i j hi hj hij

/-- C66: when no two proposals have equal weights, a negotiation leaves the list so that every later negotiation
gives what it would have given at first. Missing: equal weights, see `C66_violated_ties`. -/
theorem C66_repeatable_partial :
    (∀ {α : Type} [DecidableEq α] (a : AcceptList α) (av av' : List α), (∀ p ∈ a.entries, WeightOk p) →
      DistinctWorth a.entries → (a.negotiate av).1.negotiate av' = a.negotiate av') ∧
    (∀ (a : AcceptList Mime) (av av' : List Mime), (∀ p ∈ a.entries, WeightOk p) →
      DistinctWorth a.entries → (a.negotiateMedia av).1.negotiateMedia av' = a.negotiateMedia av') := by
  refine ⟨fun a av av' hp hd => ?_, fun a av av' hp hd => ?_⟩
  · have h : a.sort.sort = a.sort := by
      unfold AcceptList.sort; simp only [sort_sorted hp hd]
    show a.sort.negotiate av' = _
    unfold AcceptList.negotiate
    rw [h]
  · have h : a.sort.sort = a.sort := by
      unfold AcceptList.sort; simp only [sort_sorted hp hd]
    show a.sort.negotiateMedia av' = _
    unfold AcceptList.negotiateMedia
    rw [h]

example : DistinctWorth [(⟨Encoding.gzip, none⟩ : Proposal Encoding), ⟨.brotli, some (.fin false 0)⟩] := by
  unfold DistinctWorth worth; decide

/-- C66 is violated by any two proposals of equal weight: the first negotiation picks the later one and the
second picks the other. -/
theorem C66_violated_ties {α : Type} [DecidableEq α] (e e' : α) (w : Option Fl) (hw : ∀ x, w = some x → UnitWeight x)
    (wild : Bool) (av : List α) (he : e ∈ av) (he' : e' ∈ av) :
    let a : AcceptList α := ⟨wild, [⟨e, w⟩, ⟨e', w⟩]⟩
    (a.negotiate av).2 = .ok e' ∧ ((a.negotiate av).1.negotiate av).2 = .ok e := by
  have first : ∀ e e' : α, e' ∈ av → ((⟨wild, [⟨e, w⟩, ⟨e', w⟩]⟩ : AcceptList α).negotiate av).2 = .ok e' := by
    intro e e' he'
    have hp : ∀ p ∈ [(⟨e, w⟩ : Proposal α), ⟨e', w⟩], WeightOk p := by
      intro p hp
      simp only [List.mem_cons, List.not_mem_nil, or_false] at hp
      rcases hp with rfl | rfl <;> exact hw
    refine ((C37_negotiate _ av hp).1 e').mpr (.inl ⟨1, ⟨e', w⟩, ⟨rfl, he', ?_⟩, rfl⟩)
    intro j q hj _
    match j with
    | 0 => exact .inr ⟨_, _, rfl, rfl, .inr ⟨rfl, Nat.one_pos⟩⟩
    | 1 => exact .inl rfl
    | j + 2 => simp at hj
  have hs : sortByWeight [(⟨e, w⟩ : Proposal α), ⟨e', w⟩] = [⟨e', w⟩, ⟨e, w⟩] := by
    have hp : ∀ p ∈ [(⟨e, w⟩ : Proposal α), ⟨e', w⟩], WeightOk p := by
      intro p hp
      simp only [List.mem_cons, List.not_mem_nil, or_false] at hp
      rcases hp with rfl | rfl <;> exact hw
    obtain ⟨o, ho, hpw⟩ := C36_sorted _ hp
    refine (C36_unique _ o [1, 0] _ _ ho ⟨show [1, 0].Perm (List.range 2) by decide, rfl⟩ hpw ?_).2
    refine List.pairwise_pair.mpr ⟨_, _, rfl, rfl, .inr ⟨rfl, Nat.one_pos⟩⟩
  refine ⟨first e e' he', ?_⟩
  show ((⟨wild, sortByWeight [⟨e, w⟩, ⟨e', w⟩]⟩ : AcceptList α).negotiate av).2 = _
  rw [hs]
  exact first e' e he

example : (((⟨false, [⟨Encoding.gzip, none⟩, ⟨.brotli, none⟩]⟩ : AcceptList Encoding).negotiate [.gzip, .brotli]).1.negotiate
    [.gzip, .brotli]).2 = .ok .gzip := by decide +kernel

/-- C66 is violated by any two proposals of equal weight in a list that names nothing twice: with those two available the
first negotiation picks the later one and the second picks the other. -/
theorem C66_violated_swaps {α : Type} [DecidableEq α] (a : AcceptList α) (hp : ∀ p ∈ a.entries, WeightOk p)
    (hn : (a.entries.map (·.item)).Nodup) {i j : Nat} {p q : Proposal α} (hi : a.entries[i]? = some p)
    (hj : a.entries[j]? = some q) (hij : i < j) (hw : worth p.weight = worth q.weight) (av : List α)
    (hav : ∀ e ∈ a.entries, e.item ∈ av ↔ e.item = p.item ∨ e.item = q.item) :
    (a.negotiate av).2 = .ok q.item ∧ ((a.negotiate av).1.negotiate av).2 = .ok p.item ∧ p.item ≠ q.item := by
  have hpm := List.mem_of_getElem? hi
  have hqm := List.mem_of_getElem? hj
  have huniq : ∀ {l : List (Proposal α)}, (l.map (·.item)).Nodup → ∀ {x y : Nat} {u v : Proposal α}, l[x]? = some u → l[y]? = some v →
      u.item = v.item → x = y := by
    intro l hl x y u v hx hy he
    obtain ⟨hx1, rfl⟩ := List.getElem?_eq_some_iff.1 hx
    obtain ⟨hy1, rfl⟩ := List.getElem?_eq_some_iff.1 hy
    exact (List.Nodup.getElem_inj_iff hl (i := x) (j := y) (hi := by simpa using hx1) (hj := by simpa using hy1)).1
      (by simpa using he)
  have hne : p.item ≠ q.item := fun h => absurd (huniq hn hi hj h) (by omega)
  refine ⟨((C37_negotiate a av hp).1 _).2 (.inl ⟨j, q, ⟨hj, (hav q hqm).2 (.inr rfl), ?_⟩, rfl⟩), ?_, hne⟩
  · intro k r hk hr
    rcases (hav r (List.mem_of_getElem? hk)).1 hr with h | h
    · obtain rfl := huniq hn hk hi h
      rw [hi] at hk
      cases hk
      exact .inr ⟨q, p, hj, hi, .inr ⟨hw, hij⟩⟩
    · exact .inl (huniq hn hk hj h)
  · obtain ⟨o, ⟨hperm, hout⟩, hpw⟩ := C36_sorted a.entries hp
    have hlen : (sortByWeight a.entries).length = o.length := by simpa using congrArg List.length hout
    have hget : ∀ x : Nat, (sortByWeight a.entries)[x]? = (o[x]?).bind fun k => a.entries[k]? := by
      intro x
      have h1 := congrArg (·[x]?) hout
      simp only [List.getElem?_map] at h1
      cases hs : (sortByWeight a.entries)[x]? with
      | none =>
        rw [hs] at h1
        cases ho : o[x]? with
        | none => rfl
        | some k => rw [ho] at h1; cases h1
      | some u =>
        rw [hs] at h1
        cases ho : o[x]? with
        | none => rw [ho] at h1; cases h1
        | some k => rw [ho] at h1; simpa using h1
    have hpos : ∀ k, k < a.entries.length → ∃ x : Nat, o[x]? = some k := by
      intro k hk
      exact List.mem_iff_getElem?.1 (hperm.mem_iff.2 (List.mem_range.2 hk))
    obtain ⟨y, hy⟩ := hpos i (List.getElem?_eq_some_iff.1 hi).1
    obtain ⟨x, hx⟩ := hpos j (List.getElem?_eq_some_iff.1 hj).1
    have hxy : x < y := by
      rcases Nat.lt_trichotomy x y with h | h | h
      · exact h
      · subst h
        rw [hx] at hy
        cases hy
        omega
      · obtain ⟨hx1, hx2⟩ := List.getElem?_eq_some_iff.1 hx
        obtain ⟨hy1, hy2⟩ := List.getElem?_eq_some_iff.1 hy
        have := List.pairwise_iff_getElem.1 hpw y x hy1 hx1 h
        rw [hx2, hy2] at this
        obtain ⟨u, v, hu, hv, hc⟩ := this
        rw [hi] at hu
        rw [hj] at hv
        cases hu
        cases hv
        rcases hc with hc | ⟨-, hc⟩
        · rw [hw] at hc; exact absurd hc (lt_irrefl _)
        · omega
    have hgx : (sortByWeight a.entries)[x]? = some q := by rw [hget, hx]; exact hj
    have hgy : (sortByWeight a.entries)[y]? = some p := by rw [hget, hy]; exact hi
    have hmem : ∀ u ∈ sortByWeight a.entries, u ∈ a.entries := by
      intro u hu
      obtain ⟨z, hz⟩ := List.mem_iff_getElem?.1 hu
      rw [hget, Option.bind_eq_some_iff] at hz
      obtain ⟨k, -, hk⟩ := hz
      exact List.mem_of_getElem? hk
    have honce : ∀ {z w : Nat} {u v : Proposal α}, (sortByWeight a.entries)[z]? = some u → (sortByWeight a.entries)[w]? = some v →
        u.item = v.item → z = w := by
      intro z w u v hz hw' he
      rw [hget, Option.bind_eq_some_iff] at hz hw'
      obtain ⟨k, hk, hk2⟩ := hz
      obtain ⟨l, hl, hl2⟩ := hw'
      obtain rfl := huniq hn hk2 hl2 he
      obtain ⟨hz1, hz2⟩ := List.getElem?_eq_some_iff.1 hk
      obtain ⟨hw1, hw2⟩ := List.getElem?_eq_some_iff.1 hl
      exact (List.Nodup.getElem_inj_iff (hperm.nodup_iff.2 List.nodup_range) (hi := hz1) (hj := hw1)).1 (hz2.trans hw2.symm)
    show (a.sort.negotiate av).2 = _
    refine ((C37_negotiate a.sort av (fun u hu => hp u (hmem u hu))).1 _).2
      (.inl ⟨y, p, ⟨hgy, (hav p hpm).2 (.inl rfl), ?_⟩, rfl⟩)
    intro k r hk hr
    rcases (hav r (hmem r (List.mem_of_getElem? hk))).1 hr with h | h
    · exact .inl (honce hk hgy h)
    · obtain rfl := honce hk hgx h
      have hk' : (sortByWeight a.entries)[k]? = some r := hk
      rw [hgx] at hk'
      cases hk'
      exact .inr ⟨p, q, hgy, hgx, .inr ⟨hw.symm, hxy⟩⟩

example : ((⟨false, [⟨Encoding.gzip, none⟩, ⟨.deflate, some (.fin false 0)⟩, ⟨.brotli, none⟩]⟩ : AcceptList Encoding).negotiate
    [.gzip, .brotli]).2 = .ok .brotli := by decide +kernel

/-- C66: for a list that names nothing twice, negotiating again gives the same whatever is available exactly if no two weights
are equal. Missing: equal weights. -/
theorem C66_repeatable_iff_partial {α : Type} [DecidableEq α] (a : AcceptList α) (hp : ∀ p ∈ a.entries, WeightOk p)
    (hn : (a.entries.map (·.item)).Nodup) :
    (∀ av, ((a.negotiate av).1.negotiate av).2 = (a.negotiate av).2) ↔ DistinctWorth a.entries := by
  constructor
  · intro h
    by_contra hd
    unfold DistinctWorth at hd
    rw [List.nodup_iff_injective_getElem] at hd
    simp only [Function.Injective, not_forall] at hd
    obtain ⟨⟨i, hi⟩, ⟨j, hj⟩, he, hij⟩ := hd
    have key : ∀ i j (hi : i < a.entries.length) (hj : j < a.entries.length), i < j →
        worth a.entries[i].weight = worth a.entries[j].weight → False := by
      intro i j hi hj hlt hw
      have hx := List.getElem?_eq_getElem hi
      have hy := List.getElem?_eq_getElem hj
      obtain ⟨h1, h2, h3⟩ := C66_violated_swaps a hp hn hx hy hlt hw [a.entries[i].item, a.entries[j].item]
        (by intro e _; simp)
      rw [h, h1] at h2
      injection h2 with h2
      exact h3 h2.symm
    simp only [List.length_map] at hi hj
    simp only [List.getElem_map] at he
    rcases Nat.lt_trichotomy i j with hl | hl | hl
    · exact key i j hi hj hl he
    · exact hij (by simp [hl])
    · exact key j i hj hi hl he.symm
  · intro hd av
    rw [C66_repeatable_partial.1 a av av hp hd]

example : ¬ DistinctWorth [(⟨Encoding.gzip, none⟩ : Proposal Encoding), ⟨.brotli, none⟩] := by
  unfold DistinctWorth worth; decide

/-! ### weights as text -/

/-- `{:.3}` of a weight of about `k` thousandths. -/
def weightText (k : Nat) : Str := dec (k / 1000) ++ s!!"." ++ zpad 3 (dec (k % 1000))

/-- The whole table of three-decimal weights: each is read from its text, is at most 1, and is printed as
that text again. -/
theorem weight_table : ∀ k < 1001, Fl.parse f32Format (weightText k) = some (thousandths k) ∧
    ∃ m ≤ 2 ^ 149, thousandths k = .fin false m ∧ roundDiv (m * 1000) (2 ^ 149) = k := by
  let ok (k : Nat) : Bool := Fl.parse f32Format (weightText k) == some (thousandths k) &&
    (match thousandths k with
      | .fin false m => roundDiv (m * 1000) (2 ^ 149) == k && decide (m ≤ 2 ^ 149)
      | _ => false)
  have key : ∀ k < 1001, ok k = true := by decide +kernel
  intro k hk
  have h := key k hk
  simp only [ok, Bool.and_eq_true, beq_iff_eq] at h
  refine ⟨h.1, ?_⟩
  have h2 := h.2
  cases ht : thousandths k with
  | fin neg m =>
    rw [ht] at h2
    cases neg with
    | true => simp at h2
    | false =>
      simp only [Bool.and_eq_true, beq_iff_eq, decide_eq_true_eq] at h2
      exact ⟨m, h2.2, rfl, h2.1⟩
  | inf neg => rw [ht] at h2; simp at h2
  | nan => rw [ht] at h2; simp at h2

/-- Everything a written weight is made of. -/
theorem weightText_chars : ∀ k < 1001, ∀ c ∈ weightText k, c = '.' ∨ isDigit c = true := by decide +kernel

theorem fmt3_eq (m : Nat) : Fl.fmt3 f32Format (.fin false m) = weightText (roundDiv (m * 1000) (2 ^ 149)) := rfl

theorem roundDiv_le {a b c : Nat} (hb : 0 < b) (h : a ≤ b * c) : roundDiv a b ≤ c := by
  have h1 := roundDiv_nearest (a := a) hb c
  unfold gap at h1
  by_contra hn
  have h2 : b * (c + 1) ≤ b * roundDiv a b := Nat.mul_le_mul_left b (by omega)
  rw [Nat.mul_add, Nat.mul_one] at h2
  have h3 := roundDiv_error (a := a) hb
  unfold gap at h3
  -- the nearest multiple cannot be past `b * c`
  have h4 : a = b * c := by omega
  rw [h4, roundDiv_exact hb] at hn
  omega

/-- The text of one entry and what it is read back as. -/
theorem entry_reads_back {α : Type} {coding : Str → Option α} {text : α → Str}
    (hc : ∀ x, coding (text x) = some x) (hs : ∀ x, ';' ∉ text x) (p : Proposal α) (hp : WeightOk p) :
    ∃ p', Rounded p p' ∧ Proposal.fromStr coding (p.display text) = .ok (some p') ∧ (ThreeDecimals p.weight → p' = p) ∧
      ThreeDecimals p'.weight := by
  obtain ⟨item, w⟩ := p
  cases w with
  | none =>
    refine ⟨⟨item, none⟩, ⟨rfl, .inl ⟨rfl, rfl⟩⟩, ?_, fun _ => rfl, fun x hx => by cases hx⟩
    have := C40_reads_partial coding (text item) (text item) [] (split_of_not_mem (hs item))
    exact (this.2 item (hc item)).1 rfl
  | some x =>
    obtain ⟨m, hm, rfl⟩ := hp x rfl
    have hpos : 0 < 2 ^ 149 := Nat.two_pow_pos 149
    have herr := roundDiv_error (a := m * 1000) hpos
    have hk : roundDiv (m * 1000) (2 ^ 149) ≤ 1000 := roundDiv_le hpos (Nat.mul_le_mul_right 1000 hm)
    have hdisp : (⟨item, some (.fin false m)⟩ : Proposal α).display text =
        text item ++ ';' :: ('q' :: '=' :: weightText (roundDiv (m * 1000) (2 ^ 149))) := by
      show text item ++ s!!";q=" ++ Fl.fmt3 f32Format (.fin false m) = _
      rw [fmt3_eq]; simp
    have h3 : ThreeDecimals (some (Fl.fin false m)) → thousandths (roundDiv (m * 1000) (2 ^ 149)) = .fin false m := by
      intro h
      obtain ⟨k', hk', e⟩ := h _ rfl
      obtain ⟨_, m', _, h2, h3⟩ := weight_table k' (by omega)
      rw [h2] at e
      cases e
      rw [h3, h2]
    generalize roundDiv (m * 1000) (2 ^ 149) = k at *
    obtain ⟨ht, m', hm', he', _⟩ := weight_table k (by omega)
    have hcs := weightText_chars k (by omega)
    have hnot : ∀ c, c ≠ '.' → isDigit c = false → c ∉ weightText k := by
      intro c h1 h2 hc
      rcases hcs c hc with h | h
      · exact h1 h
      · rw [h] at h2; cases h2
    refine ⟨⟨item, some (thousandths k)⟩, ⟨rfl, .inr ⟨m, k, rfl, hk, rfl, herr⟩⟩, ?_, ?_, ?_⟩
    · rw [hdisp]
      have hsp : split ';' (text item ++ ';' :: ('q' :: '=' :: weightText k)) = [text item, 'q' :: '=' :: weightText k] := by
        rw [split_append_sep (hs item), split_of_not_mem]
        have := hnot ';' (by decide) (by decide)
        simp [this]
      have := C40_reads_partial coding _ _ _ hsp
      refine (((this.2 item (hc item)).2 _ _ rfl).1 _ ⟨weightText k, [], ?_, (Fl.parse_iff (by decide)).mp ht⟩ ?_)
      · rw [show ('q' :: '=' :: weightText k) = ['q'] ++ '=' :: weightText k from rfl,
          split_append_sep (by decide), split_of_not_mem (hnot '=' (by decide) (by decide))]
      · exact ⟨m', hm', he'⟩
    · intro h
      rw [h3 h]
    · intro x hx
      cases hx
      exact ⟨k, hk, rfl⟩

/-! ### whole headers -/

theorem loop_trim {α : Type} (parse : Str → Res (Option (Proposal α))) (parts : List Str) (acc : AcceptList α) :
    AcceptList.loop parse parts acc = AcceptList.loop parse (parts.map trim) acc := by
  induction parts generalizing acc with
  | nil => rfl
  | cons part parts ih =>
    rw [List.map_cons, AcceptList.loop, AcceptList.loop]
    simp only [trim_trim, ih]

/-- Entries that are read one by one. -/
theorem loop_entries {α : Type} {parse : Str → Res (Option (Proposal α))} {texts : List Str} {ps : List (Proposal α)}
    (h : List.Forall₂ (fun t p => Trimmed t ∧ t ≠ [] ∧ t ≠ s!!"*" ∧ parse t = .ok (some p)) texts ps)
    (rest : List Str) (acc : AcceptList α) :
    AcceptList.loop parse (texts ++ rest) acc = AcceptList.loop parse rest { acc with entries := acc.entries ++ ps } := by
  induction h generalizing acc with
  | nil => simp
  | cons h _ ih =>
    obtain ⟨h1, h2, h3, h4⟩ := h
    rw [List.cons_append, AcceptList.loop]
    simp only [trim_of_trimmed h1, if_neg h2, if_neg h3, h4, Res.bind]
    rw [ih]
    simp

theorem accept_reads_back {α : Type} {name : HeaderName} {parse : Str → Res (Option (Proposal α))} {text : α → Str}
    {a : AcceptList α} {ps : List (Proposal α)}
    (hent : List.Forall₂ (fun p p' => ',' ∉ Proposal.display text p ∧ Trimmed (Proposal.display text p) ∧
      Proposal.display text p ≠ [] ∧ Proposal.display text p ≠ s!!"*" ∧ isAscii (Proposal.display text p) = true ∧
      parse (Proposal.display text p) = .ok (some p')) a.entries ps) :
    RoundTrips name (AcceptList.value text a) (AcceptList.fromHeaders name parse) ⟨a.wildcard, ps⟩ := by
  have hall : ∀ p ∈ a.entries, ',' ∉ Proposal.display text p ∧ Trimmed (Proposal.display text p) ∧
      Proposal.display text p ≠ [] ∧ isAscii (Proposal.display text p) = true := by
    intro p hp
    obtain ⟨q, _, h⟩ := forall₂_left hent p hp
    exact ⟨h.1, h.2.1, h.2.2.1, h.2.2.2.2.1⟩
  set texts := a.entries.map (Proposal.display text) with htx
  have hval : AcceptList.value text a = .ok (join s!!", " (written s!!"*" texts a.wildcard)) := by
    unfold AcceptList.value
    rw [writeStar_eq]
    rintro ⟨h, _⟩
    have : ([] : Str) ∈ texts := by rw [htx, h]; simp
    obtain ⟨p, hp, e⟩ := List.mem_map.mp this
    exact (hall p hp).2.2.1 e
  have hw : ∀ t ∈ written s!!"*" texts a.wildcard, ',' ∉ t ∧ Trimmed t ∧ isAscii t = true := by
    intro t ht
    unfold written at ht
    rcases List.mem_append.mp ht with h | h
    · obtain ⟨p, hp, rfl⟩ := List.mem_map.mp h
      exact ⟨(hall p hp).1, (hall p hp).2.1, (hall p hp).2.2.2⟩
    · split at h
      · simp only [List.mem_singleton] at h
        subst h
        exact ⟨by decide, by decide, by decide⟩
      · cases h
  refine roundTrips_of _ hval (isAscii_join (by decide) fun t ht => (hw t ht).2.2) ?_
  intro h hg
  unfold AcceptList.fromHeaders
  rw [hg]
  simp only
  rw [loop_trim, trimmedParts_map]
  by_cases hne : written s!!"*" texts a.wildcard = []
  · rw [hne]
    unfold written at hne
    obtain ⟨h1, h2⟩ := List.append_eq_nil_iff.mp hne
    have h3 : a.entries = [] := by simpa [htx] using h1
    have h4 : a.wildcard = false := by
      cases hb : a.wildcard with
      | false => rfl
      | true => rw [hb] at h2; cases h2
    rw [h3] at hent
    cases hent
    rw [h4]
    rfl
  · rw [listItems_join hne (fun t ht => (hw t ht).1) (fun t ht => (hw t ht).2.1)]
    unfold written
    rw [loop_entries (ps := ps)]
    · cases hb : a.wildcard with
      | false => simp [AcceptList.loop, AcceptList.new, Res.map]
      | true => rfl
    · rw [htx, List.forall₂_map_left_iff]
      exact hent.imp fun p q h => ⟨h.2.1, h.2.2.1, h.2.2.2.1, h.2.2.2.2.2⟩

/-- What is needed of a coding's name. -/
structure GoodText (t : Str) : Prop where
  comma : ',' ∉ t
  semi : ';' ∉ t
  trimmed : Trimmed t
  ne : t ≠ []
  star : t ≠ s!!"*"
  ascii : isAscii t = true

theorem weightText_last : ∀ k < 1001, ∀ t, (t ++ s!!";q=" ++ weightText k).getLast? = (weightText k).getLast? ∧
    ∀ c, (weightText k).getLast? = some c → isWs c = false := by
  have h : ∀ k < 1001, weightText k ≠ [] ∧ (weightText k).getLast?.all (fun c => !isWs c) = true := by decide +kernel
  intro k hk t
  obtain ⟨h1, h2⟩ := h k hk
  refine ⟨?_, fun c hc => by simpa [hc] using h2⟩
  rw [List.getLast?_append_of_ne_nil _ h1]

theorem weightText_ascii : ∀ k < 1001, isAscii (weightText k) = true := by decide +kernel

theorem display_good {α : Type} {text : α → Str} (ht : ∀ x, GoodText (text x)) (p : Proposal α) (hp : WeightOk p) :
    ',' ∉ Proposal.display text p ∧ Trimmed (Proposal.display text p) ∧
      Proposal.display text p ≠ [] ∧ Proposal.display text p ≠ s!!"*" ∧ isAscii (Proposal.display text p) = true := by
  obtain ⟨item, w⟩ := p
  have g := ht item
  cases w with
  | none => exact ⟨g.comma, g.trimmed, g.ne, g.star, g.ascii⟩
  | some x =>
    obtain ⟨m, hm, rfl⟩ := hp x rfl
    have hk : roundDiv (m * 1000) (2 ^ 149) ≤ 1000 := roundDiv_le (Nat.two_pow_pos 149) (Nat.mul_le_mul_right 1000 hm)
    have hd : (⟨item, some (.fin false m)⟩ : Proposal α).display text =
        text item ++ s!!";q=" ++ weightText (roundDiv (m * 1000) (2 ^ 149)) := rfl
    rw [hd]
    generalize roundDiv (m * 1000) (2 ^ 149) = k at *
    have hcs := weightText_chars k (by omega)
    refine ⟨?_, ⟨?_, ?_⟩, ?_, ?_, ?_⟩
    · intro h
      simp only [List.mem_append] at h
      rcases h with (h | h) | h
      · exact g.comma h
      · revert h; decide
      · rcases hcs ',' h with h | h
        · revert h; decide
        · revert h; decide
    · intro c hc
      apply g.trimmed.1 c
      cases ht : text item with
      | nil => exact absurd ht g.ne
      | cons y ys => rw [ht] at hc; exact hc
    · intro c hc
      obtain ⟨h1, h2⟩ := weightText_last k (by omega) (text item)
      rw [h1] at hc
      exact h2 c hc
    · simp
    · intro h
      have : ';' ∈ text item ++ s!!";q=" ++ weightText k := by simp
      rw [h] at this
      revert this; decide
    · rw [isAscii_append, isAscii_append, g.ascii, weightText_ascii k (by omega)]
      decide

theorem forall₂_exists {α β : Type} {R : α → β → Prop} {l : List α} (h : ∀ a ∈ l, ∃ b, R a b) :
    ∃ m, List.Forall₂ R l m := by
  induction l with
  | nil => exact ⟨[], .nil⟩
  | cons x xs ih =>
    obtain ⟨b, hb⟩ := h x List.mem_cons_self
    obtain ⟨m, hm⟩ := ih fun a ha => h a (List.mem_cons_of_mem _ ha)
    exact ⟨b :: m, .cons hb hm⟩

theorem c41 {α : Type} {name : HeaderName} {coding : Str → Option α} {text : α → Str} (ht : ∀ x, GoodText (text x))
    (hc : ∀ x, coding (text x) = some x) (a : AcceptList α) (hp : ∀ p ∈ a.entries, WeightOk p) :
    ∃ ps, RoundTrips name (AcceptList.value text a) (AcceptList.fromHeaders name (Proposal.fromStr coding))
        ⟨a.wildcard, ps⟩ ∧ List.Forall₂ Rounded a.entries ps ∧ (∀ p ∈ ps, ThreeDecimals p.weight) ∧
      ((∀ p ∈ a.entries, ThreeDecimals p.weight) → ps = a.entries) := by
  obtain ⟨ps, hps⟩ := forall₂_exists (R := fun p p' => (Rounded p p' ∧
      Proposal.fromStr coding (p.display text) = .ok (some p') ∧ (ThreeDecimals p.weight → p' = p) ∧
      ThreeDecimals p'.weight) ∧ WeightOk p) (l := a.entries) (fun p hm => by
    obtain ⟨p', h⟩ := entry_reads_back hc (fun x => (ht x).semi) p (hp p hm)
    exact ⟨p', h, hp p hm⟩)
  refine ⟨ps, ?_, hps.imp fun p q h => h.1.1, ?_, ?_⟩
  · apply accept_reads_back
    refine hps.imp fun p q h => ?_
    obtain ⟨h1, h2, h3, h4, h5⟩ := display_good ht p h.2
    exact ⟨h1, h2, h3, h4, h5, h.1.2.1⟩
  · clear hp
    generalize a.entries = es at hps
    induction hps with
    | nil => simp
    | cons h _ ih =>
      intro p hm
      rcases List.mem_cons.mp hm with rfl | hm
      · exact h.1.2.2.2
      · exact ih p hm
  · clear hp
    generalize a.entries = es at hps
    induction hps with
    | nil => simp
    | cons h _ ih =>
      intro hm
      rw [h.1.2.2.1 (hm _ List.mem_cons_self), ih fun p hp => hm p (List.mem_cons_of_mem _ hp)]

theorem encoding_good (e : Encoding) : GoodText e.display := by
  cases e <;> exact ⟨by decide, by decide, by decide, by decide, by decide, by decide⟩

theorem tencoding_good (e : TEncoding) : GoodText e.display := by
  cases e <;> exact ⟨by decide, by decide, by decide, by decide, by decide, by decide⟩

/-- C41: writing and reading back `Accept-Encoding` or `TE` gives the list with each weight rounded to three
decimals, off by at most half a thousandth; weights with at most three decimals are kept. In particular a second
round trip changes nothing. -/
theorem C41_round_trip :
    (∀ a : AcceptList Encoding, (∀ p ∈ a.entries, WeightOk p) →
      ∃ ps, RoundTrips AcceptEncoding.name (AcceptEncoding.value a) AcceptEncoding.fromHeaders ⟨a.wildcard, ps⟩ ∧
        List.Forall₂ Rounded a.entries ps ∧ (∀ p ∈ ps, ThreeDecimals p.weight) ∧
        ((∀ p ∈ a.entries, ThreeDecimals p.weight) → ps = a.entries)) ∧
    (∀ a : AcceptList TEncoding, (∀ p ∈ a.entries, WeightOk p) →
      ∃ ps, RoundTrips TE.name (TE.value a) TE.fromHeaders ⟨a.wildcard, ps⟩ ∧
        List.Forall₂ Rounded a.entries ps ∧ (∀ p ∈ ps, ThreeDecimals p.weight) ∧
        ((∀ p ∈ a.entries, ThreeDecimals p.weight) → ps = a.entries)) :=
  ⟨fun a hp => c41 encoding_good (fun e => (encoding_fromStr _ e).mpr (trim_of_trimmed (encoding_good e).trimmed)) a hp,
    fun a hp => c41 tencoding_good (fun e => (tencoding_fromStr _ e).mpr (trim_of_trimmed (tencoding_good e).trimmed)) a hp⟩

example : AcceptEncoding.value ⟨true, [⟨.gzip, some (thousandths 400)⟩, ⟨.brotli, none⟩]⟩ = .ok s!!"gzip;q=0.400, br, *" := by
  decide +kernel
example : ThreeDecimals (some (.fin false (2 ^ 148))) := by
  intro x hx; cases hx; exact ⟨500, by decide, by decide +kernel⟩
example : AcceptEncoding.value ⟨false, [⟨.gzip, some (.fin false (2 ^ 145))⟩]⟩ = .ok s!!"gzip;q=0.062" := by
  decide +kernel

theorem representable_unit : Representable 24 (2 ^ 149) := ⟨1, 149, by decide, by rw [Nat.one_mul]⟩

/-- C41: the float of three decimals is the nearest one to `k / 1000`, and between 0 and 1. -/
theorem C41_thousandths (k : Nat) (hk : k ≤ 1000) : ∃ m, thousandths k = .fin false m ∧ m ≤ 2 ^ 149 ∧
    NearestUnits 24 (k * 2 ^ 149) 1000 m := by
  obtain ⟨_, m, hm, he, _⟩ := weight_table k (by omega)
  refine ⟨m, he, hm, ?_⟩
  have : roundTo 24 (k * 2 ^ 149) 1000 = m := by
    unfold thousandths Fl.round at he
    simp only at he
    split at he
    · injection he
    · cases he
  rw [← this, nearestUnits_iff (by decide) (by decide)]

example : thousandths 500 = .fin false (2 ^ 148) := by decide +kernel

end HT
