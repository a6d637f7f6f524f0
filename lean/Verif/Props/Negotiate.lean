import Verif.Spec.Negotiate
import Verif.Props.Prefs

/-!
C102: what negotiation chooses is what the standard's weights ask for.
-/

namespace HT

open Spec Mime

/-! ### weights -/

/-- The worth of a weight in thousandths. -/
theorem worth_step : ∀ k < 1000, worth (some (thousandths k)) < worth (some (thousandths (k + 1))) := by decide +kernel

theorem worth_lt {k k' : Nat} (h : k < k') (hk : k' ≤ 1000) :
    worth (some (thousandths k)) < worth (some (thousandths k')) := by
  induction k' with
  | zero => omega
  | succ n ih =>
    rcases Nat.lt_or_ge k n with h1 | h1
    · exact Nat.lt_trans (ih h1 (by omega)) (worth_step n (by omega))
    · rw [show k = n by omega]; exact worth_step n (by omega)

theorem worth_le {k k' : Nat}
    (h : worth (some (thousandths k')) ≤ worth (some (thousandths k))) : k' ≤ k ∨ 1000 < k' := by
  by_contra hn
  have := worth_lt (k := k) (k' := k') (by omega) (by omega)
  omega

theorem unit_thousandths {k : Nat} (hk : k ≤ 1000) : UnitWeight (thousandths k) := by
  obtain ⟨m, h1, h2, -⟩ := C41_thousandths k hk
  exact ⟨m, h2, h1⟩

/-! ### codings -/

/-- What the tables of codings have in common. -/
structure CodingTable {α : Type} (table : List (Str × α)) : Prop where
  names : ∀ r ∈ table, isAscii r.1 = true ∧ lower r.1 = r.1 ∧ r.1 ≠ s!!"*"
  one : ∀ r ∈ table, ∀ r' ∈ table, r.1 = r'.1 ∨ r.2 = r'.2 → r = r'
  all : ∀ x : α, ∃ n, (n, x) ∈ table

theorem content_table : CodingTable contentCodings where
  names := by decide
  one := by decide
  all x := by cases x <;> simp [contentCodings]

theorem transfer_table : CodingTable transferCodings where
  names := by decide
  one := by decide
  all x := by cases x <;> simp [transferCodings]

theorem mem_memberProposals {α : Type} {table : List (Str × α)} {es : List Member} {p : Proposal α} :
    p ∈ memberProposals table es ↔ ∃ e ∈ es, ∃ x, (e.name, x) ∈ table ∧ p = ⟨x, e.weight.map thousandths⟩ := by
  unfold memberProposals
  simp only [List.mem_flatMap, List.mem_map, List.mem_filter, decide_eq_true_eq]
  constructor
  · rintro ⟨e, he, ⟨n, x⟩, ⟨hr, hn⟩, rfl⟩
    simp only at hn
    exact ⟨e, he, x, hn ▸ hr, rfl⟩
  · rintro ⟨e, he, x, hr, rfl⟩
    exact ⟨e, he, _, ⟨hr, rfl⟩, rfl⟩

/-- What is known of the members of a list as the standards write it. -/
theorem members_facts {vs : List Str} {es : List Member} (h : Members vs es) :
    ∀ e ∈ es, Token e.name ∧ ∀ k, e.weight = some k → k ≤ 1000 := by
  unfold Members at h
  generalize (listItems vs).filter (· ≠ []) = l at h
  induction h with
  | nil => intro e he; cases he
  | cons hp _ ih =>
    intro e he
    rcases List.mem_cons.mp he with rfl | he
    · generalize e.name = n at *
      generalize e.weight = w at *
      generalize e.plain = b at *
      cases hp with
      | bare hn => exact ⟨hn, fun k hk => by cases hk⟩
      | weighted hn _ _ _ hv => exact ⟨hn, fun k hk => by cases hk; exact qvalue_le hv⟩
    · exact ih e he

theorem sameName_plain {a n : Str} (ha : Token a) (hl : lower a = a) (hn : isAscii n = true ∧ lower n = n) :
    sameName a n = true ↔ a = n := by
  rw [sameName_low (token_ascii ha) hn, hl]

theorem codingWeight_named {es : List Member} (ht : ∀ e ∈ es, Token e.name) (hp : PlainMembers es) {e : Member}
    (he : e ∈ es) (hn : isAscii e.name = true) : codingWeight es e.name = e.stated := by
  have hl := (hp.1 e he).2
  have : es.find? (fun x => sameName x.name e.name) = some e := by
    obtain ⟨h1, h2⟩ := hp
    induction es with
    | nil => cases he
    | cons y es ih =>
      rw [List.map_cons, List.nodup_cons] at h2
      by_cases hy : y.name = e.name
      · rcases List.mem_cons.mp he with rfl | he
        · rw [List.find?_cons_of_pos]
          exact (sameName_plain (ht _ List.mem_cons_self) hl ⟨hn, hl⟩).mpr rfl
        · exact absurd (List.mem_map.mpr ⟨e, he, hy.symm⟩) h2.1
      · rw [List.find?_cons_of_neg]
        · rcases List.mem_cons.mp he with rfl | he
          · exact absurd rfl hy
          · exact ih (fun e he => ht e (List.mem_cons_of_mem _ he)) he
              (fun e he => h1 e (List.mem_cons_of_mem _ he)) h2.2
        · intro hs
          exact hy ((sameName_plain (ht y List.mem_cons_self) (h1 y List.mem_cons_self).2 ⟨hn, hl⟩).mp hs)
  unfold codingWeight
  rw [this]

theorem codingWeight_other {es : List Member} (ht : ∀ e ∈ es, Token e.name) (hp : ∀ e ∈ es, lower e.name = e.name)
    {n : Str} (hn : isAscii n = true ∧ lower n = n) (ho : ∀ e ∈ es, e.name ≠ n) :
    codingWeight es n = match es.find? fun e => e.name = s!!"*" with | some e => e.stated | none => 0 := by
  have : es.find? (fun x => sameName x.name n) = none := by
    rw [List.find?_eq_none]
    intro e he hs
    exact ho e he ((sameName_plain (ht e he) (hp e he) hn).mp hs)
  unfold codingWeight
  rw [this]
  rfl

theorem memberProposals_ok {α : Type} {table : List (Str × α)} {es : List Member}
    (hk : ∀ e ∈ es, ∀ k, e.weight = some k → k ≤ 1000) : ∀ p ∈ memberProposals table es, WeightOk p := by
  intro p hp x hx
  obtain ⟨e, he, y, -, rfl⟩ := mem_memberProposals.mp hp
  simp only [Option.map_eq_some_iff] at hx
  obtain ⟨k, h1, rfl⟩ := hx
  exact unit_thousandths (hk e he k h1)

theorem worth_best {α : Type} {ps : List (Proposal α)} {ok : α → Prop} {i : Nat} {p q : Proposal α} (h : Best ps ok i p)
    (hq : q ∈ ps) (ho : ok q.item) : worth q.weight ≤ worth p.weight := by
  obtain ⟨j, hj⟩ := List.mem_iff_getElem?.mp hq
  rcases h.2.2 j q hj ho with rfl | ⟨p', q', h1, h2, h3⟩
  · rw [h.1] at hj; cases hj; exact Nat.le_refl _
  · rw [h.1] at h1; rw [hj] at h2
    cases h1; cases h2
    rcases h3 with h3 | h3
    · exact Nat.le_of_lt h3
    · exact Nat.le_of_eq h3.1

/-- The list that is read from the members. -/
def readMembers {α : Type} (table : List (Str × α)) (es : List Member) : AcceptList α :=
  ⟨es.any fun e => e.name == s!!"*" && e.weight == none, memberProposals table es⟩

theorem codings_good {α : Type} [DecidableEq α] {table : List (Str × α)} (hc : CodingTable table) {es : List Member}
    (hf : ∀ e ∈ es, Token e.name ∧ ∀ k, e.weight = some k → k ≤ 1000) (hp : PlainMembers es) (hw : EvenWeights es)
    (available : List α) :
    (∀ x, ((readMembers table es).negotiate available).2 = .ok x → GoodCoding table es available x) ∧
    (((readMembers table es).negotiate available).2 = .err 406 ↔
      ∀ n x, (n, x) ∈ table → x ∈ available → codingWeight es n = 0) := by
  have hok := memberProposals_ok (table := table) fun e he => (hf e he).2
  have ht : ∀ e ∈ es, Token e.name := fun e he => (hf e he).1
  obtain ⟨h1, h2, h3, -⟩ := C37_negotiate (readMembers table es) available hok
  have hname : ∀ {e : Member} {x : α}, e ∈ es → (e.name, x) ∈ table → codingWeight es e.name = e.stated :=
    fun he hx => codingWeight_named ht hp he (hc.names _ hx).1
  have hother : ∀ {n : Str} {x : α}, (n, x) ∈ table → (∀ e ∈ es, e.name ≠ n) →
      codingWeight es n = match es.find? fun e => e.name = s!!"*" with | some e => e.stated | none => 0 :=
    fun hx ho => codingWeight_other ht (fun e he => (hp.1 e he).2) ⟨(hc.names _ hx).1, (hc.names _ hx).2.1⟩ ho
  have hstated : ∀ {e : Member} {x : α}, e ∈ es → (e.name, x) ∈ table → 0 < e.stated := by
    intro e x he hx
    rcases hw with hw | hw
    · unfold Member.stated; rw [hw e he]; decide
    · obtain ⟨k, h4, h5⟩ := hw e he
      unfold Member.stated; rw [h4]
      have : k ≠ 0 := fun hk => (hc.names _ hx).2.2 (h5.mp hk)
      simp only [Option.getD_some]; omega
  have hle : ∀ {n : Str} {x : α}, (n, x) ∈ table → codingWeight es n ≤ 1000 := by
    intro n x hx
    have hs : ∀ e ∈ es, e.stated ≤ 1000 := by
      intro e he
      unfold Member.stated
      cases hwt : e.weight with
      | none => decide
      | some k => exact (hf e he).2 k hwt
    unfold codingWeight
    split
    · rename_i e he; exact hs e (List.mem_of_find?_eq_some he)
    · split
      · rename_i e he; exact hs e (List.mem_of_find?_eq_some he)
      · omega
  have hzero : (∃ k, ∃ e ∈ es, e.weight = some k) → ∀ {n : Str} {x : α}, (n, x) ∈ table → (∀ e ∈ es, e.name ≠ n) →
      codingWeight es n = 0 := by
    rintro ⟨k0, e0, he0, hk0⟩ n x hx ho
    rw [hother hx ho]
    split
    · rename_i e he
      rcases hw with hw | hw
      · rw [hw e0 he0] at hk0; cases hk0
      · obtain ⟨k, h4, h5⟩ := hw e (List.mem_of_find?_eq_some he)
        have := List.find?_some he
        simp only [decide_eq_true_eq] at this
        unfold Member.stated; rw [h4]; exact h5.mpr this
    · rfl
  have hwild : (readMembers table es).wildcard = true ↔ ∃ e ∈ es, e.name = s!!"*" ∧ e.weight = none := by
    simp [readMembers]
  have hstar : (∃ e ∈ es, e.name = s!!"*" ∧ e.weight = none) → ∀ {n : Str} {x : α}, (n, x) ∈ table →
      (∀ e ∈ es, e.name ≠ n) → codingWeight es n = 1000 := by
    rintro ⟨e0, he0, hn0, hk0⟩ n x hx ho
    rw [hother hx ho]
    split
    · rename_i e he
      rcases hw with hw | hw
      · unfold Member.stated; rw [hw e (List.mem_of_find?_eq_some he)]; rfl
      · obtain ⟨k, h4, -⟩ := hw e0 he0
        rw [h4] at hk0; cases hk0
    · rename_i he
      rw [List.find?_eq_none] at he
      exact absurd hn0 (by simpa using he e0 he0)
  refine ⟨fun x hx => ?_, ?_⟩
  · rcases (h1 x).mp hx with ⟨i, p, hb, rfl⟩ | ⟨hn, hwc, hh⟩
    · obtain ⟨e, he, y, hy, rfl⟩ := mem_memberProposals.mp (List.mem_of_getElem? hb.1)
      refine ⟨hb.2.1, e.name, hy, .inl (by rw [hname he hy]; exact hstated he hy), fun m z hz hza => ?_⟩
      rw [hname he hy]
      by_cases hnm : ∃ e' ∈ es, e'.name = m
      · obtain ⟨e', he', rfl⟩ := hnm
        rw [hname he' hz]
        have hwb := worth_best hb (q := ⟨z, e'.weight.map thousandths⟩) (mem_memberProposals.mpr ⟨e', he', z, hz, rfl⟩) hza
        rcases hw with hw | hw
        · unfold Member.stated; rw [hw e he, hw e' he']
        · obtain ⟨k, h4, -⟩ := hw e he
          obtain ⟨k', h4', -⟩ := hw e' he'
          unfold Member.stated
          rw [h4, h4'] at hwb ⊢
          simp only [Option.map_some] at hwb
          have := worth_le hwb
          have := (hf e' he').2 k' h4'
          simp only [Option.getD_some]; omega
      · have hnm' : ∀ e' ∈ es, e'.name ≠ m := fun e' he' h => hnm ⟨e', he', h⟩
        rcases hw with hw' | hw'
        · have : e.stated = 1000 := by unfold Member.stated; rw [hw' e he]; rfl
          rw [this]; exact hle hz
        · obtain ⟨k, h4, -⟩ := hw' e he
          rw [hzero ⟨k, e, he, h4⟩ hz hnm']
          exact Nat.zero_le _
    · have hxa : x ∈ available := List.mem_of_head? hh
      obtain ⟨n, hnx⟩ := hc.all x
      have hno : ∀ e ∈ es, e.name ≠ n := by
        rintro e he rfl
        exact hn _ (mem_memberProposals.mpr ⟨e, he, x, hnx, rfl⟩) hxa
      have h1000 := hstar (hwild.mp hwc) hnx hno
      exact ⟨hxa, n, hnx, .inl (by rw [h1000]; decide), fun m y hy _ => by rw [h1000]; exact hle hy⟩
  · rw [h2]
    constructor
    · rintro ⟨hn, hwc⟩ n x hx hxa
      have hno : ∀ e ∈ es, e.name ≠ n := by
        rintro e he rfl
        exact hn _ (mem_memberProposals.mpr ⟨e, he, x, hx, rfl⟩) hxa
      rw [hother hx hno]
      split
      · rename_i e he
        have hs := List.find?_some he
        simp only [decide_eq_true_eq] at hs
        have he := List.mem_of_find?_eq_some he
        rcases hw with hw | hw
        · have := hwc (hwild.mpr ⟨e, he, hs, hw e he⟩)
          rw [this] at hxa; cases hxa
        · obtain ⟨k, h4, h5⟩ := hw e he
          unfold Member.stated; rw [h4]; exact h5.mpr hs
      · rfl
    · intro h
      refine ⟨fun p hp ha => ?_, fun hwc => ?_⟩
      · obtain ⟨e, he, y, hy, rfl⟩ := mem_memberProposals.mp hp
        have := h e.name y hy ha
        rw [hname he hy] at this
        have := hstated he hy
        omega
      · cases available with
        | nil => rfl
        | cons x l =>
          obtain ⟨n, hnx⟩ := hc.all x
          have h0 := h n x hnx List.mem_cons_self
          by_cases hnm : ∃ e ∈ es, e.name = n
          · obtain ⟨e, he, rfl⟩ := hnm
            rw [hname he hnx] at h0
            have := hstated he hnx
            omega
          · rw [hstar (hwild.mp hwc) hnx fun e he h => hnm ⟨e, he, h⟩] at h0
            cases h0

/-- C102 (codings): of the available codings the one chosen is acceptable and none has more weight; the answer is 406
exactly if all have weight 0. Missing: lists that mix members with and without weight, state 0 for a coding or a
weight for the asterisk, and the coding `identity`, which needs no mention: see the theorems below. -/
theorem C102_codings_partial (h : Headers) (vs : List Str) (es : List Member) (hm : Members vs es) (hp : PlainMembers es)
    (hw : EvenWeights es) :
    (h.get AcceptEncoding.name = some vs → ∃ a, AcceptEncoding.fromHeaders h = .ok (some a) ∧ ∀ available,
      (∀ x, (a.negotiate available).2 = .ok x → GoodCoding contentCodings es available x) ∧
      ((a.negotiate available).2 = .err 406 ↔
        ∀ n x, (n, x) ∈ contentCodings → x ∈ available → codingWeight es n = 0) ∧
      (a.negotiate available).2.Clean 406) ∧
    (h.get TE.name = some vs → ∃ a, TE.fromHeaders h = .ok (some a) ∧ ∀ available,
      (∀ x, (a.negotiate available).2 = .ok x → GoodCoding transferCodings es available x) ∧
      ((a.negotiate available).2 = .err 406 ↔
        ∀ n x, (n, x) ∈ transferCodings → x ∈ available → codingWeight es n = 0) ∧
      (a.negotiate available).2.Clean 406) := by
  have hf := members_facts hm
  obtain ⟨h1, h2⟩ := C94_codings_partial h vs es hm
  refine ⟨fun hg => ⟨_, (h1 hg).1 fun e he _ => (hp.1 e he).1, fun av => ?_⟩,
    fun hg => ⟨_, (h2 hg).1 fun e he _ => (hp.1 e he).1, fun av => ?_⟩⟩
  · obtain ⟨h3, h4⟩ := codings_good content_table hf hp hw av
    exact ⟨h3, h4, (C37_negotiate (readMembers contentCodings es) av (memberProposals_ok fun e he => (hf e he).2)).2.2.1⟩
  · obtain ⟨h3, h4⟩ := codings_good transfer_table hf hp hw av
    exact ⟨h3, h4, (C37_negotiate (readMembers transferCodings es) av (memberProposals_ok fun e he => (hf e he).2)).2.2.1⟩

theorem members_two {s s' n n' : Str} {k k' : Option Nat} {b b' : Bool} (h : Pref s n k b) (h' : Pref s' n' k' b') :
    Members [s ++ s!!", " ++ s'] [⟨n, k, b⟩, ⟨n', k', b'⟩] := by
  obtain ⟨h1, h2, h3⟩ := pref_text h
  obtain ⟨h1', h2', h3'⟩ := pref_text h'
  unfold Members listItems
  rw [List.append_assoc, List.flatMap_cons, List.flatMap_nil]
  show List.Forall₂ _ (((split ',' (s ++ ',' :: (' ' :: s'))).map trim ++ []).filter _) _
  rw [split_append_sep h1, split_of_not_mem (by simp [h1'])]
  have : trim (' ' :: s') = s' := by
    rw [show trim (' ' :: s') = trim s' from rfl, trim_of_trimmed h2']
  simp only [List.map_cons, List.map_nil, trim_of_trimmed h2, this, List.append_nil]
  rw [List.filter_cons_of_pos (by simpa using h3), List.filter_cons_of_pos (by simpa using h3'), List.filter_nil]
  exact .cons h (.cons h' .nil)

theorem tenth : QValue s!!"0.1" 100 := QValue.zeroPoint (ds := s!!"1") (by unfold Digits; decide) (by decide)
theorem half : QValue s!!"0.5" 500 := QValue.zeroPoint (ds := s!!"5") (by unfold Digits; decide) (by decide)

theorem weighted_pref {n t : Str} {k : Nat} (hn : Token n) (h : QValue t k) : Pref (n ++ s!!";q=" ++ t) n (some k) true := by
  have := Pref.weighted (a := []) (b := []) (c := 'q') hn (by intro c hc; cases hc) (by intro c hc; cases hc) (.inl rfl) h
  rw [List.append_assoc]
  exact this

example : ∃ es, Members [s!!"gzip;q=0.1, br;q=0.5"] es ∧ PlainMembers es ∧ EvenWeights es ∧ codingWeight es s!!"gzip" = 100 ∧
    codingWeight es s!!"br" = 500 ∧ codingWeight es s!!"zstd" = 0 := by
  refine ⟨_, members_two (weighted_pref (contentCodings_token (s!!"gzip", .gzip) (by decide)) tenth)
    (weighted_pref (contentCodings_token (s!!"br", .brotli) (by decide)) half), ⟨by decide, by decide⟩, .inr ?_, by decide, by decide, by decide⟩
  intro e he
  simp only [List.mem_cons, List.not_mem_nil, or_false] at he
  rcases he with rfl | rfl
  · exact ⟨100, rfl, by decide⟩
  · exact ⟨500, rfl, by decide⟩

theorem not_good {α : Type} {table : List (Str × α)} (hc : CodingTable table) {es : List Member} {available : List α}
    {n m : Str} {x y : α} (hx : (n, x) ∈ table) (hy : (m, y) ∈ table) (ha : y ∈ available)
    (h : codingWeight es n < codingWeight es m) : ¬ GoodCoding table es available x := by
  rintro ⟨-, n', hn', -, h2⟩
  have := hc.one _ hx _ hn' (.inr rfl)
  injection this with e1
  subst e1
  have := h2 m y hy ha
  omega

theorem read_content {h : Headers} {vs : List Str} {es : List Member} (hg : h.get AcceptEncoding.name = some vs)
    (hm : Members vs es) (hp : ∀ e ∈ es, e.plain = true) :
    AcceptEncoding.fromHeaders h = .ok (some (readMembers contentCodings es)) :=
  ((C94_codings_partial h vs es hm).1 hg).1 fun e he _ => hp e he

theorem proposals_one {w : Option Nat} {b : Bool} (r : Str × Encoding) (hr : r ∈ contentCodings) (es : List Member) :
    memberProposals contentCodings (⟨r.1, w, b⟩ :: es) = ⟨r.2, w.map thousandths⟩ :: memberProposals contentCodings es := by
  have : contentCodings.filter (fun x => x.1 = r.1) = [r] := by
    revert r; decide
  unfold memberProposals
  rw [List.flatMap_cons, this]
  rfl

theorem proposals_star {w : Option Nat} {b : Bool} (es : List Member) :
    memberProposals contentCodings (⟨s!!"*", w, b⟩ :: es) = memberProposals contentCodings es := rfl

theorem weight_self {w : Option Nat} {b : Bool} {n : Str} (hn : isAscii n = true) (es : List Member) :
    codingWeight (⟨n, w, b⟩ :: es) n = w.getD 1000 := by
  unfold codingWeight
  rw [List.find?_cons_of_pos]
  · rfl
  · exact (sameName_iff _ _).mpr ⟨hn, hn, rfl⟩

theorem content_distinct : ∀ r ∈ contentCodings, isAscii r.1 = true ∧ sameName s!!"*" r.1 = false ∧
    ∀ r' ∈ contentCodings, r ≠ r' → sameName r.1 r'.1 = false := by decide

theorem weight_next {w : Option Nat} {b : Bool} (r r' : Str × Encoding) (hr : r ∈ contentCodings) (hr' : r' ∈ contentCodings)
    (hne : r ≠ r') (es : List Member) : codingWeight (⟨r.1, w, b⟩ :: es) r'.1 = codingWeight es r'.1 := by
  have h := (content_distinct r hr).2.2 r' hr' hne
  have hs : r.1 ≠ s!!"*" := (content_table.names r hr).2.2
  unfold codingWeight
  rw [List.find?_cons_of_neg (by simp [h]), List.find?_cons_of_neg (by simpa using hs)]

/-- C102 is violated by members without weight: a coding with any smaller weight is preferred to one whose weight is
left out, which by the standard is 1. -/
theorem C102_violated_unweighted (r r' : Str × Encoding) (hr : r ∈ contentCodings) (hr' : r' ∈ contentCodings) (hne : r ≠ r')
    (k : Nat) (hk : k < 1000) (h : Headers) (vs : List Str) (hg : h.get AcceptEncoding.name = some vs)
    (hm : Members vs [⟨r.1, none, true⟩, ⟨r'.1, some k, true⟩]) :
    ∃ a, AcceptEncoding.fromHeaders h = .ok (some a) ∧ ∀ available, r.2 ∈ available → r'.2 ∈ available →
      (a.negotiate available).2 = .ok r'.2 ∧
      ¬ GoodCoding contentCodings [⟨r.1, none, true⟩, ⟨r'.1, some k, true⟩] available r'.2 := by
  refine ⟨_, read_content hg hm (by simp), fun av ha ha' => ⟨?_, ?_⟩⟩
  · have hf := members_facts hm
    refine ((C37_negotiate _ av (memberProposals_ok fun e he => (hf e he).2)).1 _).mpr (.inl ⟨1, ⟨r'.2, some (thousandths k)⟩, ⟨?_, ha', ?_⟩, rfl⟩)
    · unfold readMembers; rw [proposals_one r hr, proposals_one r' hr']; rfl
    · intro j q hj _
      unfold readMembers at hj ⊢
      rw [proposals_one r hr, proposals_one r' hr'] at hj ⊢
      match j with
      | 0 =>
        refine .inr ⟨_, _, rfl, rfl, .inl ?_⟩
        obtain ⟨m, h1, -⟩ := C41_thousandths k (by omega)
        show 0 < worth (some (thousandths k))
        rw [h1]; exact Nat.succ_pos _
      | 1 => exact .inl rfl
      | j + 2 => simp [memberProposals] at hj
  · refine not_good content_table hr' hr ha ?_
    rw [weight_self (content_distinct r hr).1, weight_next r r' hr hr' hne, weight_self (content_distinct r' hr').1]
    exact hk

example : Members [s!!"br, gzip;q=0.1"] [⟨s!!"br", none, true⟩, ⟨s!!"gzip", some 100, true⟩] ∧
    (readMembers contentCodings [⟨s!!"br", none, true⟩, ⟨s!!"gzip", some 100, true⟩]).negotiate [.brotli, .gzip] =
      (⟨false, [⟨.gzip, some (thousandths 100)⟩, ⟨.brotli, none⟩]⟩, .ok .gzip) :=
  ⟨members_two (.bare (contentCodings_token (s!!"br", .brotli) (by decide)))
    (weighted_pref (contentCodings_token (s!!"gzip", .gzip) (by decide)) tenth), by decide +kernel⟩

/-- C102 is violated by weight 0: the coding that is refused is chosen. -/
theorem C102_violated_zero (r : Str × Encoding) (hr : r ∈ contentCodings) (h : Headers) (vs : List Str)
    (hg : h.get AcceptEncoding.name = some vs) (hm : Members vs [⟨r.1, some 0, true⟩]) :
    ∃ a, AcceptEncoding.fromHeaders h = .ok (some a) ∧ ¬ CodingAcceptable [⟨r.1, some 0, true⟩] r.1 ∧
      ∀ available, r.2 ∈ available → (a.negotiate available).2 = .ok r.2 := by
  refine ⟨_, read_content hg hm (by simp), ?_, fun av ha => ?_⟩
  · rintro (h1 | ⟨h1, h2⟩)
    · rw [weight_self (content_distinct r hr).1] at h1
      exact absurd h1 (by decide)
    · have := (h2 _ (List.mem_singleton.mpr rfl)).1
      simp only [h1] at this
      exact absurd this (by decide)
  · unfold readMembers
    rw [proposals_one r hr]
    have h0 : thousandths 0 = .fin false 0 := by decide +kernel
    show ((⟨_, [⟨r.2, some (thousandths 0)⟩]⟩ : AcceptList Encoding).negotiate av).2 = _
    rw [h0]
    exact C39_violated_zero r.2 _ av ha

example : Members [s!!"gzip;q=0"] [⟨s!!"gzip", some 0, true⟩] :=
  members_one (weighted_pref (contentCodings_token (s!!"gzip", .gzip) (by decide)) .zero)

/-- C102 is violated by the asterisk: a coding with a smaller weight is preferred to all that only the asterisk, with
weight 1, allows. -/
theorem C102_violated_star (r r' : Str × Encoding) (hr : r ∈ contentCodings) (hr' : r' ∈ contentCodings) (hne : r ≠ r')
    (k : Nat) (hk : k < 1000) (h : Headers) (vs : List Str) (hg : h.get AcceptEncoding.name = some vs)
    (hm : Members vs [⟨r.1, some k, true⟩, ⟨s!!"*", none, true⟩]) :
    ∃ a, AcceptEncoding.fromHeaders h = .ok (some a) ∧ ∀ available, r.2 ∈ available → r'.2 ∈ available →
      (a.negotiate available).2 = .ok r.2 ∧
      ¬ GoodCoding contentCodings [⟨r.1, some k, true⟩, ⟨s!!"*", none, true⟩] available r.2 := by
  refine ⟨_, read_content hg hm (by simp), fun av ha ha' => ⟨?_, ?_⟩⟩
  · have hf := members_facts hm
    refine ((C37_negotiate _ av (memberProposals_ok fun e he => (hf e he).2)).1 _).mpr (.inl ⟨0, ⟨r.2, some (thousandths k)⟩, ⟨?_, ha, ?_⟩, rfl⟩)
    · unfold readMembers; rw [proposals_one r hr]; rfl
    · intro j q hj _
      unfold readMembers at hj
      rw [proposals_one r hr, proposals_star] at hj
      match j with
      | 0 => exact .inl rfl
      | j + 1 => simp [memberProposals] at hj
  · refine not_good content_table hr hr' ha' ?_
    rw [weight_self (content_distinct r hr).1, weight_next r r' hr hr' hne]
    unfold codingWeight
    rw [List.find?_cons_of_neg (by simp [(content_distinct r' hr').2.1])]
    exact hk

example : Members [s!!"gzip;q=0.5, *"] [⟨s!!"gzip", some 500, true⟩, ⟨s!!"*", none, true⟩] :=
  members_two (weighted_pref (contentCodings_token (s!!"gzip", .gzip) (by decide)) half) (.bare (token_of_decide (by decide)))

/-- C102 is violated by an asterisk with a weight: nothing is found though every coding is acceptable. -/
theorem C102_violated_any (k : Nat) (hk : 0 < k) (h : Headers) (vs : List Str) (hg : h.get AcceptEncoding.name = some vs)
    (hm : Members vs [⟨s!!"*", some k, true⟩]) :
    ∃ a, AcceptEncoding.fromHeaders h = .ok (some a) ∧ ∀ available, (a.negotiate available).2 = .err 406 ∧
      ∀ x ∈ available, GoodCoding contentCodings [⟨s!!"*", some k, true⟩] available x := by
  have hw : ∀ r ∈ contentCodings, codingWeight [⟨s!!"*", some k, true⟩] r.1 = k := by
    intro r hr
    unfold codingWeight
    rw [List.find?_cons_of_neg (by simp [(content_distinct r hr).2.1])]
    rfl
  refine ⟨_, read_content hg hm (by simp), fun av => ⟨rfl, fun x hx => ?_⟩⟩
  obtain ⟨n, hn⟩ := content_table.all x
  refine ⟨hx, n, hn, .inl ?_, fun m y hy _ => ?_⟩
  · have := hw _ hn
    simp only at this
    rw [this]; exact hk
  · have h1 := hw _ hn
    have h2 := hw _ hy
    simp only at h1 h2
    rw [h1, h2]

example : Members [s!!"*;q=0.5"] [⟨s!!"*", some 500, true⟩] := members_one (weighted_pref (n := s!!"*") (token_of_decide (by decide)) half)

/-- C102 is violated for `identity`: it is not found acceptable when only other codings are mentioned. -/
theorem C102_violated_identity (r : Str × Encoding) (hr : r ∈ contentCodings) (hne : r.2 ≠ .identity) (w : Option Nat)
    (h : Headers) (vs : List Str) (hg : h.get AcceptEncoding.name = some vs) (hm : Members vs [⟨r.1, w, true⟩]) :
    ∃ a, AcceptEncoding.fromHeaders h = .ok (some a) ∧ (a.negotiate [.identity]).2 = .err 406 ∧
      GoodCoding contentCodings [⟨r.1, w, true⟩] [.identity] .identity := by
  have hi : (s!!"identity", Encoding.identity) ∈ contentCodings := by decide
  have hne' : r ≠ (s!!"identity", Encoding.identity) := fun he => hne (by rw [he])
  refine ⟨_, read_content hg hm (by simp), ?_, ?_⟩
  · have hf := members_facts hm
    refine ((C37_negotiate _ [Encoding.identity] (memberProposals_ok fun e he => (hf e he).2)).2.1).mpr ⟨?_, ?_⟩
    · intro p hp
      unfold readMembers at hp
      rw [proposals_one r hr] at hp
      simp only [memberProposals, List.flatMap_nil, List.mem_singleton] at hp
      subst hp
      simpa using hne
    · intro hs
      have := (content_table.names r hr).2.2
      simp [readMembers] at hs
      exact absurd hs.1 this
  · refine ⟨List.mem_singleton.mpr rfl, _, hi, .inr ⟨rfl, fun e he => ?_⟩, fun m y hy hya => ?_⟩
    · rw [List.mem_singleton] at he
      subst he
      exact ⟨(content_distinct r hr).2.2 _ hi hne', (content_table.names r hr).2.2⟩
    · rw [List.mem_singleton] at hya
      subst hya
      have := content_table.one _ hy _ hi (.inr rfl)
      injection this with e1
      rw [e1]

example : Members [s!!"gzip"] [⟨s!!"gzip", none, true⟩] :=
  members_one (.bare (contentCodings_token (s!!"gzip", .gzip) (by decide)))

/-! ### media types -/

theorem paramsText_filter (f : Str × Str → Bool) {pt : Str} {ps : List (Str × Str)} (h : ParamsText pt ps) :
    ∃ pt', ParamsText pt' (ps.filter f) := by
  induction h with
  | nil => exact ⟨[], .nil⟩
  | cons h1 h2 h3 h4 _ ih =>
    obtain ⟨pt', ih⟩ := ih
    rw [List.filter_cons]
    split
    · exact ⟨_, .cons h1 h2 h3 h4 ih⟩
    · exact ⟨pt', ih⟩

theorem mem_firstOf {L : List (Str × Str)} {n v : Str} :
    (n, v) ∈ firstOf L ↔ L.find? (fun e => e.1 == n) = some (n, v) := by
  induction L with
  | nil => simp [firstOf]
  | cons p L ih =>
    rw [firstOf, List.mem_cons, List.mem_filter, List.find?_cons]
    by_cases h : p.1 = n
    · subst h
      simp only [BEq.rfl, ne_eq, not_true_eq_false, decide_false, Bool.false_eq_true, and_false, or_false]
      constructor
      · intro h; rw [← h]
      · intro h; injection h with h; exact h.symm
    · have h' : (p.1 == n) = false := by simpa using h
      rw [h', ih]
      simp only
      constructor
      · rintro (rfl | h1)
        · exact absurd rfl h
        · exact h1.1
      · exact fun h1 => .inr ⟨h1, by simpa using fun e : n = p.1 => h e.symm⟩

theorem lower_star {s : Str} : lower s = s!!"*" ↔ s = s!!"*" := by
  constructor
  · intro h
    match s with
    | [] => cases h
    | [c] =>
      have hc : lowerC c = '*' := by simpa [lower] using h
      rw [(lowerC_eq_iff (by decide) (by decide)).mp hc]
    | _ :: _ :: _ => simp [lower] at h
  · rintro rfl; rfl

/-- A member of Accept is read with its weight, and its range covers exactly the types that fall into it. -/
theorem range_covers {s : Str} {r : MediaRange} (h : MediaPref s r.base r.sub r.ps r.weight)
    (hu : ∀ e ∈ r.ps, sameName e.1 s!!"charset" = true → e.2 ≠ s!!"utf-8") {item : Mime}
    (hi : ∀ s', MediaText s' r.base r.sub (r.ps.filter fun e => !sameName e.1 s!!"q") → Mime.parse s' = .ok item) (m : Mime) :
    m.subsetEq item = true ↔ r.Applies m := by
  have hm : MediaText s r.base r.sub r.ps := by
    generalize r.weight = k at h
    cases h with
    | bare hm _ => exact hm
    | weighted hm _ _ => exact hm
  obtain ⟨w1, w2, pt, a1, a2, a3, a4, a5, -⟩ := hm
  have hl : ∀ e ∈ r.ps, Token e.1 := fun e he => (paramsText_legal a5 e he).1
  obtain ⟨pt', hpt'⟩ := paramsText_filter (fun e => !sameName e.1 s!!"q") a5
  have hs' : MediaText _ r.base r.sub (r.ps.filter fun e => !sameName e.1 s!!"q") := ⟨w1, w2, pt', a1, a2, a3, a4, hpt', rfl⟩
  have hit := (hi _ hs').symm.trans (C24_parse_text hs')
  injection hit with hit
  rw [C25_matches_iff, hit]
  simp only
  rw [lower_star, lower_star]
  unfold MediaRange.Applies
  refine and_congr_right fun _ => and_congr_right fun _ => ?_
  have hown : ∀ e ∈ r.own, Token e.1 := fun e he => hl e (List.mem_filter.mp he).1
  have hfil : ((r.ps.filter fun e => !sameName e.1 s!!"q").map fun e => (lower e.1, e.2)).filter
      (fun e => e ≠ (s!!"charset", s!!"utf-8")) = r.own.map fun e => (lower e.1, e.2) := by
    rw [List.filter_eq_self.mpr]
    · rfl
    · intro e he
      obtain ⟨e', he', rfl⟩ := List.mem_map.mp he
      have he'' := (List.mem_filter.mp he').1
      simp only [ne_eq, Prod.mk.injEq, decide_not, Bool.not_eq_true', decide_eq_false_iff_not]
      rintro ⟨h1, h2⟩
      exact hu e' he'' ((sameName_low (token_ascii (hl e' he'')) (by decide)).mpr h1) h2
  rw [hfil]
  have hfind : ∀ n, isAscii n = true → (r.own.map fun e => (lower e.1, e.2)).find? (fun e => e.1 == lower n) =
      (r.own.find? fun e => sameName e.1 n).map fun e => (lower e.1, e.2) := by
    intro n hn
    rw [List.find?_map]
    congr 1
    refine find?_congr_mem fun e he => ?_
    rw [Bool.eq_iff_iff, sameName_iff]
    simp [token_ascii (hown e he), hn]
  constructor
  · intro h n v hv
    unfold firstValue at hv
    rw [Option.map_eq_some_iff] at hv
    obtain ⟨e, he, rfl⟩ := hv
    have hsn := List.find?_some he
    have hn := ((sameName_iff _ _).mp hsn).2.1
    refine h _ _ (mem_firstOf.mpr ?_)
    rw [hfind n hn, he, Option.map_some, ((sameName_iff _ _).mp hsn).2.2]
  · intro h k v hv
    have hv := mem_firstOf.mp hv
    have hmem := List.mem_of_find?_eq_some hv
    obtain ⟨e, he, hev⟩ := List.mem_map.mp hmem
    injection hev with e1 e2
    subst e1 e2
    refine h e.1 e.2 ?_
    rw [hfind e.1 (token_ascii (hown e he)), Option.map_eq_some_iff] at hv
    obtain ⟨e', h1, h2⟩ := hv
    injection h2 with _ h2
    unfold firstValue
    rw [h1, Option.map_some, h2]

theorem media_slash {s base sub : Str} {ps : List (Str × Str)} {k : Nat} (h : MediaPref s base sub ps k) : '/' ∈ s := by
  have key : MediaText s base sub ps → '/' ∈ s := by
    rintro ⟨w1, w2, pt, -, -, -, -, -, rfl⟩
    simp
  cases h with
  | bare hm _ => exact key hm
  | weighted hm _ _ => exact key hm

theorem ranges_read {h : Headers} {vs : List Str} {rs : List MediaRange} (hg : h.get Accept.name = some vs)
    (hr : Ranges vs rs) (hu : ∀ r ∈ rs, ∀ e ∈ r.ps, sameName e.1 s!!"charset" = true → e.2 ≠ s!!"utf-8") :
    ∃ a, Accept.fromHeaders h = .ok (some a) ∧ a.wildcard = false ∧ (∀ r ∈ rs, r.weight ≤ 1000) ∧
      List.Forall₂ (fun r (p : Proposal Mime) => p.weight = some (thousandths r.weight) ∧
        ∀ m, Mime.subsetEq m p.item = true ↔ r.Applies m) rs a.entries := by
  unfold Ranges at hr
  have hmem : ∀ s ∈ (listItems vs).filter (· ≠ []), ∃ r : MediaRange, MediaPref s r.base r.sub r.ps r.weight := by
    generalize (listItems vs).filter (· ≠ []) = l at hr
    induction hr with
    | nil => intro s hs; cases hs
    | cons hp _ ih =>
      intro s hs
      rcases List.mem_cons.mp hs with rfl | hs
      · exact ⟨_, hp⟩
      · exact ih (fun r hr => hu r (List.mem_cons_of_mem _ hr)) s hs
  have hstar : s!!"*" ∉ listItems vs := by
    intro hs
    obtain ⟨r, hp⟩ := hmem _ (List.mem_filter.mpr ⟨hs, by decide⟩)
    exact absurd (media_slash hp) (by decide)
  obtain ⟨a, h1, h2, h3⟩ := C94_accept_partial h vs hg (fun s hs => by
    by_cases hb : s = []
    · exact .inl hb
    · obtain ⟨r, hp⟩ := hmem s (List.mem_filter.mpr ⟨hs, by simpa using hb⟩)
      exact .inr (.inr ⟨_, _, _, _, hp⟩))
  have hfe : ((listItems vs).filter fun s => s ≠ [] ∧ s ≠ s!!"*") = (listItems vs).filter (· ≠ []) := by
    refine List.filter_congr fun s hs => ?_
    rw [Bool.eq_iff_iff]
    simp only [decide_eq_true_eq]
    exact ⟨fun h => h.1, fun h => ⟨h, fun he => hstar (he ▸ hs)⟩⟩
  rw [hfe] at h3
  refine ⟨a, h1, ?_, ?_, ?_⟩
  · cases hw : a.wildcard with
    | false => rfl
    | true => exact absurd (h2.mp hw) hstar
  · clear h3 hu hmem hfe
    generalize (listItems vs).filter (· ≠ []) = l at hr
    induction hr with
    | nil => intro r hr; cases hr
    | cons hp _ ih =>
      intro r' hr'
      rcases List.mem_cons.mp hr' with rfl | hr'
      · generalize r'.weight = k at hp
        cases hp with
        | bare _ _ => exact Nat.le_refl _
        | weighted _ _ hv => exact qvalue_le hv
      · exact ih r' hr'
  · clear hmem hfe
    generalize (listItems vs).filter (· ≠ []) = l at hr h3
    generalize a.entries = es at h3
    clear h1 h2
    induction hr generalizing es with
    | nil => cases h3; exact .nil
    | cons hp _ ih =>
      cases h3 with
      | cons h4 h5 =>
        obtain ⟨h6, h7⟩ := h4 _ _ _ _ hp
        exact .cons ⟨h6, fun m => range_covers hp (hu _ List.mem_cons_self) h7 m⟩
          (ih (fun r hr => hu r (List.mem_cons_of_mem _ hr)) _ h5)

theorem most_specific (rs : List MediaRange) (m : Mime) (h : ∃ r ∈ rs, r.Applies m) :
    ∃ r ∈ rs, r.Applies m ∧ ∀ r' ∈ rs, r'.Applies m → r'.rank ≤ r.rank := by
  induction rs with
  | nil => obtain ⟨r, hr, -⟩ := h; cases hr
  | cons x rs ih =>
    by_cases ht : ∃ r ∈ rs, r.Applies m
    · obtain ⟨r, hr, h1, h2⟩ := ih ht
      by_cases hx : x.Applies m ∧ r.rank ≤ x.rank
      · refine ⟨x, List.mem_cons_self, hx.1, fun r' hr' ha => ?_⟩
        rcases List.mem_cons.mp hr' with rfl | hr'
        · exact Nat.le_refl _
        · exact Nat.le_trans (h2 r' hr' ha) hx.2
      · refine ⟨r, List.mem_cons_of_mem _ hr, h1, fun r' hr' ha => ?_⟩
        rcases List.mem_cons.mp hr' with rfl | hr'
        · by_contra hn
          exact hx ⟨ha, by omega⟩
        · exact h2 r' hr' ha
    · obtain ⟨r, hr, h1⟩ := h
      rcases List.mem_cons.mp hr with rfl | hr
      · refine ⟨r, List.mem_cons_self, h1, fun r' hr' ha => ?_⟩
        rcases List.mem_cons.mp hr' with rfl | hr'
        · exact Nat.le_refl _
        · exact absurd ⟨r', hr', ha⟩ ht
      · exact absurd ⟨r, hr, h1⟩ ht

/-- C102 (media types): of the available types the one chosen has a weight other than 0 and none has more; the answer is
406 exactly if all have weight 0. Missing: lists in which a more specific range has less weight than a less specific
one, weight 0, and `charset=utf-8` in a range: see the theorems below. -/
theorem C102_media_partial (h : Headers) (vs : List Str) (rs : List MediaRange) (hg : h.get Accept.name = some vs)
    (hr : Ranges vs rs) (hu : ∀ r ∈ rs, ∀ e ∈ r.ps, sameName e.1 s!!"charset" = true → e.2 ≠ s!!"utf-8")
    (hpos : ∀ r ∈ rs, 0 < r.weight) :
    ∃ a, Accept.fromHeaders h = .ok (some a) ∧ ∀ available, RisingWeights rs available →
      (∀ m, (a.negotiateMedia available).2 = .ok m → GoodType rs available m) ∧
      ((a.negotiateMedia available).2 = .err 406 ↔ ∀ m ∈ available, TypeWeight rs m 0) ∧
      (a.negotiateMedia available).2.Clean 406 := by
  obtain ⟨a, h1, h2, h3, h4⟩ := ranges_read hg hr hu
  refine ⟨a, h1, fun av hris => ?_⟩
  have hleft := forall₂_left h4
  have hright := forall₂_left h4.flip
  have hok : ∀ p ∈ a.entries, WeightOk p := by
    intro p hp x hx
    obtain ⟨r, hr, h5, -⟩ := hright p hp
    rw [h5] at hx
    injection hx with hx
    exact hx ▸ unit_thousandths (h3 r hr)
  obtain ⟨c1, c2, c3, -⟩ := C38_negotiate a av hok
  refine ⟨fun m hm => ?_, ?_, c3⟩
  · rcases (c1 m).mp hm with ⟨i, p, hb, b, c, rfl, hcov, -⟩ | ⟨-, hw, -⟩
    · obtain ⟨r, hrm, h5, h6⟩ := hright p (List.mem_of_getElem? hb.1)
      have hmav : m ∈ b ++ m :: c := by simp
      have hbest : ∀ m' ∈ b ++ m :: c, ∀ r' ∈ rs, r'.Applies m' → r'.weight ≤ r.weight := by
        intro m' hm' r' hr' ha
        obtain ⟨q, hq, h7, h8⟩ := hleft r' hr'
        have := worth_best hb hq ⟨m', hm', (h8 m').mpr ha⟩
        rw [h5, h7] at this
        have := worth_le this
        have := h3 r' hr'
        omega
      refine ⟨hmav, r.weight, hpos r hrm, .inl ?_, fun m' hm' k' hk' => ?_⟩
      · obtain ⟨r', hr', ha, hmax⟩ := most_specific rs m ⟨r, hrm, (h6 m).mp hcov⟩
        refine ⟨r', hr', ha, ?_, hmax⟩
        have := hbest m hmav r' hr' ha
        have := hris m hmav r hrm r' hr' ((h6 m).mp hcov) ha (hmax r hrm ((h6 m).mp hcov))
        omega
      · rcases hk' with ⟨r', hr', ha, rfl, -⟩ | ⟨rfl, -⟩
        · exact hbest m' hm' r' hr' ha
        · exact Nat.zero_le _
    · rw [h2] at hw; cases hw
  · rw [c2]
    constructor
    · rintro ⟨hn, -⟩ m hm
      refine .inr ⟨rfl, fun r hr ha => ?_⟩
      obtain ⟨q, hq, -, h8⟩ := hleft r hr
      exact hn q hq ⟨m, hm, (h8 m).mpr ha⟩
    · intro hz
      refine ⟨?_, fun hw => by rw [h2] at hw; cases hw⟩
      rintro p hp ⟨m, hm, hc⟩
      obtain ⟨r, hr, -, h6⟩ := hright p hp
      rcases hz m hm with ⟨r', hr', -, h7, -⟩ | ⟨-, h7⟩
      · have := hpos r' hr'; omega
      · exact h7 r hr ((h6 m).mp hc)

example : (Accept.fromHeaders [(Accept.name, [s!!"text/*;q=0.4, text/html;q=0.8"])]).bind (fun o => match o with
    | some a => (a.negotiateMedia [Mime.HTML, Mime.CSS]).2.map Mime.essence
    | none => .panic) = .ok s!!"text/html" := by decide +kernel

theorem token_star : Token s!!"*" := token_of_decide (by decide)

theorem media_bare {b s : Str} (hb : Token b) (hs : Token s) : MediaPref (b ++ '/' :: s) b s [] 1000 := by
  refine .bare ⟨[], [], [], ?_, ?_, hb, hs, .nil, by simp⟩ rfl <;> (intro c hc; cases hc)

theorem range_weighted {b s t : Str} {k : Nat} (hb : Token b) (hs : Token s) (ht : QValue t k) (htt : Token t) :
    MediaPref (b ++ '/' :: (s ++ ';' :: 'q' :: '=' :: t)) b s [(s!!"q", t)] k := by
  refine .weighted ⟨[], [], ';' :: ([] ++ (s!!"q" ++ '=' :: (t ++ ([] ++ [])))), ?_, ?_, hb, hs,
    .cons ?_ (token_of_decide (by decide)) (.inl ⟨rfl, htt⟩) ?_ .nil, by simp⟩ ?_ ht
  · intro c hc; cases hc
  · intro c hc; cases hc
  · intro c hc; cases hc
  · intro c hc; cases hc
  · show (List.find? _ _).map _ = _
    have : sameName s!!"q" s!!"q" = true := by decide
    simp [this]

theorem ranges_two {s s' : Str} {r r' : MediaRange} (h : MediaPref s r.base r.sub r.ps r.weight)
    (h' : MediaPref s' r'.base r'.sub r'.ps r'.weight) (hc : ',' ∉ s) (hc' : ',' ∉ s') (ht : Trimmed s) (ht' : Trimmed s') :
    Ranges [s ++ s!!", " ++ s'] [r, r'] := by
  unfold Ranges listItems
  rw [List.append_assoc, List.flatMap_cons, List.flatMap_nil]
  show List.Forall₂ _ (((split ',' (s ++ ',' :: (' ' :: s'))).map trim ++ []).filter _) _
  rw [split_append_sep hc, split_of_not_mem (by simp [hc'])]
  have : trim (' ' :: s') = s' := by
    rw [show trim (' ' :: s') = trim s' from rfl, trim_of_trimmed ht']
  have hne : ∀ {t : Str}, '/' ∈ t → t ≠ [] := by rintro t h rfl; cases h
  simp only [List.map_cons, List.map_nil, trim_of_trimmed ht, this, List.append_nil]
  rw [List.filter_cons_of_pos (by simpa using hne (media_slash h)),
    List.filter_cons_of_pos (by simpa using hne (media_slash h')), List.filter_nil]
  exact .cons h (.cons h' .nil)

theorem two_ranges {h : Headers} {vs : List Str} {r r' : MediaRange} (hg : h.get Accept.name = some vs)
    (hr : Ranges vs [r, r'])
    (hu : ∀ x ∈ [r, r'], ∀ e ∈ x.ps, sameName e.1 s!!"charset" = true → e.2 ≠ s!!"utf-8") (hlt : r'.weight < r.weight) :
    ∃ a, Accept.fromHeaders h = .ok (some a) ∧ ∀ m rest, r.Applies m → (a.negotiateMedia (m :: rest)).2 = .ok m := by
  obtain ⟨a, h1, h2, h3, h4⟩ := ranges_read hg hr hu
  refine ⟨a, h1, fun m rest hm => ?_⟩
  have hok : ∀ p ∈ a.entries, WeightOk p := by
    intro p hp x hx
    obtain ⟨r, hr, h5, -⟩ := forall₂_left h4.flip p hp
    rw [h5] at hx
    injection hx with hx
    exact hx ▸ unit_thousandths (h3 r hr)
  refine ((C38_negotiate a _ hok).1 m).mpr (.inl ?_)
  generalize a.entries = es at h4
  cases h4 with
  | cons hp h4 =>
    cases h4 with
    | cons hp' h4 =>
      cases h4
      rename_i p p'
      refine ⟨0, p, ⟨rfl, ⟨m, List.mem_cons_self, (hp.2 m).mpr hm⟩, fun j q hj _ => ?_⟩, [], rest, rfl, (hp.2 m).mpr hm, by simp⟩
      match j with
      | 0 => exact .inl rfl
      | 1 =>
        refine .inr ⟨p, p', rfl, rfl, .inl ?_⟩
        rw [hp.1, hp'.1]
        exact worth_lt hlt (h3 r (by simp))
      | j + 2 => simp at hj

/-- C102 is violated by more specific ranges: a type whose own range has little or no weight is chosen, on the weight
of a wider range, before another type which only the wider range is about. -/
theorem C102_violated_specific (h : Headers) (vs : List Str) (r r' : MediaRange) (hg : h.get Accept.name = some vs)
    (hr : Ranges vs [r, r'])
    (hu : ∀ x ∈ [r, r'], ∀ e ∈ x.ps, sameName e.1 s!!"charset" = true → e.2 ≠ s!!"utf-8")
    (hlt : r'.weight < r.weight) (hrank : r.rank < r'.rank) :
    ∃ a, Accept.fromHeaders h = .ok (some a) ∧ ∀ m, r.Applies m → r'.Applies m →
      (∀ m', r.Applies m' → ¬ r'.Applies m' →
        (a.negotiateMedia [m, m']).2 = .ok m ∧ ¬ GoodType [r, r'] [m, m'] m ∧ GoodType [r, r'] [m, m'] m') ∧
      (r'.weight = 0 → (a.negotiateMedia [m]).2 = .ok m ∧ TypeWeight [r, r'] m 0) := by
  obtain ⟨a, h1, h2⟩ := two_ranges hg hr hu hlt
  refine ⟨a, h1, fun m hm hm' => ?_⟩
  have hown : ∀ k, TypeWeight [r, r'] m k ↔ k = r'.weight := by
    intro k
    constructor
    · rintro (⟨x, hx, -, hk, hmax⟩ | ⟨-, hn⟩)
      · simp only [List.mem_cons, List.not_mem_nil, or_false] at hx
        rcases hx with rfl | rfl
        · have := hmax r' (by simp) hm'; omega
        · exact hk.symm
      · exact absurd hm (hn r (by simp))
    · rintro rfl
      refine .inl ⟨r', by simp, hm', rfl, fun x hx _ => ?_⟩
      simp only [List.mem_cons, List.not_mem_nil, or_false] at hx
      rcases hx with rfl | rfl
      · exact Nat.le_of_lt hrank
      · exact Nat.le_refl _
  refine ⟨fun m' ha hn => ?_, fun hz => ⟨h2 m [] hm, (hown 0).mpr hz.symm⟩⟩
  have hother : ∀ k, TypeWeight [r, r'] m' k ↔ k = r.weight := by
    intro k
    constructor
    · rintro (⟨x, hx, hx', hk, -⟩ | ⟨-, hn'⟩)
      · simp only [List.mem_cons, List.not_mem_nil, or_false] at hx
        rcases hx with rfl | rfl
        · exact hk.symm
        · exact absurd hx' hn
      · exact absurd ha (hn' r (by simp))
    · rintro rfl
      refine .inl ⟨r, by simp, ha, rfl, fun x hx hx' => ?_⟩
      simp only [List.mem_cons, List.not_mem_nil, or_false] at hx
      rcases hx with rfl | rfl
      · exact Nat.le_refl _
      · exact absurd hx' hn
  refine ⟨h2 m [m'] hm, ?_, by simp, r.weight, by omega, (hother _).mpr rfl, fun x hx k hk => ?_⟩
  · rintro ⟨-, k, -, hk, hmax⟩
    rw [(hown k).mp hk] at hmax
    have := hmax m' (by simp) _ ((hother _).mpr rfl)
    omega
  · simp only [List.mem_cons, List.not_mem_nil, or_false] at hx
    rcases hx with rfl | rfl
    · rw [(hown k).mp hk]; exact Nat.le_of_lt hlt
    · exact Nat.le_of_eq ((hother k).mp hk)

theorem token_text : Token s!!"text" := token_of_decide (by decide)
theorem token_html : Token s!!"html" := token_of_decide (by decide)

/-- `text/*, text/html;q=0.5` -/
def wideNarrow : List MediaRange := [⟨s!!"text", s!!"*", [], 1000⟩, ⟨s!!"text", s!!"html", [(s!!"q", s!!"0.5")], 500⟩]

example : Ranges [s!!"text/*, text/html;q=0.5"] wideNarrow ∧
    (⟨s!!"text", s!!"*", [], 1000⟩ : MediaRange).rank < (⟨s!!"text", s!!"html", [(s!!"q", s!!"0.5")], 500⟩ : MediaRange).rank ∧
    (∃ a, Accept.fromHeaders [(Accept.name, [s!!"text/*, text/html;q=0.5"])] = .ok (some a) ∧
      (a.negotiateMedia [Mime.const s!!"text" s!!"html" false, Mime.const s!!"text" s!!"plain" false]).2 =
        .ok (Mime.const s!!"text" s!!"html" false)) :=
  ⟨ranges_two (s := s!!"text/*") (s' := s!!"text/html;q=0.5") (media_bare token_text token_star)
      (range_weighted token_text token_html half (token_of_decide (by decide))) (by decide) (by decide) (by decide) (by decide),
    by decide,
    ⟨false, [⟨Mime.const s!!"text" s!!"*" false, some (thousandths 1000)⟩, ⟨Mime.const s!!"text" s!!"html" false, some (thousandths 500)⟩]⟩,
    by decide +kernel, by decide +kernel⟩

example : Ranges [s!!"text/*;q=0.5, text/html"] [⟨s!!"text", s!!"*", [(s!!"q", s!!"0.5")], 500⟩, ⟨s!!"text", s!!"html", [], 1000⟩] ∧
    RisingWeights [⟨s!!"text", s!!"*", [(s!!"q", s!!"0.5")], 500⟩, ⟨s!!"text", s!!"html", [], 1000⟩]
      [Mime.const s!!"text" s!!"plain" false, Mime.const s!!"text" s!!"html" false] := by
  refine ⟨ranges_two (s := s!!"text/*;q=0.5") (s' := s!!"text/html") (range_weighted token_text token_star half (token_of_decide (by decide)))
      (media_bare token_text token_html) (by decide) (by decide) (by decide) (by decide), ?_⟩
  intro m _ r hr r' hr' _ _ hle
  simp only [List.mem_cons, List.not_mem_nil, or_false] at hr hr'
  rcases hr with rfl | rfl <;> rcases hr' with rfl | rfl
  · exact Nat.le_refl _
  · decide
  · exact absurd hle (by decide)
  · exact Nat.le_refl _

/-- C102 is violated by `charset=utf-8` in a range: a type with another charset, or none, is chosen. -/
theorem C102_violated_charset (h : Headers) (hg : h.get Accept.name = some [s!!"text/html;charset=utf-8"]) :
    ∃ r, Ranges [s!!"text/html;charset=utf-8"] [r] ∧ ∃ a, Accept.fromHeaders h = .ok (some a) ∧
      ∀ m : Mime, m.basetype = s!!"text" → m.subtype = s!!"html" → m.param s!!"charset" ≠ some s!!"utf-8" →
        ¬ r.Applies m ∧ (a.negotiateMedia [m]).2 = .ok m := by
  have hp : MediaPref s!!"text/html;charset=utf-8" s!!"text" s!!"html" [(s!!"charset", s!!"utf-8")] 1000 := by
    refine .bare ⟨[], [], s!!";charset=utf-8", ?_, ?_, token_text, token_html,
      .cons (w1 := []) (n := s!!"charset") (raw := s!!"utf-8") (w2 := []) ?_ (token_of_decide (by decide))
        (.inl ⟨rfl, token_of_decide (by decide)⟩) ?_ .nil, rfl⟩ (by decide) <;> (intro c hc; cases hc)
  have hl : (listItems [s!!"text/html;charset=utf-8"]).filter (· ≠ []) = [s!!"text/html;charset=utf-8"] := by decide
  refine ⟨⟨s!!"text", s!!"html", [(s!!"charset", s!!"utf-8")], 1000⟩, by unfold Ranges; rw [hl]; exact .cons hp .nil, ?_⟩
  have hread : Accept.fromHeaders [(Accept.name, [s!!"text/html;charset=utf-8"])] =
      .ok (some ⟨false, [⟨Mime.const s!!"text" s!!"html" true, some (thousandths 1000)⟩]⟩) := by decide +kernel
  have hsame : Accept.fromHeaders h = Accept.fromHeaders [(Accept.name, [s!!"text/html;charset=utf-8"])] := by
    unfold Accept.fromHeaders AcceptList.fromHeaders
    rw [hg]; rfl
  refine ⟨_, hsame.trans hread, fun m h1 h2 h3 => ⟨?_, ?_⟩⟩
  · rintro ⟨-, -, h4⟩
    exact h3 (h4 s!!"charset" s!!"utf-8" (by decide))
  · have hc : m.subsetEq (Mime.const s!!"text" s!!"html" true) = true := by
      rw [C25_matches_iff]
      exact ⟨.inr h1, .inr h2, fun k v hk => by cases hk⟩
    show (match List.findSome? (fun p : Proposal Mime => List.find? (fun m => m.subsetEq p.item) [m])
      [(⟨Mime.const s!!"text" s!!"html" true, some (thousandths 1000)⟩ : Proposal Mime)] with
      | some m => Res.ok m
      | none => _) = _
    simp [hc]

end HT
