import Verif.Spec.Prefs
import Verif.Props.Weights
import Verif.Props.MimeEq
import Verif.Lemmas.Forwarded
import Verif.Props.AcceptTrip

/-!
C94: preference lists in the form of the standards are read with the meaning the standards give them.
-/

namespace HT

open Spec Mime

/-! ### weights -/

theorem gap_mul (c a b : Nat) : gap (a * c) (b * c) = gap a b * c := by
  unfold gap
  rw [Nat.add_mul, Nat.sub_mul, Nat.sub_mul]

theorem nearest_scale {p a b c m : Nat} (hc : 0 < c) (h : NearestUnits p (a * c) (b * c) m) : NearestUnits p a b m := by
  obtain ⟨h1, h2⟩ := h
  refine ⟨h1, fun y hy => ?_⟩
  obtain ⟨h3, h4⟩ := h2 y hy
  have e : ∀ z, gap (a * c) (b * c * z) = gap a (b * z) * c := fun z => by
    rw [Nat.mul_right_comm, gap_mul]
  rw [e, e] at h3 h4
  exact ⟨Nat.le_of_mul_le_mul_right h3 hc, fun hne he => h4 hne (by rw [he])⟩

theorem decValue_append_zeros (zs : Str) (h : ∀ c ∈ zs, c = '0') (s : Str) : decValue (s ++ zs) = decValue s * 10 ^ zs.length := by
  unfold decValue
  rw [List.foldl_append]
  generalize s.foldl (fun a c => a * 10 + (c.toNat - 48)) 0 = n
  induction zs generalizing n with
  | nil => simp
  | cons z zs ih =>
    have hz := h z List.mem_cons_self
    subst hz
    rw [List.foldl_cons, ih (fun c hc => h c (List.mem_cons_of_mem _ hc))]
    simp only [List.length_cons, Nat.pow_succ]
    have : '0'.toNat - 48 = 0 := by decide
    rw [this, Nat.add_zero, Nat.mul_assoc, Nat.mul_comm 10]

theorem digits_lt (ds : Str) (h : Digits ds) : decValue ds < 10 ^ ds.length := by
  have key : ∀ (ds : Str) (n : Nat), Digits ds →
      ds.foldl (fun a c => a * 10 + (c.toNat - 48)) n < (n + 1) * 10 ^ ds.length := by
    intro ds
    induction ds with
    | nil => intro n _; simp
    | cons d ds ih =>
      intro n hd
      have h1 := hd d List.mem_cons_self
      have h2 : d.toNat - 48 < 10 := by
        have := h1.2
        have h3 : d.toNat ≤ '9'.toNat := this
        have h4 : '9'.toNat = 57 := by decide
        omega
      refine Nat.lt_of_lt_of_le (ih _ fun c hc => hd c (List.mem_cons_of_mem _ hc)) ?_
      rw [List.length_cons, Nat.pow_succ, Nat.mul_comm (10 ^ ds.length) 10, ← Nat.mul_assoc]
      refine Nat.mul_le_mul_right _ ?_
      show n * 10 + (d.toNat - 48) + 1 ≤ (n + 1) * 10
      omega
  have := key ds 0 h
  unfold decValue
  omega

theorem qvalue_le {t : Str} {k : Nat} (h : QValue t k) : k ≤ 1000 := by
  cases h with
  | zero => omega
  | one => omega
  | zeroPoint hd hl =>
    rename_i ds
    have h1 := digits_lt ds hd
    have h2 : 10 ^ ds.length * 10 ^ (3 - ds.length) = 1000 := by
      rw [← Nat.pow_add, show ds.length + (3 - ds.length) = 3 by omega]
    rw [← h2]
    exact Nat.mul_le_mul_right _ (Nat.le_of_lt h1)
  | onePoint => omega

/-- A weight as a decimal fraction. -/
theorem qvalue_decimal {t : Str} {k : Nat} (h : QValue t k) : ∃ a b c, Decimal t a b ∧ 0 < c ∧ a * c = k ∧ b * c = 1000 := by
  have digits0 : ∀ {c : Char}, c = '0' → '0' ≤ c ∧ c ≤ '9' := by rintro _ rfl; decide
  have dz : Digits s!!"0" := by intro c hc; simp at hc; exact digits0 hc
  have d1 : Digits s!!"1" := by intro c hc; simp at hc; subst hc; decide
  cases h with
  | zero =>
    exact ⟨0, 1, 1000, ⟨s!!"0", [], [], [], 0, 0, rfl, dz, by simp [Digits], by simp, .inr ⟨rfl, rfl⟩, .none, by decide, by decide⟩,
      by omega, by omega, by omega⟩
  | one =>
    exact ⟨1, 1, 1000, ⟨s!!"1", [], [], [], 0, 0, rfl, d1, by simp [Digits], by simp, .inr ⟨rfl, rfl⟩, .none, by decide, by decide⟩,
      by omega, by omega, by omega⟩
  | zeroPoint hd hl =>
    rename_i ds
    refine ⟨decValue ds, 10 ^ ds.length, 10 ^ (3 - ds.length), ⟨s!!"0", s!!".", ds, [], 0, 0, by simp, dz, hd, by simp,
      .inl rfl, .none, ?_, by simp⟩, Nat.pow_pos (by omega), rfl, ?_⟩
    · simp [decValue]
    · rw [← Nat.pow_add, show ds.length + (3 - ds.length) = 3 by omega]
  | onePoint hz hl =>
    rename_i zs
    have hd : Digits zs := fun c hc => digits0 (hz c hc)
    refine ⟨10 ^ zs.length, 10 ^ zs.length, 10 ^ (3 - zs.length), ⟨s!!"1", s!!".", zs, [], 0, 0, by simp, d1, hd, by simp,
      .inl rfl, .none, ?_, by simp⟩, Nat.pow_pos (by omega), ?_, ?_⟩
    · rw [decValue_append_zeros zs hz]; simp [decValue]
    · rw [← Nat.pow_add, show zs.length + (3 - zs.length) = 3 by omega]
    · rw [← Nat.pow_add, show zs.length + (3 - zs.length) = 3 by omega]

theorem qvalue_number {t : Str} {k : Nat} (h : QValue t k) : NumberText f32Format t (thousandths k) ∧ UnitWeight (thousandths k) := by
  obtain ⟨m, h1, h2, h3⟩ := C41_thousandths k (qvalue_le h)
  obtain ⟨a, b, c, hd, hc, ha, hb⟩ := qvalue_decimal h
  refine ⟨⟨false, t, .inr ⟨rfl, .inr rfl⟩, .inl ⟨a, b, hd, m, ?_, .inl ⟨?_, h1⟩⟩⟩, m, h2, h1⟩
  · refine nearest_scale hc ?_
    rw [hb, show a * 2 ^ f32Format.unit * c = k * 2 ^ 149 by rw [Nat.mul_right_comm, ha]; rfl]
    exact h3
  · exact Nat.lt_of_le_of_lt h2 (by decide)

theorem qvalue_chars {t : Str} {k : Nat} (h : QValue t k) : ∀ c ∈ t, c = '.' ∨ ('0' ≤ c ∧ c ≤ '9') := by
  have e0 : ('0' ≤ '0' ∧ '0' ≤ '9') := by decide
  have e1 : ('0' ≤ '1' ∧ '1' ≤ '9') := by decide
  cases h with
  | zero => intro c hc; simp at hc; subst hc; exact .inr e0
  | one => intro c hc; simp at hc; subst hc; exact .inr e1
  | zeroPoint hd hl =>
    intro c hc
    simp only [List.mem_cons] at hc
    rcases hc with rfl | rfl | hc
    · exact .inr e0
    · exact .inl rfl
    · exact .inr (hd c hc)
  | onePoint hz hl =>
    intro c hc
    simp only [List.mem_cons] at hc
    rcases hc with rfl | rfl | hc
    · exact .inr e1
    · exact .inl rfl
    · exact .inr (hz c hc ▸ e0)

theorem qvalue_not_mem {t : Str} {k : Nat} (h : QValue t k) {c : Char} (hc : c ≠ '.' ∧ ¬ ('0' ≤ c ∧ c ≤ '9')) : c ∉ t :=
  fun hm => (qvalue_chars h c hm).elim hc.1 hc.2

/-- C94 (weights): every weight of the standard is read, as the float nearest to it. -/
theorem C94_weight {t : Str} {k : Nat} (h : QValue t k) (x : Fl) :
    WeightText (s!!"q=" ++ t) x ↔ k ≤ 1000 ∧ x = thousandths k := by
  obtain ⟨h1, h2⟩ := qvalue_number h
  have hs : split '=' (s!!"q=" ++ t) = [s!!"q", t] := by
    show split '=' (s!!"q" ++ '=' :: t) = _
    rw [split_append_sep (by decide), split_of_not_mem (qvalue_not_mem h (by decide))]
  constructor
  · rintro ⟨t', rest, h3, h4⟩
    rw [hs] at h3
    cases h3
    exact ⟨qvalue_le h, C40_number_unique _ (.inl rfl) _ _ _ h4 h1⟩
  · rintro ⟨-, rfl⟩
    exact ⟨t, [], hs, h1⟩

example : QValue s!!"0.5" 500 ∧ QValue s!!"0." 0 ∧ QValue s!!"1.00" 1000 :=
  ⟨.zeroPoint (ds := s!!"5") (by intro c hc; simp at hc; subst hc; decide) (by decide),
    .zeroPoint (ds := []) (by intro c hc; cases hc) (by decide), .onePoint (zs := s!!"00") (by decide) (by decide)⟩

/-! ### members -/

theorem ows_ws {a : Str} (h : Ows a) : ∀ c ∈ a, isWs c = true := by
  intro c hc
  rcases h c hc with rfl | rfl <;> decide

theorem ows_not_mem {a : Str} (h : Ows a) {c : Char} (h1 : c ≠ ' ') (h2 : c ≠ '\t') : c ∉ a :=
  fun hm => (h c hm).elim h1 h2

theorem tchar_not {c : Char} (h : TChar c) : isWs c = false ∧ c ≠ ';' ∧ c ≠ ',' ∧ c ≠ '=' := by
  refine ⟨token_not_ws h, ?_, ?_, ?_⟩
  all_goals
    rintro rfl
    exact Forwarded.sep_not_tchar _ (by decide) h

theorem token_trim {n a : Str} (hn : Token n) (ha : Ows a) : trim (n ++ a) = n := by
  rw [trim_append_ws' (ows_ws ha)]
  exact trim_of_trimmed (trimmed_of_forall fun c hc => (tchar_not (hn.2 c hc)).1)

/-- What a coding reader does on a name of the standard. -/
def Codes {α : Type} (coding : Str → Option α) (table : List (Str × α)) : Prop :=
  ∀ n a, Token n → Ows a →
    (coding (n ++ a) = none ∧ (table.filter fun r => r.1 = n) = []) ∨
      ∃ x, coding (n ++ a) = some x ∧ (table.filter fun r => r.1 = n) = [(n, x)]

theorem codes_content : Codes Encoding.fromStr contentCodings := by
  intro n a hn ha
  cases h : Encoding.fromStr (n ++ a) with
  | some e =>
    refine .inr ⟨e, rfl, ?_⟩
    rw [encoding_fromStr, token_trim hn ha] at h
    subst h
    cases e <;> decide
  | none =>
    refine .inl ⟨rfl, ?_⟩
    rw [List.filter_eq_nil_iff]
    intro r hr he
    have he : r.1 = n := by simpa using he
    have : ∀ r ∈ contentCodings, r.1 = r.2.display := by decide
    rw [(encoding_fromStr _ r.2).mpr (by rw [token_trim hn ha, ← he, this r hr])] at h
    cases h

theorem codes_transfer : Codes TEncoding.fromStr transferCodings := by
  intro n a hn ha
  cases h : TEncoding.fromStr (n ++ a) with
  | some e =>
    refine .inr ⟨e, rfl, ?_⟩
    rw [tencoding_fromStr, token_trim hn ha] at h
    subst h
    cases e <;> decide
  | none =>
    refine .inl ⟨rfl, ?_⟩
    rw [List.filter_eq_nil_iff]
    intro r hr he
    have he : r.1 = n := by simpa using he
    have : ∀ r ∈ transferCodings, r.1 = r.2.display := by decide
    rw [(tencoding_fromStr _ r.2).mpr (by rw [token_trim hn ha, ← he, this r hr])] at h
    cases h

/-- What a member is read as. -/
theorem pref_fromStr {α : Type} {coding : Str → Option α} {table : List (Str × α)} (hc : Codes coding table)
    {s n : Str} {k : Option Nat} {plain : Bool} (h : Pref s n k plain) :
    ((table.filter fun r => r.1 = n) = [] ∧ Proposal.fromStr coding s = .ok none) ∨
    ∃ x, (table.filter fun r => r.1 = n) = [(n, x)] ∧
      Proposal.fromStr coding s = if plain then .ok (some ⟨x, k.map thousandths⟩) else .err 400 := by
  have hnot : ∀ {n : Str}, Token n → ';' ∉ n := fun hn hm => (tchar_not (hn.2 _ hm)).2.1 rfl
  cases h with
  | bare hn =>
    obtain ⟨h1, h2⟩ := C40_reads_partial coding s s [] (split_of_not_mem (hnot hn))
    rcases hc s [] hn (by intro c hc; cases hc) with ⟨h3, h4⟩ | ⟨x, h3, h4⟩
    · rw [List.append_nil] at h3
      exact .inl ⟨h4, h1 h3⟩
    · rw [List.append_nil] at h3
      exact .inr ⟨x, h4, by rw [(h2 x h3).1 rfl]; rfl⟩
  | weighted hn ha hb hq hv =>
    rename_i a b c t k
    have hs : split ';' (n ++ (a ++ ';' :: (b ++ c :: '=' :: t))) = [n ++ a, b ++ c :: '=' :: t] := by
      rw [← List.append_assoc, split_append_sep, split_of_not_mem]
      · intro hm
        simp only [List.mem_append, List.mem_cons] at hm
        rcases hm with hm | rfl | hm | hm
        · exact ows_not_mem hb (by decide) (by decide) hm
        · revert hq; decide
        · revert hm; decide
        · exact qvalue_not_mem hv (by decide) hm
      · intro hm
        rcases List.mem_append.mp hm with hm | hm
        · exact hnot hn hm
        · exact ows_not_mem ha (by decide) (by decide) hm
    obtain ⟨h1, h2⟩ := C40_reads_partial coding _ _ _ hs
    rcases hc n a hn ha with ⟨h3, h4⟩ | ⟨x, h3, h4⟩
    · exact .inl ⟨h4, h1 h3⟩
    · refine .inr ⟨x, h4, ?_⟩
      obtain ⟨h5, -, h6⟩ := (h2 x h3).2 _ _ rfl
      by_cases hp : b = [] ∧ c = 'q'
      · obtain ⟨rfl, rfl⟩ := hp
        rw [h5 _ ((C94_weight hv _).mpr ⟨qvalue_le hv, rfl⟩) (qvalue_number hv).2]
        rfl
      · rw [h6]
        · have : (b == [] && c == 'q') = false := by
            rw [Bool.eq_false_iff]; intro h; simp at h; exact hp h
          rw [this]; rfl
        · rintro ⟨y, t', rest, h7, -⟩
          have : split '=' (b ++ c :: '=' :: t) = [b ++ [c], t] := by
            rw [show b ++ c :: '=' :: t = (b ++ [c]) ++ '=' :: t by simp, split_append_sep,
              split_of_not_mem (qvalue_not_mem hv (by decide))]
            intro hm
            rcases List.mem_append.mp hm with hm | hm
            · exact ows_not_mem hb (by decide) (by decide) hm
            · revert hm; rcases hq with rfl | rfl <;> decide
          rw [this] at h7
          have h8 : b ++ [c] = s!!"q" := by simpa using (List.cons.inj h7).1
          cases b with
          | nil => simp at h8; exact hp ⟨rfl, h8⟩
          | cons y ys => simp at h8

/-! ### whole headers -/

theorem loop_ok {α : Type} {parse : Str → Res (Option (Proposal α))} (g : Str → Option (Proposal α)) {parts : List Str}
    (h : ∀ t ∈ parts, Trimmed t ∧ (t ≠ [] → t ≠ s!!"*" → parse t = .ok (g t))) (acc : AcceptList α) :
    AcceptList.loop parse parts acc = .ok ⟨acc.wildcard || parts.contains s!!"*",
      acc.entries ++ (parts.filter fun t => t ≠ [] ∧ t ≠ s!!"*").flatMap fun t => (g t).toList⟩ := by
  induction parts generalizing acc with
  | nil => simp [AcceptList.loop]
  | cons t ts ih =>
    obtain ⟨h1, h2⟩ := h t List.mem_cons_self
    have ih := ih fun t ht => h t (List.mem_cons_of_mem _ ht)
    rw [AcceptList.loop]
    simp only [trim_of_trimmed h1]
    by_cases h3 : t = []
    · rw [if_pos h3, ih]
      subst h3
      simp
    · rw [if_neg h3]
      by_cases h4 : t = s!!"*"
      · rw [if_pos h4, ih]
        subst h4
        simp
      · rw [if_neg h4, h2 h3 h4, Res.bind]
        have h5 : ¬ (s!!"*" = t) := fun e => h4 e.symm
        cases hg : g t with
        | none => simp only [ih]; simp [h3, h4, hg, h5]
        | some p => simp only [ih]; simp [h3, h4, hg, h5]

theorem loop_err {α : Type} {parse : Str → Res (Option (Proposal α))} {parts : List Str}
    (h : ∀ t ∈ parts, Trimmed t ∧ (t ≠ [] → t ≠ s!!"*" → (parse t).Clean 400))
    (he : ∃ t ∈ parts, t ≠ [] ∧ t ≠ s!!"*" ∧ parse t = .err 400) (acc : AcceptList α) :
    AcceptList.loop parse parts acc = .err 400 := by
  induction parts generalizing acc with
  | nil => obtain ⟨t, ht, _⟩ := he; cases ht
  | cons t ts ih =>
    obtain ⟨h1, h2⟩ := h t List.mem_cons_self
    have ih := ih fun t ht => h t (List.mem_cons_of_mem _ ht)
    have rest : ¬ (t ≠ [] ∧ t ≠ s!!"*" ∧ parse t = .err 400) → ∀ acc, AcceptList.loop parse ts acc = .err 400 := by
      intro hn
      refine ih ?_
      obtain ⟨u, hu, hp⟩ := he
      rcases List.mem_cons.mp hu with rfl | hu
      · exact absurd hp hn
      · exact ⟨u, hu, hp⟩
    rw [AcceptList.loop]
    simp only [trim_of_trimmed h1]
    by_cases h3 : t = []
    · rw [if_pos h3, rest (fun h => h.1 h3)]
    · rw [if_neg h3]
      by_cases h4 : t = s!!"*"
      · rw [if_pos h4, rest (fun h => h.2.1 h4)]
      · rw [if_neg h4]
        rcases h2 h3 h4 with ⟨o, ho⟩ | ho
        · rw [ho, Res.bind]
          have := rest (fun h => by rw [ho] at h; cases h.2.2)
          cases o with
          | none => exact this _
          | some p => exact this _
        · rw [ho, Res.bind]

theorem forall₂_mem {α β : Type} {R : α → β → Prop} {l : List α} {m : List β} (h : List.Forall₂ R l m) :
    (∀ a ∈ l, ∃ b ∈ m, R a b) ∧ ∀ b ∈ m, ∃ a ∈ l, R a b := by
  induction h with
  | nil => exact ⟨by simp, by simp⟩
  | cons h _ ih =>
    refine ⟨fun a ha => ?_, fun b hb => ?_⟩
    · rcases List.mem_cons.mp ha with rfl | ha
      · exact ⟨_, by simp, h⟩
      · obtain ⟨b, hb, hr⟩ := ih.1 a ha; exact ⟨b, by simp [hb], hr⟩
    · rcases List.mem_cons.mp hb with rfl | hb
      · exact ⟨_, by simp, h⟩
      · obtain ⟨a, ha, hr⟩ := ih.2 b hb; exact ⟨a, by simp [ha], hr⟩

theorem pref_star {n : Str} {k : Option Nat} {plain : Bool} {s : Str} (h : Pref s n k plain) :
    s = s!!"*" ↔ n = s!!"*" ∧ k = none := by
  cases h with
  | bare hn => simp
  | weighted hn ha hb hq hv =>
    rename_i a b c t k
    simp only [reduceCtorEq, and_false, iff_false]
    intro he
    have := congrArg (List.contains · ';') he
    simp at this

theorem fromHeaders_members {α : Type} {coding : Str → Option α} {table : List (Str × α)} (hc : Codes coding table)
    (hstar : s!!"*" ∉ table.map (·.1)) {name : HeaderName} {h : Headers} {vs : List Str} {es : List Member}
    (hg : h.get name = some vs) (hm : Members vs es) :
    ((∀ e ∈ es, e.name ∈ table.map (·.1) → e.plain = true) →
      AcceptList.fromHeaders name (Proposal.fromStr coding) h =
        .ok (some ⟨es.any fun e => e.name == s!!"*" && e.weight == none, memberProposals table es⟩)) ∧
    ((∃ e ∈ es, e.name ∈ table.map (·.1) ∧ e.plain = false) →
      AcceptList.fromHeaders name (Proposal.fromStr coding) h = .err 400) := by
  have htr : ∀ t ∈ listItems vs, Trimmed t := fun t ht => (listItems_mem ht).2
  have hmem := forall₂_mem hm
  have hfil : ∀ t ∈ listItems vs, t ≠ [] → t ∈ (listItems vs).filter (· ≠ []) := by
    intro t ht hne; simp [ht, hne]
  have hname : ∀ {n : Str}, (table.filter fun r => r.1 = n) = [] ↔ n ∉ table.map (·.1) := by
    intro n
    rw [List.filter_eq_nil_iff]
    simp
    constructor
    · intro h x hx; exact h n x hx rfl
    · rintro h a b hab rfl; exact h b hab
  unfold AcceptList.fromHeaders
  rw [hg]
  simp only
  rw [loop_trim, trimmedParts_map]
  refine ⟨fun hp => ?_, fun ⟨e, he, hn, hpl⟩ => ?_⟩
  · have hparse : ∀ t ∈ listItems vs, t ≠ [] → ∃ o, Proposal.fromStr coding t = .ok o := by
      intro t ht hne
      obtain ⟨e, he, hpr⟩ := hmem.1 t (hfil t ht hne)
      rcases pref_fromStr hc hpr with ⟨-, h2⟩ | ⟨x, h1, h2⟩
      · exact ⟨_, h2⟩
      · rw [hp e he (by by_contra hn; rw [hname.mpr hn] at h1; cases h1)] at h2
        exact ⟨_, h2⟩
    let g (t : Str) : Option (Proposal α) := match Proposal.fromStr coding t with | .ok o => o | _ => none
    rw [loop_ok g (fun t ht => ⟨htr t ht, fun h1 _ => by
      obtain ⟨o, ho⟩ := hparse t ht h1
      simp only [g, ho]⟩)]
    simp only [Res.map, AcceptList.new, Bool.false_or, List.nil_append]
    congr 3
    · rw [Bool.eq_iff_iff]
      simp only [List.contains_iff_mem, List.any_eq_true, Bool.and_eq_true, beq_iff_eq]
      constructor
      · intro ht
        obtain ⟨e, he, hpr⟩ := hmem.1 _ (hfil _ ht (by decide))
        exact ⟨e, he, (pref_star hpr).mp rfl⟩
      · rintro ⟨e, he, h1⟩
        obtain ⟨t, ht, hpr⟩ := hmem.2 e he
        rw [← (pref_star hpr).mpr h1]
        exact (List.mem_filter.mp ht).1
    · have key : ∀ {l : List Str} {es : List Member}, List.Forall₂ (fun s e => Pref s e.name e.weight e.plain) l es →
          (∀ e ∈ es, e.name ∈ table.map (·.1) → e.plain = true) →
          ((l.filter fun t => t ≠ s!!"*").flatMap fun t => (g t).toList) = memberProposals table es := by
        intro l es hl
        induction hl with
        | nil => intro _; rfl
        | cons hpr _ ih =>
          rename_i t e l es _
          intro hp
          have ih := ih fun e he => hp e (List.mem_cons_of_mem _ he)
          have hcons : memberProposals table (e :: es) =
              ((table.filter fun r => r.1 = e.name).map fun r => ⟨r.2, e.weight.map thousandths⟩) ++ memberProposals table es := rfl
          rw [hcons, ← ih]
          by_cases ht : t = s!!"*"
          · rw [List.filter_cons_of_neg (by simp [ht]), hname.mpr (by rw [((pref_star hpr).mp ht).1]; exact hstar)]
            rfl
          · rw [List.filter_cons_of_pos (by simp [ht]), List.flatMap_cons]
            congr 1
            rcases pref_fromStr hc hpr with ⟨h1, h2⟩ | ⟨x, h1, h2⟩
            · simp only [g, h1, h2]; rfl
            · rw [hp e List.mem_cons_self (by by_contra hn; rw [hname.mpr hn] at h1; cases h1), if_pos rfl] at h2
              simp only [g, h1, h2]; rfl
      rw [← key hm hp, List.filter_filter]
      congr 2
      funext t
      rw [Bool.eq_iff_iff]
      simp [and_comm]
  · rw [loop_err]
    · rfl
    · intro t ht
      refine ⟨htr t ht, fun hne _ => ?_⟩
      obtain ⟨e, he, hpr⟩ := hmem.1 t (hfil t ht hne)
      rcases pref_fromStr hc hpr with ⟨-, h2⟩ | ⟨x, -, h2⟩
      · exact .inl ⟨_, h2⟩
      · rw [h2]
        split
        · exact .inl ⟨_, rfl⟩
        · exact .inr rfl
    · obtain ⟨t, ht, hpr⟩ := hmem.2 e he
      have ht := List.mem_filter.mp ht
      refine ⟨t, ht.1, by simpa using ht.2, fun hs => ?_, ?_⟩
      · rw [((pref_star hpr).mp hs).1] at hn; exact hstar hn
      · rcases pref_fromStr hc hpr with ⟨h1, -⟩ | ⟨x, -, h2⟩
        · exact absurd hn (hname.mp h1)
        · rw [h2, hpl]; rfl

/-- C94 (codings): from the members of `Accept-Encoding` and `TE` as the standards write them, those with a known name
give a proposal with the coding and the nearest float of the weight, in order, others nothing; `*` without weight sets
the wildcard. Missing: that holds if the known ones are plain; otherwise nothing is read, see `C94_violated_spelling`. -/
theorem C94_codings_partial (h : Headers) (vs : List Str) (es : List Member) (hm : Members vs es) :
    (h.get AcceptEncoding.name = some vs →
      ((∀ e ∈ es, e.name ∈ contentCodings.map (·.1) → e.plain = true) →
        AcceptEncoding.fromHeaders h =
          .ok (some ⟨es.any fun e => e.name == s!!"*" && e.weight == none, memberProposals contentCodings es⟩)) ∧
      ((∃ e ∈ es, e.name ∈ contentCodings.map (·.1) ∧ e.plain = false) → AcceptEncoding.fromHeaders h = .err 400)) ∧
    (h.get TE.name = some vs →
      ((∀ e ∈ es, e.name ∈ transferCodings.map (·.1) → e.plain = true) →
        TE.fromHeaders h =
          .ok (some ⟨es.any fun e => e.name == s!!"*" && e.weight == none, memberProposals transferCodings es⟩)) ∧
      ((∃ e ∈ es, e.name ∈ transferCodings.map (·.1) ∧ e.plain = false) → TE.fromHeaders h = .err 400)) :=
  ⟨fun hg => fromHeaders_members codes_content (by decide) hg hm,
    fun hg => fromHeaders_members codes_transfer (by decide) hg hm⟩

theorem token_of_decide {s : Str} (h : s ≠ [] ∧ ∀ c ∈ s, c.isAlphanum = true ∨ c ∈ s!!"!#$%&'*+-.^_`|~") : Token s := h

theorem ows_nil : Ows [] := by intro c hc; cases hc

theorem ows_space : Ows s!!" " := by intro c hc; simp at hc; exact .inl hc

theorem five : Digits s!!"5" := by intro c hc; simp at hc; subst hc; decide

example : Members [s!!"gzip;q=0.5, ,*", s!!"BR ;q=1, br"]
    [⟨s!!"gzip", some 500, true⟩, ⟨s!!"*", none, true⟩, ⟨s!!"BR", some 1000, true⟩, ⟨s!!"br", none, true⟩] := by
  have e : (listItems [s!!"gzip;q=0.5, ,*", s!!"BR ;q=1, br"]).filter (· ≠ []) =
      [s!!"gzip;q=0.5", s!!"*", s!!"BR ;q=1", s!!"br"] := by decide
  unfold Members
  rw [e]
  exact .cons (.weighted (n := s!!"gzip") (token_of_decide (by decide)) ows_nil ows_nil (.inl rfl) (.zeroPoint five (by decide)))
    (.cons (.bare (token_of_decide (by decide)))
      (.cons (.weighted (n := s!!"BR") (token_of_decide (by decide)) ows_space ows_nil (.inl rfl) .one)
        (.cons (.bare (token_of_decide (by decide))) .nil)))

theorem pref_text {s n : Str} {k : Option Nat} {plain : Bool} (h : Pref s n k plain) : ',' ∉ s ∧ Trimmed s ∧ s ≠ [] := by
  have hcomma : ∀ {n : Str}, Token n → ',' ∉ n := fun hn hm => (tchar_not (hn.2 _ hm)).2.2.1 rfl
  cases h with
  | bare hn => exact ⟨hcomma hn, trimmed_of_forall fun c hc => (tchar_not (hn.2 c hc)).1, hn.1⟩
  | weighted hn ha hb hq hv =>
    rename_i a b c t k
    have ht : t ≠ [] := by cases hv <;> simp
    refine ⟨?_, ⟨?_, ?_⟩, by simp [hn.1]⟩
    · intro hm
      simp only [List.mem_append, List.mem_cons] at hm
      rcases hm with hm | hm | hm | hm | rfl | hm | hm
      · exact hcomma hn hm
      · exact ows_not_mem ha (by decide) (by decide) hm
      · revert hm; decide
      · exact ows_not_mem hb (by decide) (by decide) hm
      · revert hq; decide
      · revert hm; decide
      · exact qvalue_not_mem hv (by decide) hm
    · intro x hx
      obtain ⟨y, ys, rfl⟩ := List.exists_cons_of_ne_nil hn.1
      simp only [List.cons_append, List.head?_cons, Option.some.injEq] at hx
      subst hx
      exact token_not_ws (hn.2 _ List.mem_cons_self)
    · intro x hx
      have e : n ++ (a ++ ';' :: (b ++ c :: '=' :: t)) = (n ++ (a ++ ';' :: (b ++ [c, '=']))) ++ t := by simp
      rw [e, List.getLast?_append_of_ne_nil _ ht] at hx
      rcases qvalue_chars hv x (List.mem_of_getLast? hx) with rfl | h
      · decide
      · have h1 : 48 ≤ x.toNat := h.1
        have h2 : x.toNat ≤ 57 := h.2
        unfold isWs
        simp
        omega

theorem members_one {s n : Str} {k : Option Nat} {plain : Bool} (h : Pref s n k plain) : Members [s] [⟨n, k, plain⟩] := by
  obtain ⟨h1, h2, h3⟩ := pref_text h
  unfold Members listItems
  rw [List.flatMap_cons, List.flatMap_nil, split_of_not_mem h1]
  simp only [List.map_cons, List.map_nil, trim_of_trimmed h2, List.append_nil]
  rw [List.filter_cons_of_pos (by simpa using h3), List.filter_nil]
  exact .cons h .nil

theorem contentCodings_token : ∀ r ∈ contentCodings, Token r.1 := by
  intro r hr
  exact token_of_decide ((by decide : ∀ r ∈ contentCodings, r.1 ≠ [] ∧
    ∀ c ∈ r.1, c.isAlphanum = true ∨ c ∈ s!!"!#$%&'*+-.^_`|~") r hr)

/-- Violated: a known coding whose weight is written with white space after the semicolon or with a capital `Q`, as the
standard allows, makes the whole header unreadable. -/
theorem C94_violated_spelling {b t : Str} {c : Char} {k : Nat} (r : Str × Encoding) (hr : r ∈ contentCodings)
    (hb : Ows b) (hq : c = 'q' ∨ c = 'Q') (hv : QValue t k) (hne : b ≠ [] ∨ c = 'Q') (h : Headers)
    (hg : h.get AcceptEncoding.name = some [r.1 ++ ';' :: (b ++ c :: '=' :: t)]) :
    AcceptEncoding.fromHeaders h = .err 400 := by
  refine ((C94_codings_partial h _ _ (members_one
    (.weighted (contentCodings_token r hr) ows_nil hb hq hv))).1 hg).2 ⟨_, List.mem_singleton.mpr rfl, List.mem_map_of_mem hr, ?_⟩
  rw [Bool.eq_false_iff]
  intro he
  simp only [Bool.and_eq_true, List.beq_nil_eq, List.isEmpty_iff, beq_iff_eq] at he
  rcases hne with h1 | h1
  · exact h1 he.1
  · rw [h1] at he; exact absurd he.2 (by decide)

example : AcceptEncoding.fromHeaders [(s!!"accept-encoding", [s!!"gzip; q=0.5"])] = .err 400 := by decide +kernel

/-- Violated: the names of codings are the same up to the case of letters, but another case is not recognised. -/
theorem C94_violated_case (n : Str) (hn : Token n) (r : Str × Encoding) (hr : r ∈ contentCodings) (hs : sameName n r.1 = true)
    (hne : n ≠ r.1) (h : Headers) (hg : h.get AcceptEncoding.name = some [n]) :
    AcceptEncoding.fromHeaders h = .ok (some ⟨false, []⟩) := by
  have hout : ∀ r' ∈ contentCodings, r'.1 ≠ n := by
    rintro r' hr' rfl
    have : ∀ r' ∈ contentCodings, ∀ r ∈ contentCodings, sameName r'.1 r.1 = true → r'.1 = r.1 := by decide
    exact hne (this r' hr' r hr hs)
  have hstar : n ≠ s!!"*" := by
    rintro rfl
    have : ∀ r ∈ contentCodings, sameName s!!"*" r.1 = false := by decide
    rw [this r hr] at hs; cases hs
  rw [((C94_codings_partial h _ _ (members_one (.bare hn))).1 hg).1 (by simp)]
  have : (contentCodings.filter fun r => r.1 = n) = [] := by
    rw [List.filter_eq_nil_iff]; intro r' hr' he; exact hout r' hr' (by simpa using he)
  simp [memberProposals, this, hstar]

example : AcceptEncoding.fromHeaders [(s!!"accept-encoding", [s!!"GZIP"])] = .ok (some ⟨false, []⟩) := by decide +kernel

/-- Violated: a wildcard with a weight is dropped. -/
theorem C94_violated_star {t : Str} {k : Nat} (hv : QValue t k) (h : Headers)
    (hg : h.get AcceptEncoding.name = some [s!!"*;q=" ++ t]) :
    AcceptEncoding.fromHeaders h = .ok (some ⟨false, []⟩) := by
  rw [((C94_codings_partial h _ _ (members_one
    (.weighted (n := s!!"*") (token_of_decide (by decide)) ows_nil ows_nil (.inl rfl) hv))).1 hg).1 (by simp)]
  rfl

example : AcceptEncoding.fromHeaders [(s!!"accept-encoding", [s!!"*;q=0.5"])] = .ok (some ⟨false, []⟩) := by decide +kernel

/-! ### media ranges -/

theorem firstOf_filter (p : Str → Bool) (ps : List (Str × Str)) :
    firstOf (ps.filter fun e => p e.1) = (firstOf ps).filter fun e => p e.1 := by
  induction ps with
  | nil => rfl
  | cons e ps ih =>
    by_cases h : p e.1 = true
    · have hf : ∀ l : List (Str × Str), (e :: l).filter (fun e => p e.1) = e :: l.filter fun e => p e.1 :=
        fun l => List.filter_cons_of_pos (p := fun e : Str × Str => p e.1) h
      rw [hf, firstOf, firstOf, ih, hf, List.filter_filter, List.filter_filter]
      congr 2
      funext x; rw [Bool.and_comm]
    · have hf : ∀ l : List (Str × Str), (e :: l).filter (fun e => p e.1) = l.filter fun e => p e.1 :=
        fun l => List.filter_cons_of_neg (p := fun e : Str × Str => p e.1) h
      rw [hf, firstOf, ih, hf, List.filter_filter]
      refine List.filter_congr fun x _ => ?_
      rw [Bool.eq_iff_iff]
      simp only [ne_eq, decide_not, Bool.and_eq_true, Bool.not_eq_true', decide_eq_false_iff_not]
      exact ⟨fun hx => ⟨hx, fun he => h (he ▸ hx)⟩, fun hx => hx.1⟩

theorem eraseP_nodup {ps : List (Str × Str)} (h : (ps.map (·.1)).Nodup) (n : Str) :
    (ps.eraseP fun e => e.1 == n) = ps.filter fun e => !(e.1 == n) := by
  induction ps with
  | nil => rfl
  | cons e ps ih =>
    rw [List.map_cons, List.nodup_cons] at h
    by_cases he : e.1 = n
    · rw [List.eraseP_cons_of_pos (by simpa using he), List.filter_cons_of_neg (by simpa using he), List.filter_eq_self.mpr]
      intro x hx
      simp only [Bool.not_eq_true', beq_eq_false_iff_ne]
      rintro e'
      exact h.1 (List.mem_map.mpr ⟨x, hx, by rw [e', he]⟩)
    · rw [List.eraseP_cons_of_neg (by simpa using he), List.filter_cons_of_pos (by simpa using he), ih h.2]

theorem lower_q {n : Str} (h : Token n) : sameName n s!!"q" = true ↔ lower n = s!!"q" :=
  sameName_low (token_ascii h) (by decide)

theorem remove_q {base sub s : Str} {ps : List (Str × Str)} (h : MediaText s base sub ps) {m : Mime} (hm : Mime.parse s = .ok m) :
    (m.removeParam s!!"q").1 = firstValue ps s!!"q" ∧
      ∀ s', MediaText s' base sub (ps.filter fun e => !sameName e.1 s!!"q") → Mime.parse s' = .ok (m.removeParam s!!"q").2 := by
  have hwf := C23_wf hm
  rw [C24_parse_text h] at hm
  have hl : ∀ e ∈ ps, Token e.1 := by
    obtain ⟨w1, w2, pt, -, -, -, -, hp, -⟩ := h
    exact fun e he => (paramsText_legal hp e he).1
  have hm := (Res.ok.inj hm).symm
  set L := (ps.map fun e => (lower e.1, e.2)).filter fun e => e ≠ (s!!"charset", s!!"utf-8") with hL
  have hpar : m.params = firstOf L := by rw [hm]
  have hfind : m.params.find? (fun e => e.1 == s!!"q") = (ps.find? fun e => sameName e.1 s!!"q").map fun e => (lower e.1, e.2) := by
    rw [hpar, find?_firstOf, hL, List.find?_filter, List.find?_map]
    congr 1
    refine find?_congr_mem fun e he => ?_
    rw [Bool.eq_iff_iff]
    simp only [Function.comp_apply, ne_eq, decide_not, Bool.and_eq_true, Bool.not_eq_true', decide_eq_false_iff_not,
      beq_iff_eq, Prod.mk.injEq, lower_q (hl e he), decide_eq_true_eq]
    constructor
    · exact fun hx => hx.2
    · intro hx
      refine ⟨?_, hx⟩
      rintro ⟨h1, -⟩
      rw [h1] at hx
      cases hx
  have hfilter : (m.params.filter fun e => !(e.1 == s!!"q")) =
      firstOf (((ps.filter fun e => !sameName e.1 s!!"q").map fun e => (lower e.1, e.2)).filter
        fun e => e ≠ (s!!"charset", s!!"utf-8")) := by
    rw [hpar, ← firstOf_filter (fun n => !(n == s!!"q")), hL, List.filter_filter]
    congr 1
    rw [List.filter_map, List.filter_map, List.filter_filter]
    congr 1
    refine List.filter_congr fun e he => ?_
    rw [Bool.eq_iff_iff]
    simp only [Function.comp_apply, ne_eq, decide_not, Bool.and_eq_true, Bool.not_eq_true', decide_eq_false_iff_not,
      beq_eq_false_iff_ne]
    rw [Bool.eq_false_iff, ne_eq, lower_q (hl e he), and_comm]
  have hutf : hasUtf8 (ps.filter fun e => !sameName e.1 s!!"q") = hasUtf8 ps := by
    unfold hasUtf8
    rw [List.any_filter]
    rw [Bool.eq_iff_iff]
    simp only [List.any_eq_true, Bool.and_eq_true, Bool.not_eq_true', beq_iff_eq]
    constructor
    · rintro ⟨e, he, -, h2⟩; exact ⟨e, he, h2⟩
    · rintro ⟨e, he, h1, h2⟩
      refine ⟨e, he, ?_, h1, h2⟩
      rw [Bool.eq_false_iff, ne_eq, lower_q (hl e he)]
      intro hq
      rw [sameName_low (token_ascii (hl e he)) (by decide), hq] at h1
      cases h1
  have hrem : m.removeParam s!!"q" =
      (firstValue ps s!!"q", { m with params := m.params.filter fun e => !(e.1 == s!!"q") }) := by
    unfold Mime.removeParam firstValue
    rw [if_neg (by rintro ⟨h1, -⟩; cases h1), hfind]
    cases hf : ps.find? fun e => sameName e.1 s!!"q" with
    | none =>
      simp only [Option.map_none]
      rw [List.filter_eq_self.mpr]
      intro e he
      have h0 := hfind
      rw [hf, Option.map_none, List.find?_eq_none] at h0
      simpa using h0 e he
    | some e =>
      simp only [Option.map_some]
      rw [eraseP_nodup hwf.nodup]
  refine ⟨by rw [hrem], fun s' hs' => ?_⟩
  rw [C24_parse_text hs', hrem, hutf]
  simp only
  rw [hfilter, hm]

/-- C94 (media ranges): a member of Accept is read with its weight, 1 if it has none, and the media range without the
weight, however it is spaced and spelled. -/
theorem C94_range {s base sub : Str} {ps : List (Str × Str)} {k : Nat} (h : MediaPref s base sub ps k) :
    ∃ p, Accept.parse s = .ok (some p) ∧ p.weight = some (thousandths k) ∧
      ∀ s', MediaText s' base sub (ps.filter fun e => !sameName e.1 s!!"q") → Mime.parse s' = .ok p.item := by
  have key : ∀ {x : Fl}, MediaText s base sub ps → UnitWeight x →
      (match firstValue ps s!!"q" with | none => x = .fin false (2 ^ 149) | some t => NumberText f32Format t x) →
      ∃ p, Accept.parse s = .ok (some p) ∧ p.weight = some x ∧
        ∀ s', MediaText s' base sub (ps.filter fun e => !sameName e.1 s!!"q") → Mime.parse s' = .ok p.item := by
    intro x hm hu hx
    have hp := C24_parse_text hm
    obtain ⟨h1, h2⟩ := remove_q hm hp
    refine ⟨⟨_, some x⟩, ?_, rfl, h2⟩
    unfold Accept.parse
    rw [(C40_media s ⟨_, some x⟩).mpr ⟨_, hp, rfl, x, rfl, hu, by rw [h1]; exact hx⟩]
    rfl
  cases h with
  | bare hm hq => exact key hm ⟨2 ^ 149, Nat.le_refl _, thousandths_one⟩ (by rw [hq]; exact thousandths_one)
  | weighted hm hq hv =>
    obtain ⟨h1, h2⟩ := qvalue_number hv
    exact key hm h2 (by rw [hq]; exact h1)

example : ∃ p, Accept.parse s!!"Text/* ; charset=utf-8; Q=0.5" = .ok (some p) ∧ p.weight = some (.fin false (2 ^ 148)) ∧
    Mime.parse s!!"text/*;charset=utf-8" = .ok p.item :=
  ⟨⟨⟨s!!"text/*", s!!"text", s!!"*", true, []⟩, some (.fin false (2 ^ 148))⟩, by decide +kernel, rfl, by decide +kernel⟩

/-- C94 (Accept): a list of media ranges, with or without weight, is read member by member; `*` by itself sets the
wildcard. Missing: commas inside quoted parameters, which no member has here. -/
theorem C94_accept_partial (h : Headers) (vs : List Str) (hg : h.get Accept.name = some vs)
    (hm : ∀ s ∈ listItems vs, s = [] ∨ s = s!!"*" ∨ ∃ base sub ps k, MediaPref s base sub ps k) :
    ∃ a, Accept.fromHeaders h = .ok (some a) ∧ (a.wildcard = true ↔ s!!"*" ∈ listItems vs) ∧
      List.Forall₂ (fun s (p : Proposal Mime) => ∀ base sub ps k, MediaPref s base sub ps k → p.weight = some (thousandths k) ∧
          ∀ s', MediaText s' base sub (ps.filter fun e => !sameName e.1 s!!"q") → Mime.parse s' = .ok p.item)
        ((listItems vs).filter fun s => s ≠ [] ∧ s ≠ s!!"*") a.entries := by
  let g (t : Str) : Option (Proposal Mime) := match Accept.parse t with | .ok o => o | _ => none
  have hgp : ∀ {t : Str} {base sub ps k}, MediaPref t base sub ps k → ∃ p, g t = some p ∧ Accept.parse t = .ok (some p) ∧
      p.weight = some (thousandths k) ∧
      ∀ s', MediaText s' base sub (ps.filter fun e => !sameName e.1 s!!"q") → Mime.parse s' = .ok p.item := by
    intro t base sub ps k hp
    obtain ⟨p, h1, h2, h3⟩ := C94_range hp
    exact ⟨p, by simp only [g, h1], h1, h2, h3⟩
  refine ⟨⟨(listItems vs).contains s!!"*", ((listItems vs).filter fun t => t ≠ [] ∧ t ≠ s!!"*").flatMap fun t => (g t).toList⟩,
    ?_, by simp, ?_⟩
  · unfold Accept.fromHeaders AcceptList.fromHeaders
    rw [hg]
    simp only
    rw [loop_trim, trimmedParts_map, loop_ok g]
    · simp [Res.map, AcceptList.new]
    · intro t ht
      refine ⟨(listItems_mem ht).2, fun h1 h2 => ?_⟩
      rcases hm t ht with h3 | h3 | ⟨base, sub, ps, k, h3⟩
      · exact absurd h3 h1
      · exact absurd h3 h2
      · obtain ⟨p, h4, h5, -⟩ := hgp h3
        rw [h4, h5]
  · have hall : ∀ t ∈ (listItems vs).filter (fun s => s ≠ [] ∧ s ≠ s!!"*"), ∃ base sub ps k, MediaPref t base sub ps k := by
      intro t ht
      have := List.mem_filter.mp ht
      simp only [ne_eq, decide_eq_true_eq] at this
      rcases hm t this.1 with h3 | h3 | h3
      · exact absurd h3 this.2.1
      · exact absurd h3 this.2.2
      · exact h3
    generalize (listItems vs).filter (fun s => decide (s ≠ [] ∧ s ≠ s!!"*")) = l at hall
    induction l with
    | nil => exact .nil
    | cons t l ih =>
      obtain ⟨base, sub, ps, k, h3⟩ := hall t List.mem_cons_self
      obtain ⟨p, h4, h5, -⟩ := hgp h3
      rw [List.flatMap_cons, h4]
      refine .cons (fun base sub ps k hp => ?_) (ih fun t ht => hall t (List.mem_cons_of_mem _ ht))
      obtain ⟨q, h6, -, h7⟩ := hgp hp
      rw [h4] at h6
      cases h6
      exact h7

example : MediaPref s!!"a/b;q=0" s!!"a" s!!"b" [(s!!"q", s!!"0")] 0 ∧
    MediaPref s!!"*/*" s!!"*" s!!"*" [] 1000 := by
  have tok : ∀ s ∈ [s!!"a", s!!"b", s!!"q", s!!"0", s!!"*"], Token s := fun s hs =>
    token_of_decide ((by decide : ∀ s ∈ [s!!"a", s!!"b", s!!"q", s!!"0", s!!"*"], s ≠ [] ∧
      ∀ c ∈ s, c.isAlphanum = true ∨ c ∈ s!!"!#$%&'*+-.^_`|~") s hs)
  have nil : HttpWs [] := by intro c hc; cases hc
  refine ⟨.weighted ⟨[], [], s!!";q=0", nil, nil, tok _ (by simp), tok _ (by simp),
      .cons (w1 := []) (n := s!!"q") (raw := s!!"0") (w2 := []) nil (tok _ (by simp)) (.inl ⟨rfl, tok _ (by simp)⟩) nil .nil, rfl⟩ (by decide) .zero,
    .bare ⟨[], [], [], nil, nil, tok _ (by simp), tok _ (by simp), .nil, rfl⟩ rfl⟩

end HT
