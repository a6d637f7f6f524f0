import Verif.Spec.WrittenChain
import Verif.Props.WrittenTimings
import Verif.Props.Chain

/-!
C112: what Forwarded writes is read by others as what was put in.
-/

namespace HT
open Spec

/-! ### a value from left to right -/

/-- What is left of a value, before a pair (`true`) or after one, and the pairs in it. -/
inductive Left : Bool → Str → List (Str × Str) → Prop where
  | done {w} : Ows w → Left false w []
  | semi {s ps} : Left true s ps → Left false (';' :: s) ps
  | comma {w w' s ps} : Ows w → Ows w' → Left true s ps → Left false (w ++ ',' :: (w' ++ s)) ps
  | none {s ps} : Left false s ps → Left true s ps
  | pair {n raw v s ps} : Token n → ValueText raw v → Left false s ps → Left true (n ++ '=' :: (raw ++ s)) ((n, v) :: ps)

theorem left_head {s : Str} {ps : List (Str × Str)} (h : Left false s ps) : NoTchar s := by
  generalize hb : false = b at h
  cases h with
  | @done w hw =>
    have := ows_noTchar hw (r := []) (fun c hc => by cases hc)
    rwa [List.append_nil] at this
  | semi => exact cons_noTchar (by decide) _
  | comma hw => exact ows_noTchar hw (cons_noTchar (by decide) _)
  | none => cases hb
  | pair => cases hb

/-- Blanks do not count. -/
theorem left_skip {b : Bool} {w s : Str} {ps : List (Str × Str)} (hw : Ows w) (h : Left b (w ++ s) ps) : Left b s ps := by
  have after : ∀ {c : Char} {s : Str}, (c = ' ' ∨ c = '\t') → Left false (c :: s) ps → Left false s ps := by
    intro c s hc h
    generalize hr : c :: s = r at h
    generalize hb : false = b at h
    cases h with
    | @done w hw =>
      subst hr
      exact .done fun x hx => hw x (List.mem_cons_of_mem _ hx)
    | semi => cases hr; exact absurd hc (by decide)
    | @comma w w' s' _ h1 h2 h3 =>
      cases w with
      | nil => cases hr; exact absurd hc (by decide)
      | cons x w =>
        cases hr
        exact .comma (fun x hx => h1 x (List.mem_cons_of_mem _ hx)) h2 h3
    | none => cases hb
    | pair => cases hb
  induction w with
  | nil => exact h
  | cons c w ih =>
    have hc := hw c List.mem_cons_self
    refine ih (fun x hx => hw x (List.mem_cons_of_mem _ hx)) ?_
    cases b with
    | false => exact after hc h
    | true =>
      rw [List.cons_append] at h
      generalize hr : c :: (w ++ s) = r at h
      generalize hb : true = b at h
      cases h with
      | done => cases hb
      | semi => cases hb
      | comma => cases hb
      | none h => exact .none (after hc (by rw [hr]; exact h))
      | @pair n raw v s' ps' hn =>
        exfalso
        have := noLead_of_token (r := '=' :: (raw ++ s')) hn c (by rw [← hr]; rfl)
        rcases hc with h | h
        · exact this.1 h
        · exact this.2 h

/-- A pair that has started is there. -/
theorem left_pair {n x : Str} {ps : List (Str × Str)} (hn : Token n) (h : Left true (n ++ '=' :: x) ps) :
    ∃ raw v s ps', x = raw ++ s ∧ ValueText raw v ∧ Left false s ps' ∧ ps = (n, v) :: ps' := by
  generalize hr : n ++ '=' :: x = r at h
  generalize hb : true = b at h
  cases h with
  | done => cases hb
  | semi => cases hb
  | comma => cases hb
  | none h =>
    exfalso
    obtain ⟨h1, h2⟩ := hn
    cases n with
    | nil => exact h1 rfl
    | cons c n => exact left_head h c (by rw [← hr]; rfl) (h2 c List.mem_cons_self)
  | @pair n' raw v s ps' hn' hv hs =>
    obtain ⟨rfl, e⟩ := token_cut hn hn' (cons_noTchar (by decide) _) (cons_noTchar (by decide) _) hr
    exact ⟨raw, v, s, ps', (List.cons.inj e).2, hv, hs, rfl⟩

theorem left_one (k : Nat) : ∀ {b : Bool} {s : Str} {ps ps' : List (Str × Str)}, 2 * s.length + b.toNat < k → Left b s ps → Left b s ps' →
    ps = ps' := by
  induction k with
  | zero => intro _ _ _ _ h; omega
  | succ k ih =>
    intro b s ps ps' hk h h'
    cases h with
    | done hw =>
      generalize hr : s = r at h'
      generalize hb : false = b at h'
      cases h' with
      | done => rfl
      | semi => subst hr; exact absurd (hw ';' List.mem_cons_self) (by decide)
      | comma => subst hr; exact absurd (hw ',' (by simp)) (by decide)
      | none => cases hb
      | pair => cases hb
    | @semi s _ hs =>
      generalize hr : ';' :: s = r at h'
      generalize hb : false = b at h'
      cases h' with
      | done hw => subst hr; exact absurd (hw ';' List.mem_cons_self) (by decide)
      | @semi s' _ hs' =>
        cases hr
        exact ih (by simp at hk ⊢; omega) hs hs'
      | @comma w _ _ _ hw =>
        exfalso
        cases w with
        | nil => exact absurd (List.cons.inj hr).1 (by decide)
        | cons x w => cases hr; exact absurd (hw ';' List.mem_cons_self) (by decide)
      | none => cases hb
      | pair => cases hb
    | @comma w w1 s _ hw hw1 hs =>
      generalize hr : w ++ ',' :: (w1 ++ s) = r at h'
      generalize hb : false = b at h'
      cases h' with
      | done hw => subst hr; exact absurd (hw ',' (by simp)) (by decide)
      | @semi s' _ hs' =>
        exfalso
        cases w with
        | nil => exact absurd (List.cons.inj hr).1 (by decide)
        | cons x w => cases hr; exact absurd (hw ';' List.mem_cons_self) (by decide)
      | @comma w' w1' s' _ hw' hw1' hs' =>
        obtain ⟨-, e⟩ := cut_inj (c := ',') (ows_not_mem hw (by decide) (by decide)) (ows_not_mem hw' (by decide) (by decide)) hr
        rcases List.append_eq_append_iff.mp e with ⟨u, rfl, rfl⟩ | ⟨u, rfl, rfl⟩
        · refine ih ?_ (left_skip (fun c hc => hw1' c (by simp [hc])) hs) hs'
          simp at hk ⊢
          omega
        · refine ih ?_ hs (left_skip (fun c hc => hw1 c (by simp [hc])) hs')
          simp at hk ⊢
          omega
      | none => cases hb
      | pair => cases hb
    | none hs =>
      generalize hr : s = r at h'
      generalize hb : true = b at h'
      cases h' with
      | done => cases hb
      | semi => cases hb
      | comma => cases hb
      | none hs' => subst hr; exact ih (by simp at hk ⊢; omega) hs hs'
      | @pair n _ _ _ _ hn =>
        exfalso
        obtain ⟨h1, h2⟩ := hn
        cases n with
        | nil => exact h1 rfl
        | cons c n => exact left_head hs c (by rw [hr]; rfl) (h2 c List.mem_cons_self)
    | @pair n raw v s ps hn hv hs =>
      obtain ⟨raw', v', s', ps', e, hv', hs', rfl⟩ := left_pair hn h'
      obtain ⟨rfl, rfl, rfl⟩ := value_cut hv hv' (left_head hs) (left_head hs') e
      rw [ih ?_ hs hs']
      simp at hk ⊢
      omega

/-! ### the grammar of the standard -/

theorem left_pairs {ps : List (Option FwdPair)} {T : Str} {qs : List (Str × Str)} (hn : ps ≠ [])
    (hp : ∀ p, some p ∈ ps → Token p.name ∧ ValueText p.raw p.value) (hT : Left false T qs) :
    Left true (fwdPairsText ps ++ T) ((ps.filterMap id).map (fun p => (p.name, p.value)) ++ qs) := by
  induction ps with
  | nil => exact absurd rfl hn
  | cons p ps ih =>
    have one : ∀ {T qs}, Left false T qs →
        Left true (fwdPairText p ++ T) (([p].filterMap id).map (fun p => (p.name, p.value)) ++ qs) := by
      intro T qs hT
      cases p with
      | none => exact .none hT
      | some p =>
        obtain ⟨h1, h2⟩ := hp p List.mem_cons_self
        have := Left.pair h1 h2 hT
        simpa [fwdPairText] using this
    cases ps with
    | nil =>
      have := one hT
      simpa [fwdPairsText, join] using this
    | cons q ps =>
      have := one (.semi (ih (by simp) fun p hp' => hp p (List.mem_cons_of_mem _ hp')))
      cases p <;> simpa [fwdPairsText, join] using this

theorem left_chain {es : List FwdElement} (h : LegalChain es) : ∃ w s, Ows w ∧ chainText es = w ++ s ∧ Left true s (chainPairs es) := by
  obtain ⟨h1, h2⟩ := h
  induction es with
  | nil => exact absurd rfl h1
  | cons e es ih =>
    obtain ⟨a1, a2, a3, a4, -⟩ := h2 e List.mem_cons_self
    have hT : ∃ T, Left false (e.after ++ T) (chainPairs es) ∧ chainText (e :: es) = e.before ++ (fwdPairsText e.pairs ++ (e.after ++ T)) := by
      cases es with
      | nil => exact ⟨[], .done (by rw [List.append_nil]; exact a2), by simp [chainText, join]⟩
      | cons e' es =>
        obtain ⟨w, s, g1, g2, g3⟩ := ih (by simp) fun e he => h2 e (List.mem_cons_of_mem _ he)
        refine ⟨',' :: (w ++ s), .comma a2 g1 g3, ?_⟩
        rw [← g2]
        simp [chainText, join]
    obtain ⟨T, b1, b2⟩ := hT
    refine ⟨e.before, _, a1, b2, ?_⟩
    have := left_pairs a3 a4 b1
    simpa [chainPairs, FwdElement.given] using this

theorem chain_one {es es' : List FwdElement} (h : LegalChain es) (h' : LegalChain es') (he : chainText es = chainText es') :
    chainPairs es = chainPairs es' := by
  obtain ⟨w, s, h1, h2, h3⟩ := left_chain h
  obtain ⟨w', s', h1', h2', h3'⟩ := left_chain h'
  rw [h2, h2'] at he
  rcases List.append_eq_append_iff.mp he with ⟨u, rfl, rfl⟩ | ⟨u, rfl, rfl⟩
  · exact left_one _ (Nat.lt_succ_self _) (left_skip (fun c hc => h1' c (by simp [hc])) h3) h3'
  · exact left_one _ (Nat.lt_succ_self _) h3 (left_skip (fun c hc => h1 c (by simp [hc])) h3')

/-! ### values -/

theorem quoteBody_escaped (v : Str) : Escaped (Forwarded.quoteBody v) v := by
  induction v with
  | nil => exact .nil
  | cons c v ih =>
    unfold Forwarded.quoteBody at *
    rw [List.flatMap_cons]
    by_cases hc : c = '\\' ∨ c = '"'
    · rw [if_pos hc]
      exact .pair ih
    · rw [if_neg hc]
      exact .plain (fun h => hc (.inr h)) (fun h => hc (.inl h)) ih

theorem format_value {v : Str} (h1 : v ≠ []) (h2 : ∀ c ∈ v, QuotedChar c) : ValueText (Forwarded.formatValue v) v := by
  classical
  rw [Forwarded.formatValue_eq]
  by_cases ht : Token v
  · rw [if_pos (.inl ht)]
    exact .inl ⟨rfl, ht⟩
  · rw [if_neg (by rintro (h | h); exact ht h; exact h1 h)]
    exact .inr ⟨_, rfl, quoteBody_escaped v, h2⟩

/-- Nothing, a comma or a semicolon next. -/
def Cut (z : Str) : Prop := ∀ c, z.head? = some c → c = ',' ∨ c = ';'

theorem cut_noTchar {z : Str} (h : Cut z) : NoTchar z :=
  noTchar_of fun c hc => by rcases h c hc with rfl | rfl <;> decide

/-- What a written `for` value is read as. -/
theorem format_read {raw v s z : Str} (hz : Cut z) (hv : ValueText raw v) (he : raw ++ s = Forwarded.formatValue v ++ z) :
    (v ≠ [] ∧ ∀ c ∈ v, QuotedChar c) ∧ s = z := by
  classical
  have hq := valueText_quoted hv
  rw [Forwarded.formatValue_eq] at he
  by_cases ht : Token v
  · rw [if_pos (.inl ht)] at he
    rcases hv with ⟨rfl, -⟩ | ⟨e, rfl, -, -⟩
    · exact ⟨⟨ht.1, hq⟩, List.append_cancel_left he⟩
    · exfalso
      cases v with
      | nil => exact ht.1 rfl
      | cons c v =>
        cases (List.cons.inj he).1
        exact Mime.token_not_mem ht (c := '"') (by decide) List.mem_cons_self
  · rcases hv with ⟨rfl, h⟩ | ⟨e, rfl, h, -⟩
    · exact absurd h ht
    · by_cases h0 : v = []
      · subst h0
        rw [if_pos (.inr rfl)] at he
        exact absurd (hz '"' (by rw [← show _ = z from he]; rfl)) (by decide)
      · rw [if_neg (by rintro (h | h); exact ht h; exact h0 h)] at he
        have he' : e ++ '"' :: s = Forwarded.quoteBody v ++ '"' :: z := by simpa using he
        exact ⟨⟨h0, hq⟩, (Forwarded.escaped_unique h (quoteBody_escaped v) he').2.2⟩

theorem escaped_shift {e v : Str} (h : Escaped e v) : ∀ {p r x : Str}, p ≠ [] → ';' ∉ p → p ++ (e ++ '"' :: r) ≠ v ++ ';' :: x := by
  induction h with
  | nil =>
    intro p r x hp hs he
    cases p with
    | nil => exact hp rfl
    | cons a p => exact hs (by rw [(List.cons.inj he).1]; exact List.mem_cons_self)
  | @plain c s v _ _ _ ih =>
    intro p r x hp hs he
    cases p with
    | nil => exact hp rfl
    | cons a p =>
      obtain ⟨rfl, he⟩ := List.cons.inj he
      refine ih (p := p ++ [a]) (r := r) (x := x) (by simp) ?_ (by simpa using he)
      simp only [List.mem_append, List.mem_cons, List.not_mem_nil, or_false] at hs ⊢
      tauto
  | @pair c s v _ ih =>
    intro p r x hp hs he
    cases p with
    | nil => exact hp rfl
    | cons a p =>
      obtain ⟨rfl, he⟩ := List.cons.inj he
      refine ih (p := p ++ ['\\', a]) (r := r) (x := x) (by simp) ?_ (by simpa using he)
      have : ';' ≠ '\\' := by decide
      simp only [List.mem_append, List.mem_cons, List.not_mem_nil, or_false] at hs ⊢
      tauto

/-- What is written as it is is read as it is only if it is a token. -/
theorem plain_read {raw v s z : Str} (hz : Forwarded.Ends z) (hv : ValueText raw v) (he : raw ++ s = v ++ z) : Token v ∧ s = z := by
  rcases hv with ⟨rfl, ht⟩ | ⟨e, rfl, h, -⟩
  · exact ⟨ht, List.append_cancel_left he⟩
  · exfalso
    rcases hz with rfl | ⟨y, rfl⟩
    · have := congrArg List.length he
      have h2 := (escaped_length h).1
      simp at this
      omega
    · exact escaped_shift h (p := ['"']) (r := s) (x := y) (by simp) (by decide) (by simpa using he)

/-! ### what is read -/

/-- The values of a parameter in a list of pairs. -/
def pairValues (n : Str) (ps : List (Str × Str)) : List Str := (ps.filter fun p => lower p.1 = n).map (·.2)

theorem pairValues_same {n n' v : Str} {ps : List (Str × Str)} (h : lower n = n') : pairValues n' ((n, v) :: ps) = v :: pairValues n' ps := by
  unfold pairValues
  rw [List.filter_cons_of_pos (by simpa using h)]
  rfl

theorem pairValues_other {n n' v : Str} {ps : List (Str × Str)} (h : lower n ≠ n') : pairValues n' ((n, v) :: ps) = pairValues n' ps := by
  unfold pairValues
  rw [List.filter_cons_of_neg (by simpa using h)]

theorem left_semi {s : Str} {ps : List (Str × Str)} (h : Left false (';' :: s) ps) : Left true s ps := by
  generalize hr : ';' :: s = r at h
  generalize hb : false = b at h
  cases h with
  | done hw => subst hr; exact absurd (hw ';' List.mem_cons_self) (by decide)
  | semi h => cases hr; exact h
  | @comma w _ _ _ hw =>
    exfalso
    cases w with
    | nil => exact absurd (List.cons.inj hr).1 (by decide)
    | cons x w => cases hr; exact absurd (hw ';' List.mem_cons_self) (by decide)
  | none => cases hb
  | pair => cases hb

theorem left_comma {s : Str} {ps : List (Str × Str)} (hs : NoLead s) (h : Left false (',' :: ' ' :: s) ps) : Left true s ps := by
  generalize hr : ',' :: ' ' :: s = r at h
  generalize hb : false = b at h
  cases h with
  | done hw => subst hr; exact absurd (hw ',' List.mem_cons_self) (by decide)
  | semi h => cases hr
  | @comma w w' s' _ hw hw' h =>
    have hr' : [] ++ ',' :: ' ' :: s = w ++ ',' :: (w' ++ s') := hr
    obtain ⟨-, e⟩ := cut_inj (c := ',') (by simp) (ows_not_mem hw (by decide) (by decide)) hr'
    rcases List.append_eq_append_iff.mp (show [' '] ++ s = w' ++ s' from e) with ⟨u, rfl, rfl⟩ | ⟨u, e1, rfl⟩
    · cases u with
      | nil => exact h
      | cons c u =>
        exfalso
        have h1 := hs c rfl
        rcases hw' c (by simp) with h | h
        · exact h1.1 h
        · exact h1.2 h
    · refine left_skip (fun c hc => ?_) h
      exact .inl (by simpa using (show c ∈ [' '] by rw [e1]; simp [hc]))
  | none => cases hb
  | pair => cases hb

/-- There is no pair where none starts. -/
theorem left_none {s : Str} {ps : List (Str × Str)} (hs : NoTchar s) (h : Left true s ps) : Left false s ps := by
  generalize hr : s = r at h
  generalize hb : true = b at h
  cases h with
  | done => cases hb
  | semi => cases hb
  | comma => cases hb
  | none h => exact h
  | @pair n _ _ _ _ hn =>
    exfalso
    obtain ⟨h1, h2⟩ := hn
    cases n with
    | nil => exact h1 rfl
    | cons c n => exact hs c (by rw [hr]; rfl) (h2 c List.mem_cons_self)

/-- A parameter written as it is. -/
theorem plain_pair {n v z : Str} {ps : List (Str × Str)} (hn : Token n) (hl : lower n = n) (hz : Forwarded.Ends z)
    (h : Left true (n ++ '=' :: (v ++ z)) ps) (hv : pairValues n ps = [v]) :
    Token v ∧ ∃ ps', ps = (n, v) :: ps' ∧ Left false z ps' := by
  obtain ⟨raw, v', s, ps', e, h1, h2, rfl⟩ := left_pair hn h
  rw [pairValues_same hl] at hv
  cases (List.cons.inj hv).1
  obtain ⟨g1, rfl⟩ := plain_read hz h1 e.symm
  exact ⟨g1, ps', rfl, h2⟩

theorem for_token : Token s!!"for" := Mime.token_of (by decide) (by decide)

theorem for_pairs {T : Str} (hT : Forwarded.Ends T) : ∀ {vs : List Str} {ps : List (Str × Str)},
    Left true (Forwarded.forPart vs ++ T) ps → pairValues s!!"for" ps = vs →
    (∀ v ∈ vs, v ≠ [] ∧ ∀ c ∈ v, QuotedChar c) ∧ ∃ ps', Left false T ps' ∧ ∀ n, n ≠ s!!"for" → pairValues n ps = pairValues n ps' := by
  intro vs
  have hTc : Cut T := by
    rcases hT with rfl | ⟨x, rfl⟩
    · intro c hc; cases hc
    · intro c hc; cases hc; exact .inr rfl
  induction vs with
  | nil =>
    intro ps h _
    exact ⟨by simp, ps, left_none (cut_noTchar hTc) h, fun _ _ => rfl⟩
  | cons v vs ih =>
    intro ps h hv
    have hZ : ∃ Z, Cut Z ∧ Forwarded.forPart (v :: vs) ++ T = s!!"for" ++ '=' :: (Forwarded.formatValue v ++ Z) ∧
        (vs = [] ∧ Z = T ∨ vs ≠ [] ∧ Z = ',' :: ' ' :: (Forwarded.forPart vs ++ T)) := by
      cases vs with
      | nil => exact ⟨T, hTc, by simp [Forwarded.forPart, join], .inl ⟨rfl, rfl⟩⟩
      | cons v' vs =>
        exact ⟨',' :: ' ' :: (Forwarded.forPart (v' :: vs) ++ T), (by intro c hc; cases hc; exact .inl rfl), by simp [Forwarded.forPart, join],
          .inr ⟨by simp, rfl⟩⟩
    obtain ⟨Z, z1, z2, z3⟩ := hZ
    rw [z2] at h
    obtain ⟨raw, v', s, ps', e, h1, h2, rfl⟩ := left_pair for_token h
    rw [pairValues_same (by decide)] at hv
    obtain ⟨rfl, hv2⟩ := List.cons.inj hv
    obtain ⟨g1, rfl⟩ := format_read z1 h1 e.symm
    rcases z3 with ⟨rfl, rfl⟩ | ⟨hne, rfl⟩
    · refine ⟨by simpa using g1, ps', h2, fun n hn => pairValues_other fun h => hn (by rw [← h]; decide)⟩
    · have hlead : NoLead (Forwarded.forPart vs ++ T) := by
        intro c hc
        cases vs with
        | nil => exact absurd rfl hne
        | cons x vs =>
          have : c = 'f' := by
            cases vs <;> simp [Forwarded.forPart, join] at hc <;> exact hc.symm
          subst this
          decide
      obtain ⟨a1, ps'', a2, a3⟩ := ih (left_comma hlead h2) hv2
      refine ⟨fun w hw => ?_, ps'', a2, fun n hn => ?_⟩
      · rcases List.mem_cons.mp hw with rfl | hw
        · exact g1
        · exact a1 w hw
      · rw [pairValues_other fun h => hn (by rw [← h]; decide)]
        exact a3 n hn

theorem tail_pairs {host proto : Option Str} {ps : List (Str × Str)} (h : Left false (Forwarded.tailPart host proto) ps)
    (hh : pairValues s!!"host" ps = host.toList) (hp : pairValues s!!"proto" ps = proto.toList) :
    (∀ v, host = some v → Token v) ∧ ∀ v, proto = some v → Token v := by
  have th : Token s!!"host" := Mime.token_of (by decide) (by decide)
  have tp : Token s!!"proto" := Mime.token_of (by decide) (by decide)
  have hproto : ∀ {p : Str} {ps}, Left false (s!!";proto=" ++ p) ps → pairValues s!!"proto" ps = [p] → Token p := by
    intro p ps h hp
    have := left_semi (s := s!!"proto" ++ '=' :: (p ++ [])) (by simpa using h)
    exact (plain_pair tp (by decide) (.inl rfl) this hp).1
  cases host with
  | none =>
    refine ⟨by simp, ?_⟩
    cases proto with
    | none => simp
    | some p =>
      intro v hv
      cases hv
      exact hproto h hp
  | some x =>
    have key : ∃ z, Forwarded.Ends z ∧ Forwarded.tailPart (some x) proto = ';' :: (s!!"host" ++ '=' :: (x ++ z)) ∧
        ∀ p, proto = some p → z = s!!";proto=" ++ p := by
      cases proto with
      | none => exact ⟨[], .inl rfl, by simp [Forwarded.tailPart], by simp⟩
      | some p => exact ⟨s!!";proto=" ++ p, .inr ⟨_, rfl⟩, by simp [Forwarded.tailPart], by simp⟩
    obtain ⟨z, z1, z2, z3⟩ := key
    rw [z2] at h
    obtain ⟨g1, ps', rfl, g2⟩ := plain_pair th (by decide) z1 (left_semi h) hh
    refine ⟨fun v hv => by cases hv; exact g1, fun v hv => ?_⟩
    subst hv
    rw [z3 v rfl] at g2
    rw [pairValues_other (by decide)] at hp
    exact hproto g2 hp

theorem tail_ends (host proto : Option Str) : Forwarded.Ends (Forwarded.tailPart host proto) := by
  cases host <;> cases proto
  · exact .inl rfl
  all_goals exact .inr ⟨_, rfl⟩

theorem chain_quotable {f : Forwarded} (h : ChainRead f.headerValue f) : QuotableChain f := by
  obtain ⟨es, h1, h2, m1, m2, m3, m4⟩ := h
  obtain ⟨w, s, w1, w2, w3⟩ := left_chain h1
  have hn : ∀ n, paramValues n es = pairValues n (chainPairs es) := fun _ => rfl
  rw [hn] at m1 m2 m3 m4
  generalize chainPairs es = ps at *
  rw [w2] at h2
  have hE := tail_ends f.host f.proto
  rw [Forwarded.headerValue_eq] at h2
  have rest : ∀ {ps}, Left true (Forwarded.forPart f.forwardedFor ++ Forwarded.tailPart f.host f.proto) ps →
      f.forwardedFor = pairValues s!!"for" ps → f.host.toList = pairValues s!!"host" ps → f.proto.toList = pairValues s!!"proto" ps →
      (∀ v ∈ f.forwardedFor, v ≠ [] ∧ ∀ c ∈ v, QuotedChar c) ∧ (∀ v, f.host = some v → Token v) ∧ (∀ v, f.proto = some v → Token v) := by
    intro ps h k1 k2 k3
    obtain ⟨g1, ps', g2, g3⟩ := for_pairs hE h k1.symm
    obtain ⟨g4, g5⟩ := tail_pairs g2 (by rw [← g3 _ (by decide)]; exact k2.symm) (by rw [← g3 _ (by decide)]; exact k3.symm)
    exact ⟨g1, g4, g5⟩
  have nolead : NoLead (w ++ s) := by
    intro c hc
    rw [h2] at hc
    cases hb : f.by' with
    | some b =>
      rw [hb] at hc
      cases hc
      decide
    | none =>
      rw [hb] at hc
      cases hf : f.forwardedFor with
      | nil =>
        rw [hf] at hc
        cases hh : f.host <;> cases hp : f.proto <;> rw [hh, hp] at hc <;> cases hc <;> decide
      | cons x vs =>
        rw [hf] at hc
        have : c = 'f' := by
          cases vs <;> simp [Forwarded.forPart, join] at hc <;> exact hc.symm
        subst this
        decide
  have hw : w = [] := by
    cases w with
    | nil => rfl
    | cons c w =>
      exfalso
      have := nolead c rfl
      rcases w1 c List.mem_cons_self with h | h
      · exact this.1 h
      · exact this.2 h
  subst hw
  rw [List.nil_append] at h2
  rw [h2] at w3
  cases hb : f.by' with
  | none =>
    rw [hb] at w3
    obtain ⟨g1, g2, g3⟩ := rest w3 m1 m3 m4
    exact ⟨g1, by simp [hb], g2, g3⟩
  | some b =>
    rw [hb] at w3 m2
    obtain ⟨g0, ps', rfl, g1⟩ := plain_pair (n := s!!"by") (v := b)
      (z := ';' :: (Forwarded.forPart f.forwardedFor ++ Forwarded.tailPart f.host f.proto))
      (Mime.token_of (by decide) (by decide)) (by decide) (.inr ⟨_, rfl⟩) (by simpa using w3) m2.symm
    rw [pairValues_other (by decide)] at m1 m3 m4
    obtain ⟨g1, g2, g3⟩ := rest (left_semi g1) m1 m3 m4
    exact ⟨g1, by rw [hb]; rintro v ⟨⟩; exact g0, g2, g3⟩

/-! ### what is written -/

/-- A `for` pair as it is written. -/
def forSlot (v : Str) : Option FwdPair := some ⟨s!!"for", v, Forwarded.formatValue v⟩

/-- The elements that are written: the first has the pairs before `for`, the last those after it. -/
def slots (pre post : List (Option FwdPair)) (before : Str) : List Str → List FwdElement
  | [] => [⟨before, pre ++ none :: post, []⟩]
  | [v] => [⟨before, pre ++ forSlot v :: post, []⟩]
  | v :: vs => ⟨before, pre ++ [forSlot v], []⟩ :: slots [] post s!!" " vs

def preText (pre : List (Option FwdPair)) : Str := pre.flatMap fun p => fwdPairText p ++ s!!";"
def postText (post : List (Option FwdPair)) : Str := post.flatMap fun p => ';' :: fwdPairText p

theorem pairsText_slot (pre post : List (Option FwdPair)) (x : Option FwdPair) :
    fwdPairsText (pre ++ x :: post) = preText pre ++ (fwdPairText x ++ postText post) := by
  unfold fwdPairsText preText postText
  induction pre with
  | nil =>
    induction post generalizing x with
    | nil => simp [join]
    | cons y post ih =>
      have := ih y
      simp [join] at this ⊢
      exact this
  | cons p pre ih =>
    cases pre with
    | nil =>
      simp [join] at ih ⊢
      exact ih
    | cons q pre =>
      simp [join] at ih ⊢
      exact ih

theorem slots_text (post : List (Option FwdPair)) : ∀ (vs : List Str) (pre : List (Option FwdPair)) (before : Str),
    chainText (slots pre post before vs) = before ++ (preText pre ++ (Forwarded.forPart vs ++ postText post)) := by
  intro vs
  induction vs with
  | nil => intro pre before; simp [slots, chainText, join, pairsText_slot, fwdPairText, Forwarded.forPart]
  | cons v vs ih =>
    intro pre before
    cases vs with
    | nil => simp [slots, chainText, join, pairsText_slot, fwdPairText, forSlot, Forwarded.forPart]
    | cons v' vs =>
      have := ih [] s!!" "
      have hne : slots [] post s!!" " (v' :: vs) ≠ [] := by cases vs <;> simp [slots]
      have hs : slots pre post before (v :: v' :: vs) = ⟨before, pre ++ [forSlot v], []⟩ :: slots [] post s!!" " (v' :: vs) := rfl
      rw [hs]
      generalize slots [] post s!!" " (v' :: vs) = es at *
      cases es with
      | nil => exact absurd rfl hne
      | cons e es =>
        have hc : ∀ e0 : FwdElement, chainText (e0 :: e :: es) = e0.before ++ fwdPairsText e0.pairs ++ e0.after ++ ',' :: chainText (e :: es) := by
          intro e0
          simp [chainText, join]
        rw [hc, this]
        simp [pairsText_slot, fwdPairText, forSlot, Forwarded.forPart, join, preText, postText]

def slotPairs (ps : List (Option FwdPair)) : List (Str × Str) := (ps.filterMap id).map fun p => (p.name, p.value)

theorem slots_pairs (post : List (Option FwdPair)) : ∀ (vs : List Str) (pre : List (Option FwdPair)) (before : Str),
    chainPairs (slots pre post before vs) = slotPairs pre ++ (vs.map (fun v => (s!!"for", v)) ++ slotPairs post) := by
  intro vs
  induction vs with
  | nil => intro pre before; simp [slots, chainPairs, FwdElement.given, slotPairs]
  | cons v vs ih =>
    intro pre before
    cases vs with
    | nil => simp [slots, chainPairs, FwdElement.given, slotPairs, forSlot]
    | cons v' vs =>
      have hs : slots pre post before (v :: v' :: vs) = ⟨before, pre ++ [forSlot v], []⟩ :: slots [] post s!!" " (v' :: vs) := rfl
      rw [hs]
      have : ∀ (e : FwdElement) es, chainPairs (e :: es) = e.given ++ chainPairs es := fun _ _ => rfl
      rw [this, ih]
      simp [FwdElement.given, slotPairs, forSlot]

theorem slots_legal (post : List (Option FwdPair)) (hpost : ((slotPairs post).map fun p => lower p.1).Sublist [s!!"host", s!!"proto"])
    (gpost : ∀ p, some p ∈ post → Token p.name ∧ ValueText p.raw p.value) :
    ∀ (vs : List Str) (pre : List (Option FwdPair)) (before : Str), Ows before →
      ((slotPairs pre).map fun p => lower p.1).Sublist [s!!"by"] →
      (∀ p, some p ∈ pre → Token p.name ∧ ValueText p.raw p.value) →
      (∀ v ∈ vs, v ≠ [] ∧ ∀ c ∈ v, QuotedChar c) → ∀ e ∈ slots pre post before vs, LegalElement e := by
  have once : ∀ {l : List (Str × Str)}, (l.map fun p => lower p.1).Sublist [s!!"by", s!!"for", s!!"host", s!!"proto"] →
      l.Pairwise fun p q => lower p.1 ≠ lower q.1 := by
    intro l h
    have := List.Pairwise.sublist (R := (· ≠ ·)) h (by decide)
    exact List.pairwise_map.mp this
  have hfor : ∀ {v : Str}, (v ≠ [] ∧ ∀ c ∈ v, QuotedChar c) → ∀ p, some p = forSlot v → Token p.name ∧ ValueText p.raw p.value := by
    intro v hv p hp
    cases hp
    exact ⟨for_token, format_value hv.1 hv.2⟩
  intro vs
  induction vs with
  | nil =>
    intro pre before hb hpre gpre _ e he
    cases List.mem_singleton.mp he
    refine ⟨hb, by simp [Ows], by simp, fun p hp => ?_, once ?_⟩
    · simp only [List.mem_append, List.mem_cons, reduceCtorEq, false_or] at hp
      exact hp.elim (gpre p) (gpost p)
    · have : FwdElement.given ⟨before, pre ++ none :: post, []⟩ = slotPairs pre ++ slotPairs post := by simp [FwdElement.given, slotPairs]
      rw [this, List.map_append]
      exact hpre.append (hpost.trans (List.sublist_cons_self _ _))
  | cons v vs ih =>
    intro pre before hb hpre gpre hvs
    have hv := hvs v List.mem_cons_self
    cases vs with
    | nil =>
      intro e he
      cases List.mem_singleton.mp he
      refine ⟨hb, by simp [Ows], by simp, fun p hp => ?_, once ?_⟩
      · simp only [List.mem_append, List.mem_cons] at hp
        rcases hp with h | h | h
        · exact gpre p h
        · exact hfor hv p h
        · exact gpost p h
      · have : FwdElement.given ⟨before, pre ++ forSlot v :: post, []⟩ = slotPairs pre ++ ((s!!"for", v) :: slotPairs post) := by
          simp [FwdElement.given, slotPairs, forSlot]
        rw [this, List.map_append]
        exact hpre.append (hpost.cons_cons _)
    | cons v' vs =>
      intro e he
      rcases List.mem_cons.mp (show e ∈ ⟨before, pre ++ [forSlot v], []⟩ :: slots [] post s!!" " (v' :: vs) from he) with rfl | he
      · refine ⟨hb, by simp [Ows], by simp, fun p hp => ?_, once ?_⟩
        · simp only [List.mem_append, List.mem_cons, List.not_mem_nil, or_false] at hp
          rcases hp with h | h
          · exact gpre p h
          · exact hfor hv p h
        · have : FwdElement.given ⟨before, pre ++ [forSlot v], []⟩ = slotPairs pre ++ [(s!!"for", v)] := by
            simp [FwdElement.given, slotPairs, forSlot]
          rw [this, List.map_append]
          exact (hpre.append (List.Sublist.refl [s!!"for"])).trans (by decide)
      · exact ih [] s!!" " (by simp [Ows]) (by decide) (by simp) (fun w hw => hvs w (List.mem_cons_of_mem _ hw)) e he

/-- A pair written as it is. -/
def plainSlot (n v : Str) : Option FwdPair := some ⟨n, v, v⟩

theorem chain_written {f : Forwarded} (h : QuotableChain f) : ChainRead f.headerValue f := by
  obtain ⟨h1, h2, h3, h4⟩ := h
  obtain ⟨by', fs, host, proto⟩ := f
  simp only at h1 h2 h3 h4
  have key : ∀ n v p, some p = plainSlot n v → Token n → Token v → Token p.name ∧ ValueText p.raw p.value := by
    intro n v p hp hn hv
    cases hp
    exact ⟨hn, .inl ⟨rfl, hv⟩⟩
  refine ⟨slots (by'.toList.map (plainSlot s!!"by")) (host.toList.map (plainSlot s!!"host") ++ proto.toList.map (plainSlot s!!"proto")) [] fs,
    ⟨by rcases fs with - | ⟨v, - | ⟨v', vs⟩⟩ <;> simp [slots], slots_legal _ ?_ ?_ _ _ _ (by simp [Ows]) ?_ ?_ h1⟩, ?_, ?_, ?_, ?_, ?_⟩
  · cases host <;> cases proto <;> simp [slotPairs, plainSlot] <;> decide
  · intro p hp
    simp only [List.mem_append, List.mem_map, Option.mem_toList] at hp
    rcases hp with ⟨v, hv, e⟩ | ⟨v, hv, e⟩
    · exact key _ _ _ e.symm (Mime.token_of (by decide) (by decide)) (h3 v hv)
    · exact key _ _ _ e.symm (Mime.token_of (by decide) (by decide)) (h4 v hv)
  · cases by' <;> simp [slotPairs, plainSlot]
    decide
  · intro p hp
    simp only [List.mem_map, Option.mem_toList] at hp
    obtain ⟨v, hv, e⟩ := hp
    exact key _ _ _ e.symm (Mime.token_of (by decide) (by decide)) (h2 v hv)
  · rw [slots_text, Forwarded.headerValue_eq]
    cases by' <;> cases host <;> cases proto <;> simp [preText, postText, plainSlot, fwdPairText, Forwarded.tailPart]
  all_goals
    rw [show ∀ n es, paramValues n es = pairValues n (chainPairs es) from fun _ _ => rfl, slots_pairs]
    have hl : lower s!!"by" = s!!"by" ∧ lower s!!"for" = s!!"for" ∧ lower s!!"host" = s!!"host" ∧ lower s!!"proto" = s!!"proto" := by decide
    cases by' <;> cases host <;> cases proto <;>
      simp [pairValues, slotPairs, plainSlot, List.filter_map, hl, Function.comp_def]

/-! ### the claims -/

/-- C112. A value of the standard amounts to one thing only. -/
theorem C112_one {v : Str} {f f' : Forwarded} (h : ChainRead v f) (h' : ChainRead v f') : f = f' := by
  obtain ⟨es, h1, rfl, m⟩ := h
  obtain ⟨es', h1', h2', m'⟩ := h'
  have e := chain_one h1' h1 h2'
  have hn : ∀ n, paramValues n es' = paramValues n es := fun n => by unfold paramValues; rw [e]
  obtain ⟨by', fs, host, proto⟩ := f
  obtain ⟨by2, fs2, host2, proto2⟩ := f'
  obtain ⟨a1, a2, a3, a4⟩ := m
  obtain ⟨b1, b2, b3, b4⟩ := m'
  have inj : ∀ {a b : Option Str}, a.toList = b.toList → a = b := by
    intro a b h
    cases a <;> cases b <;> simp at h ⊢
    exact h
  simp only [hn] at *
  rw [a1, b1, inj (a2.trans b2.symm), inj (a3.trans b3.symm), inj (a4.trans b4.symm)]

example : ChainRead s!!"for=a;host=h" { forwardedFor := [s!!"a"], host := some s!!"h" } :=
  ⟨[⟨[], [tokenPair s!!"for" s!!"a", tokenPair s!!"host" s!!"h"], []⟩], ⟨by simp, fun e he => by
    rw [List.mem_singleton.mp he]
    exact legal_tokens (kvs := [(s!!"for", s!!"a"), (s!!"host", s!!"h")]) (by simp [Ows]) (by simp)
      (by
        intro p hp
        simp only [List.mem_cons, List.not_mem_nil, or_false] at hp
        rcases hp with rfl | rfl <;> exact ⟨Mime.token_of (by decide) (by decide), Mime.token_of (by decide) (by decide)⟩)
      (by decide)⟩, by decide, rfl, rfl, rfl, rfl⟩

/-- C112. A written value is read by others as what was put in exactly if every `for` value is text that can be quoted,
and `by`, `host` and `proto` are tokens. -/
theorem C112_chain_iff_partial (f : Forwarded) : OnlyAs (ChainRead f.headerValue) f ↔ QuotableChain f := by
  constructor
  · intro h
    exact chain_quotable ((h f).mpr rfl)
  · intro h y
    have := chain_written h
    exact ⟨fun hy => C112_one hy this, fun e => e ▸ this⟩

/-- What a proxy puts in: two addresses, one of them with a port. -/
def chainExample : Forwarded :=
  { by' := some s!!"_proxy", forwardedFor := [s!!"[::1]:80", s!!"a \"b\""], host := some s!!"example.com", proto := some s!!"https" }

example : OnlyAs (ChainRead s!!"by=_proxy;for=\"[::1]:80\", for=\"a \\\"b\\\"\";host=example.com;proto=https") chainExample := by
  have := (C112_chain_iff_partial chainExample).mpr ⟨by decide, ?_, ?_, ?_⟩
  · exact this
  all_goals
    intro v hv
    cases hv
    exact Mime.token_of (by decide) (by decide)

example : OnlyAs (ChainRead []) {} := (C112_chain_iff_partial {}).mpr (by simp [QuotableChain])

theorem chainRead_left {v : Str} {f : Forwarded} (hv : NoLead v) (h : ChainRead v f) : ∃ ps, Left true v ps := by
  obtain ⟨es, h1, rfl, -⟩ := h
  obtain ⟨w, s, w1, w2, w3⟩ := left_chain h1
  refine ⟨chainPairs es, ?_⟩
  cases w with
  | nil => rw [w2]; exact w3
  | cons c w =>
    exfalso
    have := hv c (by rw [w2]; rfl)
    rcases w1 c List.mem_cons_self with h | h
    · exact this.1 h
    · exact this.2 h

theorem left_raw {n t : Str} {ps : List (Str × Str)} (hn : Token n) (ht : Token t) {z : Str} (hz : NoTchar z)
    (h : Left true (n ++ '=' :: (t ++ z)) ps) : ∃ ps', Left false z ps' := by
  obtain ⟨raw, v, s, ps', e, h1, h2, -⟩ := left_pair hn h
  obtain ⟨-, -, rfl⟩ := value_cut (.inl ⟨rfl, ht⟩) h1 hz (left_head h2) e
  exact ⟨ps', h2⟩

/-- C112 is violated: a host with a port is written as it is, and nobody can read the value. -/
theorem C112_violated_port {a h : Str} (p : Str) (ha : Token a) (hh : Token h) (f : Forwarded) :
    ¬ ChainRead (Forwarded.headerValue { forwardedFor := [a], host := some (h ++ ':' :: p) }) f := by
  have he : Forwarded.headerValue { forwardedFor := [a], host := some (h ++ ':' :: p) } =
      s!!"for" ++ '=' :: (a ++ ';' :: (s!!"host" ++ '=' :: (h ++ ':' :: p))) := by
    rw [Forwarded.headerValue_eq]
    simp [Forwarded.forPart, Forwarded.tailPart, join, Forwarded.formatValue_eq, ha]
  rw [he]
  intro hr
  have colon : NoTchar (':' :: p) := fun c hc ht => by
    cases hc
    have := (Mime.isToken_iff ':').mpr ht
    revert this
    decide
  obtain ⟨ps, h1⟩ := chainRead_left (by intro c hc; cases hc; decide) hr
  obtain ⟨ps, h2⟩ := left_raw for_token ha (cons_noTchar (by decide) _) h1
  obtain ⟨ps, h3⟩ := left_raw (Mime.token_of (by decide) (by decide)) hh colon (left_semi h2)
  generalize hr : ':' :: p = r at h3
  generalize hb : false = b at h3
  cases h3 with
  | done hw => subst hr; exact absurd (hw ':' List.mem_cons_self) (by decide)
  | semi => cases hr
  | @comma w _ _ _ hw =>
    cases w with
    | nil => cases hr
    | cons x w => cases hr; exact absurd (hw ':' List.mem_cons_self) (by decide)
  | none => cases hb
  | pair => cases hb

example (f : Forwarded) : ¬ ChainRead s!!"for=a;host=example.com:8080" f :=
  C112_violated_port (a := s!!"a") (h := s!!"example.com") s!!"8080" (Mime.token_of (by decide) (by decide))
    (Mime.token_of (by decide) (by decide)) f

/-- C112 is violated: an empty `for` value is written as nothing at all, and nobody can read the value. -/
theorem C112_violated_empty (vs : List Str) (host proto : Option Str) (f : Forwarded) :
    ¬ ChainRead (Forwarded.headerValue { forwardedFor := [] :: vs, host := host, proto := proto }) f := by
  have hz : ∃ z, Cut z ∧ Forwarded.headerValue { forwardedFor := [] :: vs, host := host, proto := proto } = s!!"for" ++ '=' :: z := by
    rw [Forwarded.headerValue_eq]
    cases vs with
    | nil =>
      refine ⟨Forwarded.tailPart host proto, ?_, by simp [Forwarded.forPart, join, Forwarded.formatValue_eq]⟩
      intro c hc
      rcases tail_ends host proto with h | ⟨x, h⟩ <;> rw [h] at hc <;> cases hc
      exact .inr rfl
    | cons v vs =>
      exact ⟨',' :: ' ' :: (Forwarded.forPart (v :: vs) ++ Forwarded.tailPart host proto), (by intro c hc; cases hc; exact .inl rfl),
        by simp [Forwarded.forPart, join, Forwarded.formatValue_eq]⟩
  obtain ⟨z, z1, z2⟩ := hz
  rw [z2]
  intro hr
  obtain ⟨ps, h1⟩ := chainRead_left (by intro c hc; cases hc; decide) hr
  obtain ⟨raw, v, s, ps', rfl, h2, -, -⟩ := left_pair for_token h1
  rcases h2 with ⟨rfl, h2, h3⟩ | ⟨e, rfl, -, -⟩
  · cases raw with
    | nil => exact h2 rfl
    | cons c raw => exact cut_noTchar z1 c rfl (h3 c List.mem_cons_self)
  · exact absurd (z1 '"' rfl) (by decide)

example (f : Forwarded) : ¬ ChainRead s!!"for=, for=1.2.3.4" f := C112_violated_empty [s!!"1.2.3.4"] none none f

/-- C112 is violated: text in a host is read by others as an address of its own. -/
theorem C112_violated_inject {a h x : Str} (ha : Token a) (hh : Token h) (hx : Token x) :
    OnlyAs (ChainRead (Forwarded.headerValue { forwardedFor := [a], host := some (h ++ s!!", for=" ++ x) }))
      { forwardedFor := [a, x], host := some h } := by
  have th : Token s!!"host" := Mime.token_of (by decide) (by decide)
  have hl : lower s!!"for" = s!!"for" ∧ lower s!!"host" = s!!"host" := by decide
  have : ChainRead (Forwarded.headerValue { forwardedFor := [a], host := some (h ++ s!!", for=" ++ x) })
      { forwardedFor := [a, x], host := some h } := by
    refine ⟨[⟨[], [plainSlot s!!"for" a, plainSlot s!!"host" h], []⟩, ⟨s!!" ", [plainSlot s!!"for" x], []⟩], ⟨by simp, ?_⟩, ?_, ?_, ?_, ?_, ?_⟩
    · intro e he
      simp only [List.mem_cons, List.not_mem_nil, or_false] at he
      rcases he with rfl | rfl
      · refine ⟨by simp [Ows], by simp [Ows], by simp, fun p hp => ?_, ?_⟩
        · simp only [plainSlot, List.mem_cons, Option.some.injEq, List.not_mem_nil, or_false] at hp
          rcases hp with rfl | rfl
          · exact ⟨for_token, .inl ⟨rfl, ha⟩⟩
          · exact ⟨th, .inl ⟨rfl, hh⟩⟩
        · simp [FwdElement.given, plainSlot, hl]
      · refine ⟨by simp [Ows], by simp [Ows], by simp, fun p hp => ?_, ?_⟩
        · simp only [plainSlot, List.mem_cons, Option.some.injEq, List.not_mem_nil, or_false] at hp
          subst hp
          exact ⟨for_token, .inl ⟨rfl, hx⟩⟩
        · simp [FwdElement.given, plainSlot]
    · rw [Forwarded.headerValue_eq]
      simp [chainText, fwdPairsText, fwdPairText, plainSlot, Forwarded.forPart, Forwarded.tailPart, join, Forwarded.formatValue_eq, ha]
    all_goals simp [paramValues, chainPairs, FwdElement.given, plainSlot, hl]
  exact fun y => ⟨fun hy => C112_one hy this, fun e => e ▸ this⟩

example : OnlyAs (ChainRead s!!"for=1.2.3.4;host=h, for=6.6.6.6") { forwardedFor := [s!!"1.2.3.4", s!!"6.6.6.6"], host := some s!!"h" } :=
  C112_violated_inject (a := s!!"1.2.3.4") (h := s!!"h") (x := s!!"6.6.6.6") (Mime.token_of (by decide) (by decide))
    (Mime.token_of (by decide) (by decide)) (Mime.token_of (by decide) (by decide))

end HT
