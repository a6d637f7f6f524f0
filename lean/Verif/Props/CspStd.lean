import Verif.Spec.CspStd
import Verif.Props.Security

/-!
C107: a content security policy as a browser reads it.
-/

namespace HT
open Spec

theorem pieces_ne (s : Str) : pieces s ≠ [] := by
  cases s with
  | nil => simp [pieces]
  | cons c s =>
    unfold pieces
    split
    · simp
    · split <;> simp

theorem pieces_append {c : Char} (hc : isCspWs c = true) (a b : Str) : pieces (a ++ c :: b) = pieces a ++ pieces b := by
  induction a with
  | nil => simp [pieces, hc]
  | cons x a ih =>
    rw [List.cons_append, pieces, ih]
    conv_rhs => rw [pieces]
    split
    · rfl
    · cases h : pieces a with
      | nil => exact absurd h (pieces_ne a)
      | cons w ws => rfl

theorem words_append {c : Char} (hc : isCspWs c = true) (a b : Str) : words (a ++ c :: b) = words a ++ words b := by
  unfold words
  rw [pieces_append hc, List.filter_append]

theorem words_blank (s : Str) : words (' ' :: s) = words s := words_append (by decide) [] s

theorem pieces_word {w : Str} (h : ∀ c ∈ w, isCspWs c = false) : pieces w = [w] := by
  induction w with
  | nil => rfl
  | cons c w ih =>
    rw [pieces, h c List.mem_cons_self, ih fun d hd => h d (List.mem_cons_of_mem _ hd)]
    simp

theorem words_word {w : Str} (h : ∀ c ∈ w, isCspWs c = false) (hne : w ≠ []) : words w = [w] := by
  unfold words
  rw [pieces_word h]
  simp [hne]

theorem words_join (ss : List Str) : words (join s!!" " ss) = ss.flatMap words := by
  induction ss with
  | nil => rfl
  | cons s ss ih =>
    cases ss with
    | nil => simp [join]
    | cons t ss =>
      rw [join, List.flatMap_cons, ← ih, List.append_assoc]
      exact words_append (by decide) _ _

theorem directive_blank (e : Str) : cspDirective (' ' :: e) = cspDirective e := by
  unfold cspDirective
  rw [words_blank]
  simp [isAscii, isAsciiC]

/-- A policy joined from contained entries. -/
theorem policy_join {l : List Str} (h : ∀ e ∈ l, Contained e) :
    cspPolicy (join s!!"; " l) = (l.filterMap cspDirective).foldl addDirective [] := by
  unfold cspPolicy
  congr 1
  cases l with
  | nil => rfl
  | cons e l =>
    rw [split_join (c := ';') (t := s!!" ") (by decide) fun p hp hm => (h p hp _ hm).2.1 rfl]
    rw [List.filterMap_cons, List.filterMap_cons, List.filterMap_map]
    have : (cspDirective ∘ fun x => s!!" " ++ x) = cspDirective := by
      funext x; exact directive_blank x
    rw [this]

theorem contained_join {l : List Str} (h : ∀ e ∈ l, Contained e) : ',' ∉ join s!!"; " l := by
  induction l with
  | nil => simp [join]
  | cons e l ih =>
    cases l with
    | nil => exact fun hm => (h e (by simp) _ hm).2.2 rfl
    | cons x l =>
      rw [join, List.append_assoc]
      intro hm
      rcases List.mem_append.mp hm with hm | hm
      · exact (h e (by simp) _ hm).2.2 rfl
      · rcases List.mem_append.mp hm with hm | hm
        · revert hm; decide
        · exact ih (fun e he => h e (List.mem_cons_of_mem _ he)) hm

theorem policies_join {l : List Str} (h : ∀ e ∈ l, Contained e) :
    cspPolicies (join s!!"; " l) = [(l.filterMap cspDirective).foldl addDirective []].filter (· ≠ []) := by
  unfold cspPolicies
  rw [split_of_not_mem (contained_join h), List.map_cons, List.map_nil, policy_join h]

theorem addAll_spec (xs : List (Str × List Str)) : ∀ acc : List (Str × List Str), (acc.map (·.1)).Nodup →
    (∀ e ∈ acc ++ xs, ∀ e' ∈ acc ++ xs, e.1 = e'.1 → e = e') →
    ((xs.foldl addDirective acc).map (·.1)).Nodup ∧ ∀ e, e ∈ xs.foldl addDirective acc ↔ e ∈ acc ++ xs := by
  induction xs with
  | nil => intro acc hn _; exact ⟨hn, fun e => by simp⟩
  | cons x xs ih =>
    intro acc hn hf
    rw [List.foldl_cons]
    by_cases hx : x.1 ∈ acc.map (·.1)
    · obtain ⟨y, hy, hyx⟩ := List.mem_map.mp hx
      have hxy : y = x := hf y (by simp [hy]) x (by simp) hyx
      have e1 : addDirective acc x = acc := by simp only [addDirective, hx, if_true]
      rw [e1]
      obtain ⟨h1, h2⟩ := ih acc hn fun e he e' he' => hf e (by
          rcases List.mem_append.mp he with h | h <;> simp [h]) e' (by
          rcases List.mem_append.mp he' with h | h <;> simp [h])
      refine ⟨h1, fun e => (h2 e).trans ?_⟩
      rw [hxy] at hy
      simp only [List.mem_append, List.mem_cons]
      constructor
      · rintro (h | h)
        · exact .inl h
        · exact .inr (.inr h)
      · rintro (h | rfl | h)
        · exact .inl h
        · exact .inl hy
        · exact .inr h
    · have e1 : addDirective acc x = acc ++ [x] := by simp only [addDirective, hx, if_false]
      rw [e1]
      obtain ⟨h1, h2⟩ := ih (acc ++ [x]) (by
          rw [List.map_append, List.nodup_append]
          exact ⟨hn, by simp, fun a ha b hb => by simp at hb; rw [hb]; exact fun h => hx (h ▸ ha)⟩)
        (by simpa using hf)
      exact ⟨h1, fun e => (h2 e).trans (by simp)⟩

theorem method_word (m : CspMethod) : (∀ c ∈ m.directive, isCspWs c = false) ∧ m.directive ≠ [] ∧
    lower m.directive = m.directive ∧ Contained m.directive ∧ m.directive ≠ s!!"block-all-mixed-content" ∧
    m.directive ≠ s!!"upgrade-insecure-requests" := by
  cases m <;> (unfold Contained; decide)

theorem contained_append {a b : Str} (ha : Contained a) (hb : Contained b) : Contained (a ++ b) := by
  intro c hc
  rcases List.mem_append.mp hc with h | h
  · exact ha c h
  · exact hb c h

theorem contained_sources {ss : List Str} (h : ∀ s ∈ ss, Contained s) : Contained (join s!!" " ss) := by
  induction ss with
  | nil => intro c hc; simp [join] at hc
  | cons s ss ih =>
    cases ss with
    | nil => exact h s (by simp)
    | cons t ss =>
      rw [join]
      exact contained_append (contained_append (h s (by simp)) (by unfold Contained; decide))
        (ih fun s hs => h s (List.mem_cons_of_mem _ hs))

theorem contained_ascii {s : Str} (h : Contained s) : isAscii s = true := List.all_eq_true.mpr fun c hc => (h c hc).1

/-- What an entry with sources is read as. -/
theorem entry_read (m : CspMethod) {ss : List Str} (h : ∀ s ∈ ss, Contained s) :
    Contained (m.directive ++ s!!" " ++ join s!!" " ss) ∧
    cspDirective (m.directive ++ s!!" " ++ join s!!" " ss) = some (m.directive, ss.flatMap words) := by
  obtain ⟨h1, h2, h3, h4, -, -⟩ := method_word m
  have hc : Contained (m.directive ++ s!!" " ++ join s!!" " ss) :=
    contained_append (contained_append h4 (by unfold Contained; decide)) (contained_sources h)
  refine ⟨hc, ?_⟩
  unfold cspDirective
  rw [if_pos (contained_ascii hc), List.append_assoc, show s!!" " ++ join s!!" " ss = ' ' :: join s!!" " ss from rfl,
    words_append (by decide), words_word h1 h2, words_join, List.singleton_append]
  simp only [h3]

theorem mem_sources {d s : Str} {ops : List CspOp} (h : s ∈ sourcesFor d ops) : ∃ m, CspOp.add m s ∈ ops ∧ m.directive = d := by
  obtain ⟨op, hop, he⟩ := List.mem_filterMap.mp h
  cases op with
  | add m s' =>
    simp only [Option.ite_none_right_eq_some, Option.some.injEq] at he
    exact ⟨m, he.2 ▸ hop, he.1⟩
  | _ => simp at he

theorem mem_mentioned {d : Str} {ops : List CspOp} : d ∈ mentioned ops ↔ ∃ m s, CspOp.add m s ∈ ops ∧ m.directive = d := by
  unfold mentioned
  rw [List.mem_filterMap]
  constructor
  · rintro ⟨op, hop, he⟩
    cases op with
    | add m s => exact ⟨m, s, hop, by simpa using he⟩
    | _ => simp at he
  · rintro ⟨m, s, h, rfl⟩
    exact ⟨_, h, rfl⟩

/-- Every entry of plain calls is contained and is read as what is wanted, and all that is wanted is there. -/
theorem entries_read {ops : List CspOp} (hp : PlainOps ops) :
    (∀ e ∈ entries ops, Contained e) ∧ ∀ d vs, (d, vs) ∈ (entries ops).filterMap cspDirective ↔ Wanted ops d vs := by
  have hsrc : ∀ d, ∀ s ∈ sourcesFor d ops, Contained s := fun d s hs => by
    obtain ⟨m, hm, -⟩ := mem_sources hs
    exact hp.1 m s hm
  have hplain : ∀ e, e ∈ plainEntries ops ↔ (e = s!!"block-all-mixed-content" ∧ CspOp.blockAllMixedContent ∈ ops) ∨
      (e = s!!"upgrade-insecure-requests" ∧ CspOp.upgradeInsecureRequests ∈ ops) := by
    intro e
    unfold plainEntries
    rw [List.mem_flatMap]
    constructor
    · rintro ⟨op, hop, he⟩
      cases op with
      | blockAllMixedContent => exact .inl ⟨by simpa using he, hop⟩
      | upgradeInsecureRequests => exact .inr ⟨by simpa using he, hop⟩
      | reportTo es => exact absurd hop (hp.2 es)
      | _ => simp at he
    · rintro (⟨rfl, h⟩ | ⟨rfl, h⟩)
      · exact ⟨_, h, by simp⟩
      · exact ⟨_, h, by simp⟩
  have hb : Contained s!!"block-all-mixed-content" ∧
      cspDirective s!!"block-all-mixed-content" = some (s!!"block-all-mixed-content", []) := by
    unfold Contained; exact ⟨by decide, by decide +kernel⟩
  have hu : Contained s!!"upgrade-insecure-requests" ∧
      cspDirective s!!"upgrade-insecure-requests" = some (s!!"upgrade-insecure-requests", []) := by
    unfold Contained; exact ⟨by decide, by decide +kernel⟩
  refine ⟨fun e he => ?_, fun d vs => ?_⟩
  · rcases List.mem_append.mp he with he | he
    · rcases (hplain e).mp he with ⟨rfl, -⟩ | ⟨rfl, -⟩
      · exact hb.1
      · exact hu.1
    · obtain ⟨d, hd, rfl⟩ := List.mem_map.mp he
      obtain ⟨m, s, -, rfl⟩ := mem_mentioned.mp (List.mem_dedup.mp hd)
      exact (entry_read m (hsrc _)).1
  · rw [List.mem_filterMap]
    constructor
    · rintro ⟨e, he, hd⟩
      rcases List.mem_append.mp he with he | he
      · rcases (hplain e).mp he with ⟨rfl, h⟩ | ⟨rfl, h⟩
        · rw [hb.2] at hd
          obtain ⟨rfl, rfl⟩ := Prod.mk.inj (Option.some.inj hd)
          exact .inr (.inl ⟨rfl, h, rfl⟩)
        · rw [hu.2] at hd
          obtain ⟨rfl, rfl⟩ := Prod.mk.inj (Option.some.inj hd)
          exact .inr (.inr ⟨rfl, h, rfl⟩)
      · obtain ⟨d', hd', rfl⟩ := List.mem_map.mp he
        have hm := mem_mentioned.mp (List.mem_dedup.mp hd')
        obtain ⟨m, s, -, rfl⟩ := id hm
        rw [directiveEntry, (entry_read m (hsrc _)).2] at hd
        obtain ⟨rfl, rfl⟩ := Prod.mk.inj (Option.some.inj hd)
        exact .inl ⟨hm, rfl⟩
    · rintro (⟨hm, rfl⟩ | ⟨rfl, h, rfl⟩ | ⟨rfl, h, rfl⟩)
      · refine ⟨directiveEntry ops d, List.mem_append_right _ (List.mem_map.mpr ⟨d, List.mem_dedup.mpr (mem_mentioned.mpr hm), rfl⟩), ?_⟩
        obtain ⟨m, s, -, rfl⟩ := hm
        exact (entry_read m (hsrc _)).2
      · exact ⟨_, List.mem_append_left _ ((hplain _).mpr (.inl ⟨rfl, h⟩)), hb.2⟩
      · exact ⟨_, List.mem_append_left _ ((hplain _).mpr (.inr ⟨rfl, h⟩)), hu.2⟩

theorem wanted_one {ops : List CspOp} {d : Str} {vs vs' : List Str} (h : Wanted ops d vs) (h' : Wanted ops d vs') : vs = vs' := by
  rcases h with ⟨⟨m, s, -, hd⟩, rfl⟩ | ⟨rfl, -, rfl⟩ | ⟨rfl, -, rfl⟩ <;>
    rcases h' with ⟨⟨m', s', -, hd'⟩, rfl⟩ | ⟨h1, -, rfl⟩ | ⟨h1, -, rfl⟩ <;> try rfl
  · exact absurd (hd.trans h1) (method_word m).2.2.2.2.1
  · exact absurd (hd.trans h1) (method_word m).2.2.2.2.2
  · exact absurd hd' (method_word m').2.2.2.2.1
  · exact absurd hd' (method_word m').2.2.2.2.2

/-- C107: of a new policy whose sources are ASCII without semicolon and comma, a browser reads one policy (none if nothing
was asked for) that has exactly the directives asked for, each once and with all its sources in the order of the calls,
in whatever order the hash map is visited. Missing: other sources, endpoints to report to, policies that start from the
default and policies applied before. -/
theorem C107_policy_partial (ops : List CspOp) (hp : PlainOps ops) (ds : FMap Str (List Str))
    (hds : (CspOp.run .new ops).directives.Perm ds) :
    ∃ p, cspPolicies ({ CspOp.run .new ops with directives := ds } : Csp).value.2 = (if p = [] then [] else [p]) ∧
      (p.map (·.1)).Nodup ∧ ∀ d vs, (d, vs) ∈ p ↔ Wanted ops d vs := by
  obtain ⟨l, h1, h2, -⟩ := C53_value .new (.inl rfl) ops ds hds
  rw [show Csp.new.policy = [] from rfl, List.nil_append] at h2
  obtain ⟨hc, hw⟩ := entries_read hp
  have hc' : ∀ e ∈ l, Contained e := fun e he => hc e (h2.mem_iff.mp he)
  have hm : ∀ e, e ∈ l.filterMap cspDirective ↔ e ∈ (entries ops).filterMap cspDirective :=
    fun e => (h2.filterMap _).mem_iff
  obtain ⟨h3, h4⟩ := addAll_spec (l.filterMap cspDirective) [] (by simp) (by
    intro e he e' he' h
    rw [List.nil_append] at he he'
    obtain ⟨d, vs⟩ := e
    obtain ⟨d', vs'⟩ := e'
    simp only at h
    subst h
    rw [wanted_one ((hw d vs).mp ((hm _).mp he)) ((hw d vs').mp ((hm _).mp he'))])
  refine ⟨_, ?_, h3, fun d vs => ?_⟩
  · rw [h1, policies_join hc', List.filter_cons]
    simp
  · rw [h4, List.nil_append, hm, hw]

example : PlainOps [.add .defaultSrc s!!"'self'", .upgradeInsecureRequests, .add .imgSrc s!!"https: data:", .add .defaultSrc s!!"a.example"] := by
  refine ⟨?_, by simp⟩
  intro m s h
  simp only [List.mem_cons, CspOp.add.injEq, reduceCtorEq, List.not_mem_nil, or_false, false_or] at h
  rcases h with ⟨-, rfl⟩ | ⟨-, rfl⟩ | ⟨-, rfl⟩ <;> (unfold Contained; decide)
example : Wanted [.add .defaultSrc s!!"'self'", .add .imgSrc s!!"https: data:"] s!!"img-src" [s!!"https:", s!!"data:"] :=
  .inl ⟨⟨.imgSrc, s!!"https: data:", by simp, rfl⟩, by decide +kernel⟩

/-! What a policy that starts from the default is read as. -/

theorem addAll_first (xs : List (Str × List Str)) : ∀ acc : List (Str × List Str), (acc.map (·.1)).Nodup →
    ((xs.foldl addDirective acc).map (·.1)).Nodup ∧
    ∀ d vs, (d, vs) ∈ xs.foldl addDirective acc ↔ (acc ++ xs).find? (fun e => e.1 = d) = some (d, vs) := by
  induction xs with
  | nil =>
    intro acc hn
    refine ⟨hn, fun d vs => ?_⟩
    rw [List.foldl_nil, List.append_nil]
    induction acc with
    | nil => simp
    | cons a acc ih =>
      rw [List.map_cons, List.nodup_cons] at hn
      rw [List.find?_cons, List.mem_cons]
      by_cases h : a.1 = d
      · simp only [h, decide_true, Option.some.injEq]
        constructor
        · rintro (h' | h')
          · exact h'.symm
          · exact absurd (List.mem_map_of_mem h') (h ▸ hn.1)
        · exact fun h' => .inl h'.symm
      · simp only [h, decide_false]
        rw [← ih hn.2]
        exact ⟨fun h' => h'.resolve_left fun h2 => h (by rw [← h2]), .inr⟩
  | cons x xs ih =>
    intro acc hn
    rw [List.foldl_cons]
    by_cases hx : x.1 ∈ acc.map (·.1)
    · rw [show addDirective acc x = acc by simp only [addDirective, hx, if_true]]
      refine ⟨(ih acc hn).1, fun d vs => ((ih acc hn).2 d vs).trans ?_⟩
      rw [List.find?_append, List.find?_append, List.find?_cons]
      by_cases h : x.1 = d
      · cases hf : acc.find? (fun e => e.1 = d) with
        | some e => simp
        | none =>
          obtain ⟨y, hy, hyx⟩ := List.mem_map.mp hx
          exact absurd (List.find?_eq_none.mp hf y hy) (by simp [hyx, h])
      · simp [h]
    · rw [show addDirective acc x = acc ++ [x] by simp only [addDirective, hx, if_false]]
      obtain ⟨h1, h2⟩ := ih (acc ++ [x]) (by
        rw [List.map_append, List.nodup_append]
        exact ⟨hn, by simp, fun a ha b hb => by simp at hb; rw [hb]; exact fun h => hx (h ▸ ha)⟩)
      exact ⟨h1, fun d vs => (h2 d vs).trans (by simp)⟩

/-- A policy joined from lines that may have several directives. -/
theorem policy_lines {l : List Str} : cspPolicy (join s!!"; " l)
    = (l.flatMap fun e => (split ';' e).filterMap cspDirective).foldl addDirective [] := by
  unfold cspPolicy
  congr 1
  induction l with
  | nil => rfl
  | cons e l ih =>
    cases l with
    | nil => simp [join]
    | cons x l =>
      rw [List.flatMap_cons, ← ih, join, List.append_assoc]
      have hs : ∀ a b : Str, split ';' (a ++ ';' :: b) = split ';' a ++ split ';' b := by
        intro a b
        induction a with
        | nil => simp [split]
        | cons c a iha =>
          rw [List.cons_append, split, iha]
          conv_rhs => rw [split]
          split
          · rfl
          · cases h : split ';' a with
            | nil => exact absurd h (split_ne_nil _ _)
            | cons w ws => rfl
      rw [show s!!"; " ++ join s!!"; " (x :: l) = ';' :: (' ' :: join s!!"; " (x :: l)) from rfl, hs,
        List.filterMap_append]
      congr 1
      generalize join s!!"; " (x :: l) = r
      rw [split]
      rw [if_neg (by decide)]
      cases hr : split ';' r with
      | nil => exact absurd hr (split_ne_nil _ _)
      | cons w ws =>
        simp only [List.filterMap_cons, directive_blank]

theorem lt_append_left (a b c : Str) : a ++ b < a ++ c ↔ b < c := by
  induction a with
  | nil => rfl
  | cons x a ih =>
    rw [List.cons_append, List.cons_append, List.cons_lt_cons_iff, ← ih]
    simp

def defaultLine : Str := s!!"script-src 'self'; object-src 'self'"

def lineDirectives (e : Str) : List (Str × List Str) := (split ';' e).filterMap cspDirective

theorem line_contained {e : Str} (h : Contained e) : lineDirectives e = (cspDirective e).toList := by
  unfold lineDirectives
  rw [split_of_not_mem fun hm => (h _ hm).2.1 rfl]
  rw [List.filterMap_cons, List.filterMap_nil]
  cases cspDirective e <;> rfl

theorem line_default : lineDirectives defaultLine = [(s!!"script-src", [s!!"'self'"]), (s!!"object-src", [s!!"'self'"])] := by
  decide +kernel

/-- The entry that is read as a directive with sources. -/
theorem entry_of {ops : List CspOp} (hp : PlainOps ops) {e d : Str} {vs : List Str} (he : e ∈ entries ops)
    (hd : cspDirective e = some (d, vs)) (hb : d ≠ s!!"block-all-mixed-content") (hu : d ≠ s!!"upgrade-insecure-requests") :
    e = directiveEntry ops d := by
  rcases List.mem_append.mp he with he | he
  · exfalso
    unfold plainEntries at he
    obtain ⟨op, hop, he⟩ := List.mem_flatMap.mp he
    cases op with
    | blockAllMixedContent =>
      simp only [List.mem_singleton] at he
      rw [he, show cspDirective s!!"block-all-mixed-content" = some (s!!"block-all-mixed-content", []) by decide +kernel] at hd
      exact hb (Prod.mk.inj (Option.some.inj hd)).1.symm
    | upgradeInsecureRequests =>
      simp only [List.mem_singleton] at he
      rw [he, show cspDirective s!!"upgrade-insecure-requests" = some (s!!"upgrade-insecure-requests", []) by decide +kernel] at hd
      exact hu (Prod.mk.inj (Option.some.inj hd)).1.symm
    | reportTo es => exact hp.2 es hop
    | _ => simp at he
  · obtain ⟨d', hd', rfl⟩ := List.mem_map.mp he
    obtain ⟨m, s, -, rfl⟩ := mem_mentioned.mp (List.mem_dedup.mp hd')
    rw [directiveEntry, (entry_read m fun s hs => by
      obtain ⟨m', hm', -⟩ := mem_sources hs
      exact hp.1 m' s hm').2] at hd
    rw [(Prod.mk.inj (Option.some.inj hd)).1]

/-- C107: of a policy that starts from the default, a browser reads one policy, whose directives are those asked for, each
once; but the directive of the default stands for scripts unless the sources asked for happen to come first in the order
of strings, and for objects unless a call was made. -/
theorem C107_default (ops : List CspOp) (hp : PlainOps ops) (ds : FMap Str (List Str))
    (hds : (CspOp.run .default ops).directives.Perm ds) :
    ∃ p, cspPolicies ({ CspOp.run .default ops with directives := ds } : Csp).value.2 = [p] ∧
      (p.map (·.1)).Nodup ∧
      ∀ d vs, (d, vs) ∈ p ↔ (DefaultStands ops d ∧ vs = [s!!"'self'"]) ∨ (¬ DefaultStands ops d ∧ Wanted ops d vs) := by
  obtain ⟨l, h1, h2, h5, -⟩ := C53_value .default (.inr rfl) ops ds hds
  rw [show Csp.default.policy = [defaultLine] from rfl, List.singleton_append] at h2
  obtain ⟨hc, hw⟩ := entries_read hp
  obtain ⟨pre, post, rfl⟩ := List.append_of_mem (h2.mem_iff.mpr List.mem_cons_self)
  have hperm : (pre ++ post).Perm (entries ops) := (List.perm_middle.symm.trans h2).cons_inv
  have hmem : ∀ e, e ∈ pre ∨ e ∈ post ↔ e ∈ entries ops := fun e => by rw [← hperm.mem_iff, List.mem_append]
  have hpar : ∀ (q : List Str), (∀ e ∈ q, e ∈ entries ops) → ∀ x, x ∈ q.flatMap lineDirectives ↔ ∃ e ∈ q, cspDirective e = some x := by
    intro q hq x
    rw [List.mem_flatMap]
    constructor
    · rintro ⟨e, he, hx⟩
      rw [line_contained (hc e (hq e he)), Option.mem_toList] at hx
      exact ⟨e, he, hx⟩
    · rintro ⟨e, he, hx⟩
      exact ⟨e, he, by rw [line_contained (hc e (hq e he)), Option.mem_toList]; exact hx⟩
  have hP := hpar pre fun e he => (hmem e).mp (.inl he)
  have hQ := hpar post fun e he => (hmem e).mp (.inr he)
  have hPQ : ∀ d vs, (d, vs) ∈ pre.flatMap lineDirectives ∨ (d, vs) ∈ post.flatMap lineDirectives ↔ Wanted ops d vs := by
    intro d vs
    rw [hP, hQ, ← hw, List.mem_filterMap]
    constructor
    · rintro (⟨e, he, h⟩ | ⟨e, he, h⟩)
      · exact ⟨e, (hmem e).mp (.inl he), h⟩
      · exact ⟨e, (hmem e).mp (.inr he), h⟩
    · rintro ⟨e, he, h⟩
      rcases (hmem e).mpr he with he | he
      · exact .inl ⟨e, he, h⟩
      · exact .inr ⟨e, he, h⟩
  have hsort : ∀ d, Named ops d → (∀ e ∈ pre, e ≤ defaultLine) ∧ ∀ e ∈ post, defaultLine ≤ e := by
    rintro d ⟨m, s, hm, -⟩
    have hs := h5 (by
      intro hn
      exact absurd (mem_mentioned.mpr ⟨m, s, hm, rfl⟩) (by rw [hn]; simp))
    rw [List.pairwise_append, List.pairwise_cons] at hs
    exact ⟨fun e he => hs.2.2 e he _ List.mem_cons_self, hs.2.1.1⟩
  have hent : ∀ d, Named ops d → directiveEntry ops d ∈ entries ops ∧ directiveEntry ops d ≠ defaultLine ∧
      ∃ vs, cspDirective (directiveEntry ops d) = some (d, vs) := by
    intro d hd
    have hin : directiveEntry ops d ∈ entries ops :=
      List.mem_append_right _ (List.mem_map.mpr ⟨d, List.mem_dedup.mpr (mem_mentioned.mpr hd), rfl⟩)
    refine ⟨hin, fun hn => ?_, ?_⟩
    · have := hc _ hin
      rw [hn] at this
      exact (this ';' (by decide)).2.1 rfl
    · obtain ⟨m, s, -, rfl⟩ := hd
      exact ⟨_, (entry_read m fun s hs => by
        obtain ⟨m', hm', -⟩ := mem_sources hs
        exact hp.1 m' s hm').2⟩
  /- where the entry of a directive is -/
  have hpre : ∀ d vs, d ≠ s!!"block-all-mixed-content" → d ≠ s!!"upgrade-insecure-requests" →
      ((d, vs) ∈ pre.flatMap lineDirectives ↔ Wanted ops d vs ∧ directiveEntry ops d < defaultLine) := by
    intro d vs hb hu
    have hnamed : Wanted ops d vs → Named ops d := fun h => by
      rcases h with h | h | h
      · exact h.1
      · exact absurd h.1 hb
      · exact absurd h.1 hu
    constructor
    · intro h
      have hwd := (hPQ d vs).mp (.inl h)
      refine ⟨hwd, ?_⟩
      obtain ⟨e, he, hde⟩ := (hP _).mp h
      have := entry_of hp ((hmem e).mp (.inl he)) hde hb hu
      subst this
      by_contra hn
      exact (hent d (hnamed hwd)).2.1 (List.le_antisymm ((hsort d (hnamed hwd)).1 _ he) hn)
    · rintro ⟨hwd, hlt⟩
      rcases (hPQ d vs).mpr hwd with h | h
      · exact h
      · obtain ⟨e, he, hde⟩ := (hQ _).mp h
        have := entry_of hp ((hmem e).mp (.inr he)) hde hb hu
        subst this
        exact absurd hlt ((hsort d (hnamed hwd)).2 _ he)
  obtain ⟨h3, h4⟩ := addAll_first ((pre ++ defaultLine :: post).flatMap lineDirectives) [] (by simp)
  have hcomma : ',' ∉ join s!!"; " (pre ++ defaultLine :: post) := by
    have hall : ∀ e ∈ pre ++ defaultLine :: post, ',' ∉ e := by
      intro e he
      rcases List.mem_cons.mp (h2.mem_iff.mp he) with rfl | he
      · decide
      · exact fun hm => (hc e he _ hm).2.2 rfl
    revert hall
    generalize pre ++ defaultLine :: post = l
    intro hall
    induction l with
    | nil => simp [join]
    | cons e l ih =>
      cases l with
      | nil => exact hall e (by simp)
      | cons x l =>
        rw [join, List.append_assoc]
        intro hm
        rcases List.mem_append.mp hm with hm | hm
        · exact hall e (by simp) hm
        · rcases List.mem_append.mp hm with hm | hm
          · revert hm; decide
          · exact ih (fun e he => hall e (List.mem_cons_of_mem _ he)) hm
  refine ⟨_, ?_, h3, fun d vs => (h4 d vs).trans ?_⟩
  · rw [h1]
    unfold cspPolicies
    rw [split_of_not_mem hcomma, List.map_cons, List.map_nil, policy_lines, List.filter_cons]
    have : ((pre ++ defaultLine :: post).flatMap lineDirectives).foldl addDirective [] ≠ [] := by
      intro hn
      have hf : ((pre ++ defaultLine :: post).flatMap lineDirectives).find? (fun e => e.1 = s!!"script-src") ≠ none := by
        intro hf
        refine List.find?_eq_none.mp hf (s!!"script-src", [s!!"'self'"]) ?_ (by simp)
        exact List.mem_flatMap.mpr ⟨defaultLine, by simp, by rw [line_default]; simp⟩
      obtain ⟨⟨d, vs⟩, hx⟩ := Option.ne_none_iff_exists'.mp hf
      have hd : d = s!!"script-src" := by simpa using List.find?_some hx
      subst hd
      have := (h4 _ vs).mpr (by rw [List.nil_append]; exact hx)
      rw [hn] at this
      simp at this
    have h6 : decide (((pre ++ defaultLine :: post).flatMap lineDirectives).foldl addDirective [] ≠ []) = true := by simpa using this
    unfold lineDirectives at h6 ⊢
    rw [if_pos h6]
    rfl
  · rw [List.nil_append, List.flatMap_append, List.flatMap_cons, line_default, List.find?_append, List.find?_append]
    generalize hPd : pre.flatMap lineDirectives = P at hPQ hpre
    generalize hQd : post.flatMap lineDirectives = Q at hPQ
    have hone : ∀ R : List (Str × List Str), (∀ x ∈ R, x ∈ P ∨ x ∈ Q) → ∀ vs, (d, vs) ∈ R → R.find? (fun e => e.1 = d) = some (d, vs) := by
      intro R hR vs hv
      cases hf : R.find? (fun e => e.1 = d) with
      | none => exact absurd (List.find?_eq_none.mp hf _ hv) (by simp)
      | some x =>
        obtain ⟨d', vs'⟩ := x
        have hd : d' = d := by simpa using List.find?_some hf
        subst hd
        rw [wanted_one ((hPQ _ _).mp (hR _ (List.mem_of_find?_eq_some hf))) ((hPQ _ _).mp (hR _ hv))]
    have hnone : ∀ R : List (Str × List Str), (∀ vs, (d, vs) ∉ R) → R.find? (fun e => e.1 = d) = none := by
      intro R hR
      rw [List.find?_eq_none]
      rintro ⟨d', vs'⟩ hx
      simp only [decide_eq_true_eq]
      rintro rfl
      exact hR _ hx
    by_cases hs : d = s!!"script-src"
    · subst hs
      have hlt : directiveEntry ops s!!"script-src" < defaultLine ↔ join s!!" " (sourcesFor s!!"script-src" ops) < s!!"'self'; object-src 'self'" := by
        rw [directiveEntry, show defaultLine = (s!!"script-src" ++ s!!" ") ++ s!!"'self'; object-src 'self'" from rfl]
        exact lt_append_left _ _ _
      have hpre' := fun vs => hpre s!!"script-src" vs (by decide) (by decide)
      rw [hlt] at hpre'
      by_cases hst : DefaultStands ops s!!"script-src"
      · have hno : ∀ vs, (s!!"script-src", vs) ∉ P := fun vs hv => by
          rw [hpre'] at hv
          rcases hst with h | h
          · refine h.2 ⟨?_, hv.2⟩
            rcases hv.1 with h' | h' | h'
            · exact h'.1
            · exact absurd h'.1 (by decide)
            · exact absurd h'.1 (by decide)
          · exact absurd h.1 (by decide)
        rw [hnone P hno]
        simp [hst, eq_comm]
      · have h7 : Named ops s!!"script-src" ∧ join s!!" " (sourcesFor s!!"script-src" ops) < s!!"'self'; object-src 'self'" := by
          by_contra hn
          exact hst (.inl ⟨rfl, hn⟩)
        have hwd : Wanted ops s!!"script-src" ((sourcesFor s!!"script-src" ops).flatMap words) := .inl ⟨h7.1, rfl⟩
        rw [hone P (fun x hx => .inl hx) _ ((hpre' _).mpr ⟨hwd, h7.2⟩)]
        simp only [Option.some_or, Option.some.injEq, Prod.mk.injEq, true_and, hst, false_and, false_or, not_false_eq_true]
        exact ⟨fun h => h ▸ hwd, fun h => wanted_one hwd h⟩
    · by_cases ho : d = s!!"object-src"
      · subst ho
        have hlt : directiveEntry ops s!!"object-src" < defaultLine := by
          rw [directiveEntry]
          exact List.cons_lt_cons_iff.mpr (.inl (by decide))
        by_cases hst : DefaultStands ops s!!"object-src"
        · have hno : ∀ vs, (s!!"object-src", vs) ∉ P := fun vs hv => by
            rw [hpre _ _ (by decide) (by decide)] at hv
            rcases hst with h | h
            · exact hs h.1
            · apply h.2
              rcases hv.1 with h' | h' | h'
              · exact h'.1
              · exact absurd h'.1 (by decide)
              · exact absurd h'.1 (by decide)
          rw [hnone P hno]
          simp [hst, eq_comm]
        · have h7 : Named ops s!!"object-src" := by
            by_contra hn
            exact hst (.inr ⟨rfl, hn⟩)
          have hwd : Wanted ops s!!"object-src" ((sourcesFor s!!"object-src" ops).flatMap words) := .inl ⟨h7, rfl⟩
          rw [hone P (fun x hx => .inl hx) _ ((hpre _ _ (by decide) (by decide)).mpr ⟨hwd, hlt⟩)]
          simp only [Option.some_or, Option.some.injEq, Prod.mk.injEq, true_and, hst, false_and, false_or, not_false_eq_true]
          exact ⟨fun h => h ▸ hwd, fun h => wanted_one hwd h⟩
      · have hst : ¬ DefaultStands ops d := by
          rintro (h | h)
          · exact hs h.1
          · exact ho h.1
        rw [show ([(s!!"script-src", [s!!"'self'"]), (s!!"object-src", [s!!"'self'"])] : List (Str × List Str)).find? (fun e => e.1 = d) = none by
          rw [List.find?_eq_none]
          intro x hx
          simp only [List.mem_cons, List.not_mem_nil, or_false] at hx
          rcases hx with rfl | rfl
          · simpa using fun h => hs h.symm
          · simpa using fun h => ho h.symm]
        rw [Option.none_or, ← List.find?_append]
        simp only [hst, false_and, false_or, not_false_eq_true, true_and]
        rw [← hPQ, ← List.mem_append]
        exact ⟨fun h => List.mem_of_find?_eq_some h, hone _ (fun x hx => List.mem_append.mp hx) vs⟩

example : DefaultStands [.add .scriptSrc s!!"https:", .add .objectSrc s!!"'none'"] s!!"script-src" :=
  .inl ⟨rfl, fun h => absurd h.2 (by decide +kernel)⟩
example : ¬ DefaultStands [.add .scriptSrc s!!"'none'"] s!!"script-src" := by
  rintro (h | h)
  · exact h.2 ⟨⟨.scriptSrc, s!!"'none'", by simp, rfl⟩, by decide +kernel⟩
  · exact absurd h.1 (by decide)

/-- C107 (broken): a source for scripts added to the default is not read, although the calls ask for it, when it starts
with a letter or any other character that comes after the apostrophe. -/
theorem C107_violated_default (c : Char) (s : Str) (hc : Contained (c :: s)) (h : '\'' < c) (hw : isCspWs c = false) :
    cspPolicies (CspOp.run .default [.add .scriptSrc (c :: s)]).value.2
      = [[(s!!"script-src", [s!!"'self'"]), (s!!"object-src", [s!!"'self'"])]] ∧
    Wanted [.add .scriptSrc (c :: s)] s!!"script-src" (words (c :: s)) ∧ words (c :: s) ≠ [s!!"'self'"] := by
  have hv : (CspOp.run .default [.add .scriptSrc (c :: s)]).value.2 = join s!!"; " [defaultLine, s!!"script-src " ++ c :: s] := by
    show join _ (sortStrs [defaultLine, s!!"script-src" ++ s!!" " ++ (c :: s)]) = _
    congr 1
    refine Csp.sorted_unique (Csp.perm_sortStrs _) (Csp.sorted_sortStrs _) ?_
    rw [List.pairwise_pair]
    show ¬ _
    rw [show defaultLine = s!!"script-src " ++ s!!"'self'; object-src 'self'" from rfl, lt_append_left, List.cons_lt_cons_iff]
    rintro (h' | h')
    · exact Char.lt_asymm h h'
    · rw [h'.1] at h; exact Char.lt_irrefl _ h
  refine ⟨?_, .inl ⟨⟨.scriptSrc, c :: s, by simp, rfl⟩, by simp [sourcesFor, CspMethod.directive]⟩, ?_⟩
  · have hcc : Contained (s!!"script-src " ++ c :: s) := contained_append (by unfold Contained; decide) hc
    unfold cspPolicies
    rw [hv, split_of_not_mem (by
      rw [join, join]
      intro hm
      rcases List.mem_append.mp hm with hm | hm
      · revert hm; decide
      · exact (hcc _ hm).2.2 rfl), List.map_cons, List.map_nil, policy_lines]
    show [List.foldl addDirective [] ([defaultLine, s!!"script-src " ++ c :: s].flatMap lineDirectives)].filter _ = _
    rw [List.flatMap_cons, List.flatMap_cons, List.flatMap_nil, line_default, line_contained hcc]
    have : cspDirective (s!!"script-src " ++ c :: s) = some (s!!"script-src", words (c :: s)) := by
      have := (entry_read .scriptSrc (ss := [c :: s]) (by simpa using hc)).2
      simpa [CspMethod.directive, join] using this
    rw [this]
    simp [addDirective]
  · intro hn
    unfold words pieces at hn
    rw [hw] at hn
    have : ∀ p ps, ((c :: p) :: ps).filter (fun x => decide (x ≠ ([] : Str))) = [s!!"'self'"] → False := by
      intro p ps hp
      simp only [ne_eq, reduceCtorEq, not_false_eq_true, decide_true, List.filter_cons_of_pos, List.cons.injEq] at hp
      rw [hp.1.1] at h; exact Char.lt_irrefl _ h
    cases hq : pieces s with
    | nil => rw [hq] at hn; exact this _ _ hn
    | cons p ps => rw [hq] at hn; exact this _ _ hn

example : Contained s!!"https://cdn.example" ∧ '\'' < 'h' := by unfold Contained; decide

/-- C107 (broken): a source added after the policy was applied is not read. -/
theorem C107_violated_again (m : CspMethod) (s t : Str) (hs : Contained s) (ht : Contained t) :
    cspPolicies (CspOp.run (CspOp.run .new [.add m s]).value.1 [.add m t]).value.2 = [[(m.directive, words s)]] ∧
    Wanted [.add m s, .add m t] m.directive (words s ++ words t) := by
  refine ⟨?_, .inl ⟨⟨m, s, by simp, rfl⟩, by simp [sourcesFor]⟩⟩
  have hv : (CspOp.run (CspOp.run .new [.add m s]).value.1 [.add m t]).value.2
      = join s!!"; " [m.directive ++ s!!" " ++ join s!!" " [s], m.directive ++ s!!" " ++ join s!!" " [s, t]] := by
    have : (CspOp.run (CspOp.run .new [.add m s]).value.1 [.add m t]).value.2
        = join s!!"; " (sortStrs [m.directive ++ s!!" " ++ join s!!" " [s], m.directive ++ s!!" " ++ join s!!" " [s, t]]) := by
      simp [CspOp.run, CspOp.step, Csp.insertDirective, Csp.new, Csp.value, Csp.valueLoop, FMap.set, FMap.get, sortStrs]
    rw [this]
    congr 1
    refine Csp.sorted_unique (Csp.perm_sortStrs _) (Csp.sorted_sortStrs _) ?_
    rw [List.pairwise_pair]
    show ¬ _
    rw [lt_append_left]
    simp only [join]
    rw [List.append_assoc]
    intro h
    have : s ++ (s!!" " ++ t) < s ++ [] := by rw [List.append_nil]; exact h
    rw [lt_append_left] at this
    exact absurd this (List.not_lt_nil _)
  have hss : ∀ u ∈ [s], Contained u := by simpa using hs
  have hst : ∀ u ∈ [s, t], Contained u := by
    intro u hu
    simp only [List.mem_cons, List.not_mem_nil, or_false] at hu
    rcases hu with rfl | rfl
    · exact hs
    · exact ht
  rw [hv, policies_join (by
    intro e he
    simp only [List.mem_cons, List.not_mem_nil, or_false] at he
    rcases he with rfl | rfl
    · exact (entry_read m hss).1
    · exact (entry_read m hst).1)]
  rw [List.filterMap_cons, (entry_read m hss).2, List.filterMap_cons, (entry_read m hst).2]
  simp [addDirective]

example : words s!!"b.example" ≠ [] := by decide +kernel

/-- C107 (broken): endpoints to report to are written as JSON, whose commas end the policy: the directives that come after
are not in it. -/
theorem C107_violated_report_to (a b j k : Str) (ha : Contained a) (hj : Contained j) :
    ∃ ps, cspPolicies (CspOp.run .new [.add .defaultSrc a, .reportTo [some (j ++ ',' :: k)], .add .scriptSrc b]).value.2
      = [(s!!"default-src", words a), (s!!"report-to", words j)] :: ps := by
  have hv : (CspOp.run .new [.add .defaultSrc a, .reportTo [some (j ++ ',' :: k)], .add .scriptSrc b]).value.2
      = join s!!"; " [s!!"default-src " ++ a, s!!"report-to " ++ (j ++ ',' :: k), s!!"script-src " ++ b] := by
    obtain ⟨l, h1, h2, h3, -⟩ := C53_value .new (.inl rfl) [.add .defaultSrc a, .reportTo [some (j ++ ',' :: k)], .add .scriptSrc b] _ (.refl _)
    refine Eq.trans h1 ?_
    congr 1
    refine Csp.sorted_unique (h2.trans ?_) (h3 (by simp [mentioned])) ?_
    · rw [show Csp.new.policy ++ entries [.add .defaultSrc a, .reportTo [some (j ++ ',' :: k)], .add .scriptSrc b]
        = [s!!"report-to " ++ (j ++ ',' :: k), s!!"default-src " ++ a, s!!"script-src " ++ b] by
          simp [entries, plainEntries, mentioned, directiveEntry, sourcesFor, Csp.new, CspMethod.directive, join]]
      exact List.Perm.swap _ _ _
    · simp only [List.pairwise_cons, List.mem_cons, List.not_mem_nil, or_false, forall_eq_or_imp, forall_eq, IsEmpty.forall_iff,
        implies_true, List.Pairwise.nil, and_true]
      refine ⟨⟨fun h => ?_, fun h => ?_⟩, fun h => ?_⟩ <;>
      · rcases List.cons_lt_cons_iff.mp h with h | h
        · revert h; decide
        · exact absurd h.1 (by decide)
  have hsplit : split ',' (join s!!"; " [s!!"default-src " ++ a, s!!"report-to " ++ (j ++ ',' :: k), s!!"script-src " ++ b])
      = join s!!"; " [s!!"default-src " ++ a, s!!"report-to " ++ j] :: split ',' (k ++ s!!"; " ++ (s!!"script-src " ++ b)) := by
    rw [show join s!!"; " [s!!"default-src " ++ a, s!!"report-to " ++ (j ++ ',' :: k), s!!"script-src " ++ b]
      = join s!!"; " [s!!"default-src " ++ a, s!!"report-to " ++ j] ++ ',' :: (k ++ s!!"; " ++ (s!!"script-src " ++ b)) by simp [join]]
    refine split_append_sep ?_ _
    simp only [join]
    intro hm
    rcases List.mem_append.mp hm with hm | hm
    · rcases List.mem_append.mp hm with hm | hm
      · rcases List.mem_append.mp hm with hm | hm
        · revert hm; decide
        · exact (ha _ hm).2.2 rfl
      · revert hm; decide
    · rcases List.mem_append.mp hm with hm | hm
      · revert hm; decide
      · exact (hj _ hm).2.2 rfl
  have hd : cspDirective (s!!"default-src " ++ a) = some (s!!"default-src", words a) := by
    have := (entry_read .defaultSrc (ss := [a]) (by simpa using ha)).2
    simpa [CspMethod.directive, join] using this
  have hr : cspDirective (s!!"report-to " ++ j) = some (s!!"report-to", words j) := by
    unfold cspDirective
    rw [if_pos (contained_ascii (contained_append (by unfold Contained; decide) hj)),
      show s!!"report-to " ++ j = s!!"report-to" ++ ' ' :: j from rfl, words_append (by decide), words_word (by decide) (by decide)]
    rfl
  unfold cspPolicies
  rw [hv, hsplit, List.map_cons, policy_join (by
    intro e he
    simp only [List.mem_cons, List.not_mem_nil, or_false] at he
    rcases he with rfl | rfl
    · exact contained_append (by unfold Contained; decide) ha
    · exact contained_append (by unfold Contained; decide) hj)]
  simp only [List.filterMap_cons, List.filterMap_nil, hd, hr]
  refine ⟨((split ',' (k ++ s!!"; " ++ (s!!"script-src " ++ b))).map cspPolicy).filter (fun x => decide (x ≠ [])), ?_⟩
  rw [List.filter_cons]
  simp [addDirective]

example : cspPolicies (CspOp.run .new [.add .defaultSrc s!!"'self'",
    .reportTo [some s!!"{\"group\":null,\"max_age\":10886400,\"endpoints\":[]}"], .add .scriptSrc s!!"https:"]).value.2
    = [[(s!!"default-src", [s!!"'self'"]), (s!!"report-to", [s!!"{\"group\":null"])],
       [(s!!"\"max_age\":10886400", [])],
       [(s!!"\"endpoints\":[]}", []), (s!!"script-src", [s!!"https:"])]] := by decide +kernel

/-- C107 (broken): a semicolon in a source starts another directive. -/
theorem C107_violated_separator (m : CspMethod) (s t n : Str) (vs : List Str) (hs : Contained s) (ht : Contained t)
    (hw : words t = n :: vs) (hn : lower n ≠ m.directive) :
    cspPolicies (CspOp.run .new [.add m (s ++ ';' :: t)]).value.2 = [[(m.directive, words s), (lower n, vs)]] := by
  have hv : (CspOp.run .new [.add m (s ++ ';' :: t)]).value.2 = m.directive ++ s!!" " ++ (s ++ ';' :: t) := by
    simp [CspOp.run, CspOp.step, Csp.insertDirective, Csp.new, Csp.value, Csp.valueLoop, FMap.set, FMap.get, sortStrs, join]
  have he := entry_read m (ss := [s]) (by simpa using hs)
  simp only [join, List.flatMap_cons, List.flatMap_nil, List.append_nil] at he
  have hd : cspDirective t = some (lower n, vs) := by
    unfold cspDirective
    rw [if_pos (contained_ascii ht), hw]
  unfold cspPolicies
  rw [hv, ← List.append_assoc, split_of_not_mem (by
    intro hm
    rcases List.mem_append.mp hm with hm | hm
    · exact (he.1 _ hm).2.2 rfl
    · rcases List.mem_cons.mp hm with hm | hm
      · exact absurd hm (by decide)
      · exact (ht _ hm).2.2 rfl), List.map_cons, List.map_nil]
  unfold cspPolicy
  rw [split_append_sep (fun hm => (he.1 _ hm).2.1 rfl) _, split_of_not_mem (fun hm => (ht _ hm).2.1 rfl)]
  simp only [List.filterMap_cons, List.filterMap_nil, he.2, hd]
  simp [addDirective, hn]

example : words s!!" script-src *" = s!!"script-src" :: [s!!"*"] ∧ lower s!!"script-src" ≠ CspMethod.directive .imgSrc := by
  decide +kernel

end HT
