import Verif.Spec.Security
import Verif.Props.Cache
import Verif.Props.Headers
import Mathlib.Data.List.Forall2

/-! Properties C51 (Strict-Transport-Security), C53 (Content-Security-Policy) and C54 (default
protections). -/

namespace HT

open Spec

/-! ### C51 -/

namespace Hsts

/-- `.parse::<u64>().status(400)`. -/
def num (t : Str) : Res Nat := (Res.ofOption 500 (parseUInt u64Max1 t)).status 400

theorem num_eq_ok {t : Str} {n : Nat} : num t = .ok n ↔ Numeral t n ∧ n < 2 ^ 64 := by
  unfold num
  rw [Res.status_eq_ok_iff, Res.ofOption_eq_ok_iff]
  exact parseUInt_iff

theorem num_clean (t : Str) : (num t).Clean 400 := clean_ofOption _

theorem stripPrefix_none_of_ne {s k v : Str} (h : splitOnce '=' s = some (k, v)) (hk : k ≠ s!!"max-age") :
    stripPrefix s!!"max-age=" s = none := by
  cases hs : stripPrefix s!!"max-age=" s with
  | none => rfl
  | some r =>
    have h1 := stripPrefix_eq_some.mp hs
    have h2 : splitOnce '=' s = some (s!!"max-age", r) := by
      rw [h1]
      exact splitOnce_append (a := s!!"max-age") (by decide) r
    rw [h] at h2
    simp only [Option.some.injEq, Prod.mk.injEq] at h2
    exact absurd h2.1 hk

theorem loop_eq (age : Option Duration) (inc pre : Bool) (parts : List Str) :
    loop age inc pre parts =
      (Res.mapM num ((parts.map trim).filterMap (stripPrefix s!!"max-age="))).map fun ns =>
        ((ns.getLast?.map fun n => (⟨n, 0⟩ : Duration)).or age,
          inc || decide (s!!"includesubdomains" ∈ parts.map trim),
          pre || decide (s!!"preload" ∈ parts.map trim)) := by
  induction parts generalizing age inc pre with
  | nil => simp [loop, Res.map]
  | cons s rest ih =>
    unfold loop
    rw [List.map_cons, List.filterMap_cons]
    by_cases h1 : trim s = s!!"includesubdomains"
    · rw [if_pos h1, ih, h1]
      have : stripPrefix s!!"max-age=" s!!"includesubdomains" = none := by decide
      rw [this]
      congr 1
      funext ns
      have : s!!"preload" ≠ s!!"includesubdomains" := by decide
      simp [this]
    · rw [if_neg h1]
      by_cases h2 : trim s = s!!"preload"
      · rw [if_pos h2, ih, h2]
        have : stripPrefix s!!"max-age=" s!!"preload" = none := by decide
        rw [this]
        congr 1
        funext ns
        have : s!!"includesubdomains" ≠ s!!"preload" := by decide
        simp [this]
      · rw [if_neg h2]
        have e1 : decide (s!!"includesubdomains" ∈ trim s :: List.map trim rest)
            = decide (s!!"includesubdomains" ∈ List.map trim rest) := by
          rw [Bool.eq_iff_iff, decide_eq_true_eq, decide_eq_true_eq, List.mem_cons]
          exact ⟨fun h => h.resolve_left (Ne.symm h1), .inr⟩
        have e2 : decide (s!!"preload" ∈ trim s :: List.map trim rest)
            = decide (s!!"preload" ∈ List.map trim rest) := by
          rw [Bool.eq_iff_iff, decide_eq_true_eq, decide_eq_true_eq, List.mem_cons]
          exact ⟨fun h => h.resolve_left (Ne.symm h2), .inr⟩
        rw [e1, e2]
        cases hs : splitOnce '=' (trim s) with
        | none =>
          have : stripPrefix s!!"max-age=" (trim s) = none := by
            cases hp : stripPrefix s!!"max-age=" (trim s) with
            | none => rfl
            | some r =>
              have hm := splitOnce_eq_none.mp hs
              rw [stripPrefix_eq_some.mp hp] at hm
              exact absurd (List.mem_append_left _ (by decide)) hm
          rw [this]
          exact ih _ _ _
        | some kv =>
          obtain ⟨k, v⟩ := kv
          by_cases hk : k = s!!"max-age"
          · have hp : stripPrefix s!!"max-age=" (trim s) = some v := by
              rw [stripPrefix_eq_some, (splitOnce_eq_some hs).1, hk]
              rfl
            rw [hp]
            simp only [if_pos hk]
            rw [Res.mapM_cons]
            show (num v).bind _ = _
            rcases num_clean v with ⟨n, hn⟩ | hn
            · rw [hn]
              simp only [Res.bind]
              rw [ih]
              cases hm : Res.mapM num (List.filterMap (stripPrefix s!!"max-age=") (List.map trim rest)) with
              | ok ns =>
                simp only [Res.map]
                cases ns using List.reverseRecOn with
                | nil => simp
                | append_singleton l b =>
                  rw [← List.cons_append, List.getLast?_append, List.getLast?_append]
                  simp
              | err e => rfl
              | panic => rfl
            · rw [hn]; rfl
          · rw [stripPrefix_none_of_ne hs hk]
            simp only [if_neg hk]
            exact ih _ _ _

theorem num_all {l : List Str} (h : ∀ t ∈ l, IsU64 t) : ∃ ns, Res.mapM num l = .ok ns := by
  induction l with
  | nil => exact ⟨[], by simp⟩
  | cons t l ih =>
    obtain ⟨n, hn⟩ := h t (by simp)
    obtain ⟨ns, hns⟩ := ih fun t ht => h t (by simp [ht])
    exact ⟨n :: ns, by rw [Res.mapM_cons, num_eq_ok.mpr hn, hns]; rfl⟩

theorem parse_eq (v : Str) :
    parse v = (Res.mapM num (maxAges v)).bind fun ns =>
      match ns.getLast? with
      | some n => .ok ⟨⟨n, 0⟩, decide (s!!"includesubdomains" ∈ semiItems v), decide (s!!"preload" ∈ semiItems v)⟩
      | none => .err 400 := by
  unfold parse
  rw [loop_eq]
  show Res.bind (Res.map _ (Res.mapM num (maxAges v))) _ = _
  cases Res.mapM num (maxAges v) with
  | ok ns =>
    simp only [Res.map, Res.bind]
    cases ns.getLast? <;> simp [semiItems]
  | err e => rfl
  | panic => rfl

end Hsts

/-- C51 (reading): reading looks at the last value; it gives the policy the value says (last
`max-age`, the two flags), and when the value has no `max-age` or a malformed one it fails with 400.
There is no other outcome, in particular no panic. -/
theorem C51_reads (h : Headers) :
    (h.get Hsts.NAME = none → Hsts.fromHeaders h = .ok none) ∧
    ∀ vs v, h.get Hsts.NAME = some (vs ++ [v]) →
      (∀ p, Hsts.fromHeaders h = .ok (some p) ↔ HstsSays v p) ∧
      (Hsts.fromHeaders h = .err 400 ↔ maxAges v = [] ∨ ∃ t ∈ maxAges v, ¬ IsU64 t) ∧
      ((∃ p, Hsts.fromHeaders h = .ok (some p)) ∨ Hsts.fromHeaders h = .err 400) := by
  refine ⟨fun hn => readLast_none hn, fun vs v hv => ?_⟩
  have he : Hsts.fromHeaders h = (Hsts.parse v).map some := readLast_snoc hv
  rw [he, Hsts.parse_eq]
  have hc : (Res.mapM Hsts.num (maxAges v)).Clean 400 := Res.mapM_clean fun t _ => Hsts.num_clean t
  rcases hc with ⟨ns, hns⟩ | hns
  · have hf := Res.mapM_eq_ok_iff.mp hns
    have hall : ∀ t ∈ maxAges v, IsU64 t := by
      intro t ht
      obtain ⟨n, hn, htn⟩ := forall₂_left hf t ht
      exact ⟨n, Hsts.num_eq_ok.mp htn⟩
    rw [hns]
    simp only [Res.bind]
    rcases nil_or_snoc ns with rfl | ⟨ms, n, rfl⟩
    · have hnil : maxAges v = [] := by
        cases hm : maxAges v with
        | nil => rfl
        | cons a b => rw [hm] at hf; cases hf
      simp only [List.getLast?_nil, Res.map]
      refine ⟨fun p => ⟨(fun h => nomatch h), fun hp => ?_⟩, ⟨fun _ => .inl hnil, fun _ => trivial⟩, .inr trivial⟩
      obtain ⟨_, ⟨t, ht, _⟩, _⟩ := hp
      rw [hnil] at ht
      cases ht
    · have hsnoc : ∃ as t, maxAges v = as ++ [t] ∧ Hsts.num t = .ok n := by
        rcases nil_or_snoc (maxAges v) with hm | ⟨as, t, hm⟩
        · rw [hm] at hf
          have := hf.length_eq
          simp at this
        · refine ⟨as, t, hm, ?_⟩
          rw [hm] at hf
          have hr := List.rel_reverse hf
          simp only [List.reverse_append, List.reverse_singleton, List.singleton_append] at hr
          cases hr with | cons h _ => exact h
      obtain ⟨as, t, hm, ht⟩ := hsnoc
      have hlast : (ms ++ [n]).getLast? = some n := by simp
      rw [hlast]
      simp only [Res.map]
      refine ⟨fun p => ?_, ⟨(fun h => nomatch h), fun h => ?_⟩, .inl ⟨_, rfl⟩⟩
      · constructor
        · intro h
          simp only [Res.ok.injEq, Option.some.injEq] at h
          subst h
          refine ⟨hall, ⟨t, by rw [hm]; simp, (Hsts.num_eq_ok.mp ht).1⟩, rfl, ?_, ?_⟩ <;> simp
        · rintro ⟨_, ⟨t', ht', hnum⟩, hnan, hinc, hpre⟩
          rw [hm] at ht'
          have : t' = t := by simpa using ht'.symm
          subst this
          have hn := numeral_unique hnum (Hsts.num_eq_ok.mp ht).1
          obtain ⟨⟨a, b⟩, c, d⟩ := p
          simp only at hn hnan hinc hpre
          subst hn hnan
          simp only [Res.ok.injEq, Option.some.injEq, Hsts.mk.injEq, true_and]
          exact ⟨Bool.eq_iff_iff.mpr (decide_eq_true_iff.trans hinc.symm),
            Bool.eq_iff_iff.mpr (decide_eq_true_iff.trans hpre.symm)⟩
      · rcases h with h | ⟨t, ht, hnot⟩
        · rw [hm] at h; simp at h
        · exact absurd (hall t ht) hnot
  · rw [hns]
    simp only [Res.bind, Res.map]
    have hbad : ∃ t ∈ maxAges v, ¬ IsU64 t := by
      by_contra hcon
      push Not at hcon
      obtain ⟨ns, hns'⟩ := Hsts.num_all hcon
      rw [hns] at hns'
      cases hns'
    refine ⟨fun p => ⟨(fun h => nomatch h), fun hp => ?_⟩, ⟨fun _ => .inr hbad, fun _ => trivial⟩, .inr trivial⟩
    obtain ⟨t, ht, hn⟩ := hbad
    exact absurd (hp.1 t ht) hn

example : HstsSays s!!"max-age=30; preload;x" ⟨⟨30, 0⟩, false, true⟩ := by
  have := (C51_reads [(Hsts.NAME, [s!!"max-age=30; preload;x"])]).2 [] _ rfl
  exact (this.1 _).mp (by decide +kernel)
example : Hsts.fromHeaders [(Hsts.NAME, [s!!"max-age=1;includesubdomains;max-age=7"])]
    = .ok (some ⟨⟨7, 0⟩, true, false⟩) := by decide +kernel
example : Hsts.fromHeaders [(Hsts.NAME, [s!!"preload"])] = .err 400 := by decide +kernel
example : Hsts.fromHeaders [(Hsts.NAME, [s!!"max-age=1;max-age=x"])] = .err 400 := by decide +kernel

theorem Hsts.trim_age (n : Nat) : trim (s!!"max-age=" ++ dec n) = s!!"max-age=" ++ dec n := by
  apply trim_of_trimmed
  refine ⟨fun c hc => ?_, fun c hc => ?_⟩
  · have : c = 'm' := by simpa using hc.symm
    subst this; decide
  · rw [List.getLast?_append_of_ne_nil _ (dec_ne_nil n)] at hc
    exact (trimmed_dec n).2 c hc

theorem Hsts.parse_headerValue (p : Hsts) (hs : p.maxAge.secs < 2 ^ 64) :
    Hsts.parse p.headerValue = .ok ⟨⟨p.maxAge.secs, 0⟩, false, p.preload⟩ := by
  have hd : ';' ∉ dec p.maxAge.secs := not_mem_dec (by decide) _
  have ha : ';' ∉ s!!"max-age=" ++ dec p.maxAge.secs := by
    rw [List.mem_append, not_or]; exact ⟨by decide, hd⟩
  have hsp : split ';' p.headerValue = (s!!"max-age=" ++ dec p.maxAge.secs) ::
      ((if p.includeSubdomains then [s!!"includeSubdomains"] else []) ++
       (if p.preload then [s!!"preload"] else [])) := by
    unfold Hsts.headerValue
    show split ';' (if p.preload then (if p.includeSubdomains then (s!!"max-age=" ++ dec p.maxAge.secs) ++ s!!";includeSubdomains" else (s!!"max-age=" ++ dec p.maxAge.secs)) ++ s!!";preload" else (if p.includeSubdomains then (s!!"max-age=" ++ dec p.maxAge.secs) ++ s!!";includeSubdomains" else (s!!"max-age=" ++ dec p.maxAge.secs))) = _
    generalize hx : s!!"max-age=" ++ dec p.maxAge.secs = x at ha
    cases p.includeSubdomains <;> cases p.preload
    · simp only [Bool.false_eq_true, if_false]
      exact split_of_not_mem ha
    · simp only [Bool.false_eq_true, if_false, if_true]
      rw [show x ++ s!!";preload" = x ++ ';' :: s!!"preload" from rfl, split_append_sep ha]
      rfl
    · simp only [Bool.false_eq_true, if_false, if_true]
      rw [show x ++ s!!";includeSubdomains" = x ++ ';' :: s!!"includeSubdomains" from rfl, split_append_sep ha]
      rfl
    · simp only [if_true]
      rw [List.append_assoc, show x ++ (s!!";includeSubdomains" ++ s!!";preload") = x ++ ';' :: s!!"includeSubdomains;preload" from rfl, split_append_sep ha]
      rfl
  have hitems : semiItems p.headerValue = (s!!"max-age=" ++ dec p.maxAge.secs) ::
      ((if p.includeSubdomains then [s!!"includeSubdomains"] else []) ++
       (if p.preload then [s!!"preload"] else [])) := by
    unfold semiItems
    rw [hsp, List.map_cons, Hsts.trim_age]
    congr 1
    cases p.includeSubdomains <;> cases p.preload <;> decide +kernel
  have hages : maxAges p.headerValue = [dec p.maxAge.secs] := by
    unfold maxAges
    rw [hitems, List.filterMap_cons, stripPrefix_append]
    show dec p.maxAge.secs :: _ = _
    congr 1
    cases p.includeSubdomains <;> cases p.preload <;> decide +kernel
  have hn : Hsts.num (dec p.maxAge.secs) = .ok p.maxAge.secs :=
    Hsts.num_eq_ok.mpr ⟨numeral_dec _, hs⟩
  rw [Hsts.parse_eq, hages, hitems, Res.mapM_cons, hn]
  simp only [Res.bind, Res.mapM_nil, List.getLast?_singleton, List.mem_cons]
  have h1 : ¬ (s!!"includesubdomains" = s!!"max-age=" ++ dec p.maxAge.secs) := by
    intro h; have := congrArg List.head? h; simp at this
  have h2 : ¬ (s!!"preload" = s!!"max-age=" ++ dec p.maxAge.secs) := by
    intro h; have := congrArg List.head? h; simp at this
  simp only [h1, h2, false_or]
  cases p.includeSubdomains <;> cases p.preload <;> rfl

/-- C51 (what is read back): for every policy with a 64-bit number of seconds, writing and reading
back gives the same whole seconds and the same preload flag, and never includeSubDomains. -/
theorem C51_reads_back (p : Hsts) (hs : p.maxAge.secs < 2 ^ 64) :
    RoundTrips Hsts.NAME (.ok p.headerValue) Hsts.fromHeaders ⟨⟨p.maxAge.secs, 0⟩, false, p.preload⟩ := by
  refine roundTrips_readLast p.headerValue rfl ?_ (Hsts.parse_headerValue p hs)
  have h1 : isAscii (s!!"max-age=" ++ dec p.maxAge.secs) = true := by
    rw [isAscii_append, isAscii_dec]; decide
  unfold Hsts.headerValue
  have h1' : isAscii (s!!"max-age=" ++ natStr 10 p.maxAge.secs) = true := h1
  cases p.includeSubdomains <;> cases p.preload <;> 
    simp only [Bool.false_eq_true, if_false, if_true, isAscii_append (s!!"max-age=" ++ natStr 10 p.maxAge.secs),
      isAscii_append (s!!"max-age=" ++ natStr 10 p.maxAge.secs ++ s!!";includeSubdomains"), h1'] <;> decide

example : Hsts.fromHeaders [(Hsts.NAME, [(⟨⟨9, 5⟩, true, true⟩ : Hsts).headerValue])] = .ok (some ⟨⟨9, 0⟩, false, true⟩) := by
  decide +kernel

/-- C51 (round-trip), for policies of whole seconds that do not include subdomains. Missing:
includeSubDomains, see `C51_violated_include_subdomains`. -/
theorem C51_round_trip_partial (p : Hsts) (hs : p.maxAge.secs < 2 ^ 64) (hn : p.maxAge.nanos = 0)
    (hi : p.includeSubdomains = false) :
    RoundTrips Hsts.NAME (.ok p.headerValue) Hsts.fromHeaders p := by
  have := C51_reads_back p hs
  rwa [← hn, ← hi] at this

example : RoundTrips Hsts.NAME (.ok (Hsts.headerValue ⟨⟨31536000, 0⟩, false, true⟩)) Hsts.fromHeaders
    ⟨⟨31536000, 0⟩, false, true⟩ := C51_round_trip_partial _ (by decide) rfl rfl

/-- The default policy is one year with preload and without subdomains, is written so, and is read back. -/
theorem C51_default :
    Hsts.default.maxAge.secs = 365 * 24 * 60 * 60 ∧ Hsts.default.maxAge.nanos = 0 ∧
      Hsts.default.includeSubdomains = false ∧ Hsts.default.preload = true ∧
      Hsts.default.headerValue = s!!"max-age=31536000;preload" ∧
      RoundTrips Hsts.NAME (.ok Hsts.default.headerValue) Hsts.fromHeaders Hsts.default :=
  ⟨rfl, rfl, rfl, rfl, by decide +kernel, C51_round_trip_partial Hsts.default (by decide) rfl rfl⟩

example : RoundTrips Hsts.NAME (.ok Hsts.default.headerValue) Hsts.fromHeaders Hsts.default :=
  C51_round_trip_partial _ (by decide) rfl rfl

/-- C51 is violated: no policy that includes subdomains is read back, because `includeSubdomains`
is written and only `includesubdomains` is recognised. -/
theorem C51_violated_include_subdomains (p : Hsts) (hi : p.includeSubdomains = true)
    (hs : p.maxAge.secs < 2 ^ 64) :
    ¬ RoundTrips Hsts.NAME (.ok p.headerValue) Hsts.fromHeaders p := by
  intro h
  obtain ⟨h1, v, ha, _, _, hr⟩ := h []
  obtain ⟨h2, v', ha', _, _, hr'⟩ := C51_reads_back p hs []
  rw [ha] at ha'
  obtain rfl := Res.ok.inj ha'
  rw [hr] at hr'
  simp only [Res.ok.injEq, Option.some.injEq] at hr'
  have := congrArg Hsts.includeSubdomains hr'
  rw [hi] at this
  cases this

example : (⟨⟨1, 0⟩, true, false⟩ : Hsts).headerValue = s!!"max-age=1;includeSubdomains" := by decide +kernel

/-! ### C53 -/

namespace Csp

theorem sorted_sortStrs (xs : List Str) : (sortStrs xs).Pairwise (· ≤ ·) := by
  have : IsTrans Str (· ≤ ·) := ⟨fun _ _ _ => List.le_trans⟩
  have : Std.Total (α := Str) (· ≤ ·) := ⟨fun a b => List.le_total a b⟩
  exact List.pairwise_insertionSort _ _

theorem perm_sortStrs (xs : List Str) : (sortStrs xs).Perm xs := List.perm_insertionSort _ _

/-- A sorted list is determined by its elements. -/
theorem sorted_unique {xs ys : List Str} (hp : xs.Perm ys) (hx : xs.Pairwise (· ≤ ·))
    (hy : ys.Pairwise (· ≤ ·)) : xs = ys :=
  hp.eq_of_pairwise (fun _ _ _ _ => List.le_antisymm) hx hy

def entry (e : Str × List Str) : Str := e.1 ++ s!!" " ++ join s!!" " e.2

theorem valueLoop_perm (pol : List Str) (ds : List (Str × List Str)) :
    (valueLoop pol ds).Perm (pol ++ ds.map entry) := by
  induction ds generalizing pol with
  | nil => simp [valueLoop]
  | cons e ds ih =>
    obtain ⟨d, ss⟩ := e
    unfold valueLoop
    refine (ih _).trans ?_
    refine ((perm_sortStrs _).append_right _).trans ?_
    rw [List.append_assoc]
    exact List.Perm.refl _

theorem valueLoop_sorted (pol : List Str) (ds : List (Str × List Str)) (h : ds ≠ []) :
    (valueLoop pol ds).Pairwise (· ≤ ·) := by
  induction ds generalizing pol with
  | nil => exact absurd rfl h
  | cons e ds ih =>
    obtain ⟨d, ss⟩ := e
    unfold valueLoop
    by_cases hd : ds = []
    · subst hd
      exact sorted_sortStrs _
    · exact ih _ hd

theorem run_append (c : Csp) (a b : List CspOp) : CspOp.run c (a ++ b) = CspOp.run (CspOp.run c a) b :=
  List.foldl_append ..

theorem sourcesFor_append (d : Str) (a b : List CspOp) :
    sourcesFor d (a ++ b) = sourcesFor d a ++ sourcesFor d b := List.filterMap_append ..

/-- What the fields hold after a sequence of calls on a new policy. -/
theorem run_inv (c : Csp) (hc : c.directives = []) (ops : List CspOp) :
    (CspOp.run c ops).policy = c.policy ++ plainEntries ops ∧
    (CspOp.run c ops).reportOnly = (c.reportOnly || ops.any asksReportOnly) ∧
    FMap.WF (CspOp.run c ops).directives ∧
    (∀ d, FMap.get (CspOp.run c ops).directives d
      = if d ∈ mentioned ops then some (sourcesFor d ops) else none) := by
  induction ops using List.reverseRecOn with
  | nil => simp [CspOp.run, plainEntries, hc, FMap.WF, FMap.keys, mentioned]
  | append_singleton ops op ih =>
    obtain ⟨h1, h2, h3, h4⟩ := ih
    rw [run_append]
    generalize hr : CspOp.run c ops = r at *
    show (CspOp.step r op).policy = _ ∧ (CspOp.step r op).reportOnly = _ ∧
      FMap.WF (CspOp.step r op).directives ∧ ∀ d, FMap.get (CspOp.step r op).directives d = _
    have hm : mentioned (ops ++ [op]) = mentioned ops ++ mentioned [op] := List.filterMap_append ..
    have hp : plainEntries (ops ++ [op]) = plainEntries ops ++ plainEntries [op] := List.flatMap_append ..
    have hs : ∀ d, sourcesFor d (ops ++ [op]) = sourcesFor d ops ++ sourcesFor d [op] :=
      fun d => List.filterMap_append ..
    have ha : (ops ++ [op]).any asksReportOnly = (ops.any asksReportOnly || asksReportOnly op) := by simp
    rw [hp, ha]
    cases op with
    | add m s =>
      refine ⟨by simp [CspOp.step, insertDirective, h1, plainEntries],
        by simp [CspOp.step, insertDirective, h2, asksReportOnly], FMap.wf_set h3 _ _, fun d => ?_⟩
      simp only [CspOp.step, insertDirective]
      rw [FMap.get_set, hm, hs]
      by_cases hd : m.directive = d
      · subst hd
        have hmem : m.directive ∈ mentioned ops ++ mentioned [CspOp.add m s] :=
          List.mem_append_right _ (by simp [mentioned])
        rw [if_pos rfl, if_pos hmem, h4]
        have : sourcesFor m.directive [CspOp.add m s] = [s] := by simp [sourcesFor]
        rw [this]
        by_cases hin : m.directive ∈ mentioned ops
        · rw [if_pos hin]; rfl
        · rw [if_neg hin]
          have : sourcesFor m.directive ops = [] := by
            unfold sourcesFor
            rw [List.filterMap_eq_nil_iff]
            intro op hop
            cases op with
            | add m' s' =>
              simp only [ite_eq_right_iff, reduceCtorEq, imp_false]
              intro he
              exact hin (List.mem_filterMap.mpr ⟨_, hop, by simp [he]⟩)
            | _ => rfl
          rw [this]; rfl
      · rw [if_neg hd, h4]
        have e1 : sourcesFor d [CspOp.add m s] = [] := by simp [sourcesFor, hd]
        have e2 : d ∈ mentioned ops ++ mentioned [CspOp.add m s] ↔ d ∈ mentioned ops := by
          simp [mentioned, Ne.symm hd]
        rw [e1, List.append_nil]
        simp only [e2]
    | blockAllMixedContent =>
      refine ⟨by simp [CspOp.step, blockAllMixedContent, h1, plainEntries],
        by simp [CspOp.step, blockAllMixedContent, h2, asksReportOnly], h3, fun d => ?_⟩
      have e1 : mentioned (ops ++ [_]) = mentioned ops := hm.trans (List.append_nil _)
      have e2 : sourcesFor d (ops ++ [_]) = sourcesFor d ops := (hs d).trans (List.append_nil _)
      rw [e1, e2]; exact h4 d
    | upgradeInsecureRequests =>
      refine ⟨by simp [CspOp.step, upgradeInsecureRequests, h1, plainEntries],
        by simp [CspOp.step, upgradeInsecureRequests, h2, asksReportOnly], h3, fun d => ?_⟩
      have e1 : mentioned (ops ++ [_]) = mentioned ops := hm.trans (List.append_nil _)
      have e2 : sourcesFor d (ops ++ [_]) = sourcesFor d ops := (hs d).trans (List.append_nil _)
      rw [e1, e2]; exact h4 d
    | reportTo es =>
      refine ⟨by simp [CspOp.step, reportTo, h1, plainEntries],
        by simp [CspOp.step, reportTo, h2, asksReportOnly], h3, fun d => ?_⟩
      have e1 : mentioned (ops ++ [_]) = mentioned ops := hm.trans (List.append_nil _)
      have e2 : sourcesFor d (ops ++ [_]) = sourcesFor d ops := (hs d).trans (List.append_nil _)
      rw [e1, e2]; exact h4 d
    | reportOnly =>
      refine ⟨by simp [CspOp.step, setReportOnly, h1, plainEntries],
        by simp [CspOp.step, setReportOnly, asksReportOnly], h3, fun d => ?_⟩
      have e1 : mentioned (ops ++ [_]) = mentioned ops := hm.trans (List.append_nil _)
      have e2 : sourcesFor d (ops ++ [_]) = sourcesFor d ops := (hs d).trans (List.append_nil _)
      rw [e1, e2]; exact h4 d

/-- The directives after a sequence of calls are the mentioned ones, each with its sources. -/
theorem run_directives (c : Csp) (hc : c.directives = []) (ops : List CspOp) :
    (CspOp.run c ops).directives.Perm ((mentioned ops).dedup.map fun d => (d, sourcesFor d ops)) := by
  obtain ⟨_, _, h3, h4⟩ := run_inv c hc ops
  have hk : FMap.keys ((mentioned ops).dedup.map fun d => (d, sourcesFor d ops)) = (mentioned ops).dedup := by
    unfold FMap.keys
    rw [List.map_map]
    exact List.map_id _
  have hwf : FMap.WF ((mentioned ops).dedup.map fun d => (d, sourcesFor d ops)) := by
    unfold FMap.WF
    rw [hk]
    exact List.nodup_dedup _
  refine FMap.perm_of_get h3 hwf fun d => ?_
  rw [h4]
  by_cases hd : d ∈ mentioned ops
  · rw [if_pos hd]
    exact ((FMap.get_eq_some_iff hwf d _).mpr (List.mem_map.mpr ⟨d, List.mem_dedup.mpr hd, rfl⟩)).symm
  · rw [if_neg hd]
    refine ((FMap.get_eq_none_iff _ d).mpr ?_).symm
    rw [hk, List.mem_dedup]
    exact hd

theorem join_length (sep : Str) (xs : List Str) (h : xs ≠ []) :
    (join sep xs).length + sep.length = (xs.map fun x => x.length + sep.length).sum := by
  induction xs with
  | nil => exact absurd rfl h
  | cons x xs ih =>
    cases xs with
    | nil => simp [join]
    | cons y ys =>
      have := ih (by simp)
      rw [List.map_cons, List.sum_cons, ← this]
      simp [join]
      omega

end Csp

/-- C53 (complete and sorted): after any sequence of building calls on a new or default policy, and
whatever order the hash map is visited in, the value is the `; `-join of a list that holds the starting
entries, every source-less entry and exactly one entry per mentioned directive with all its sources in
the order given, and nothing else; the list is sorted if a directive was given, and is in the order of
the calls otherwise. -/
theorem C53_value (base : Csp) (hb : base = .new ∨ base = .default) (ops : List CspOp)
    (ds : FMap Str (List Str)) (hds : (CspOp.run base ops).directives.Perm ds) :
    ∃ l, ({ CspOp.run base ops with directives := ds } : Csp).value.2 = join s!!"; " l ∧
      l.Perm (base.policy ++ entries ops) ∧
      (mentioned ops ≠ [] → l.Pairwise (· ≤ ·)) ∧
      (mentioned ops = [] → l = base.policy ++ entries ops) := by
  have hc : base.directives = [] := by rcases hb with rfl | rfl <;> rfl
  obtain ⟨h1, _, _, _⟩ := Csp.run_inv base hc ops
  have hperm := Csp.run_directives base hc ops
  refine ⟨Csp.valueLoop (CspOp.run base ops).policy ds, rfl, ?_, fun hm => ?_, fun hm => ?_⟩
  · refine (Csp.valueLoop_perm _ _).trans ?_
    rw [h1, List.append_assoc]
    unfold entries
    refine List.Perm.append_left _ (List.Perm.append_left _ ?_)
    have := (hds.symm.trans hperm).map Csp.entry
    rw [List.map_map] at this
    exact this
  · refine Csp.valueLoop_sorted _ _ fun hnil => hm ?_
    have := hds.symm.trans hperm
    rw [hnil] at this
    have h2 := this.symm.eq_nil
    rw [List.map_eq_nil_iff, List.dedup_eq_nil] at h2
    exact h2
  · have h2 : ds = [] := by
      have := hds.symm.trans hperm
      rw [hm] at this
      exact this.eq_nil
    rw [h2, h1]
    unfold entries
    rw [hm]
    simp [Csp.valueLoop]

example : (CspOp.run .new [.add .scriptSrc s!!"'self'", .upgradeInsecureRequests, .add .imgSrc s!!"data:",
    .add .scriptSrc s!!"https:"]).value.2 = s!!"img-src data:; script-src 'self' https:; upgrade-insecure-requests" := by
  decide +kernel

/-- C53 (deterministic): the value does not depend on the order in which the hash map is visited. -/
theorem C53_hash_order (c : Csp) (ds ds' : FMap Str (List Str)) (hp : ds.Perm ds') :
    ({ c with directives := ds } : Csp).value.2 = ({ c with directives := ds' } : Csp).value.2 := by
  show join _ (Csp.valueLoop c.policy ds) = join _ (Csp.valueLoop c.policy ds')
  by_cases h : ds = []
  · subst h
    rw [hp.symm.eq_nil]
  · have h' : ds' ≠ [] := fun hn => h (by rw [hn] at hp; exact hp.eq_nil)
    rw [Csp.sorted_unique (((Csp.valueLoop_perm c.policy ds).trans ((hp.map _).append_left _)).trans
      (Csp.valueLoop_perm c.policy ds').symm) (Csp.valueLoop_sorted _ _ h) (Csp.valueLoop_sorted _ _ h')]

example : ({ Csp.new with directives := [(s!!"a", [s!!"x"]), (s!!"b", [s!!"y"])] } : Csp).value.2 =
    ({ Csp.new with directives := [(s!!"b", [s!!"y"]), (s!!"a", [s!!"x"])] } : Csp).value.2 := by decide +kernel

/-- C53 (applying): the value is stored, as the only value, under the enforcing or the report-only
name according to whether report-only was asked for, and no other header changes; a value that is not
ASCII makes the call panic. -/
theorem C53_apply (base : Csp) (hb : base = .new ∨ base = .default) (ops : List CspOp) (h : Headers) :
    let c := CspOp.run base ops
    let name := if ops.any asksReportOnly then s!!"content-security-policy-report-only"
      else s!!"content-security-policy"
    (Ascii c.value.2 → ∃ h', (c.apply h).2 = .ok h' ∧
      ∀ n, h'.get n = if n = name then some [c.value.2] else h.get n) ∧
    (¬ Ascii c.value.2 → (c.apply h).2 = .panic) := by
  intro c name
  have hc : base.directives = [] := by rcases hb with rfl | rfl <;> rfl
  have hr : base.reportOnly = false := by rcases hb with rfl | rfl <;> rfl
  obtain ⟨_, h2, _, _⟩ := Csp.run_inv base hc ops
  rw [hr, Bool.false_or] at h2
  have hn : HeaderName.ofStr c.headerName = .ok name := by
    show HeaderName.ofStr (if (CspOp.run base ops).reportOnly then _ else _) = .ok (if _ then _ else _)
    rw [h2]
    cases ops.any asksReportOnly <;> decide +kernel
  have happ : (c.apply h).2 = (match (Headers.insert h name (.str c.value.2)).2 with
      | .ok _ => .ok (Headers.insert h name (.str c.value.2)).1
      | _ => .panic) := by
    unfold Csp.apply
    simp only [Headers.insertStr, hn]
    cases (h.insert name (HvArg.str c.value.2)).2 <;> rfl
  constructor
  · intro ha
    have hv : HeaderValue.fromStr c.value.2 = .ok c.value.2 := if_pos ((spec_ascii_iff _).mp ha)
    refine ⟨FMap.set h name [c.value.2], ?_, fun n => ?_⟩
    · rw [happ]
      simp [Headers.insert, HvArg.toValues, hv]
    · unfold Headers.get
      rw [FMap.get_set]
      by_cases hnn : name = n
      · subst hnn; simp
      · rw [if_neg hnn, if_neg (Ne.symm hnn)]
  · intro ha
    have hv : HeaderValue.fromStr c.value.2 = .err 500 := if_neg fun h => ha ((spec_ascii_iff _).mpr h)
    rw [happ]
    simp [Headers.insert, HvArg.toValues, hv]

example : ((CspOp.run .new [.add .scriptSrc s!!"'self'", .reportOnly]).apply []).2 =
    .ok (oneHeader s!!"content-security-policy-report-only" s!!"script-src 'self'") := by decide +kernel

/-- C53 is violated when a policy is applied again: once a directive was given, the second
application always stores a different value, because the first one left its entries in the policy. -/
theorem C53_violated_twice (base : Csp) (hb : base = .new ∨ base = .default) (ops : List CspOp)
    (hm : mentioned ops ≠ []) :
    (CspOp.run base ops).value.1.value.2 ≠ (CspOp.run base ops).value.2 := by
  have hc : base.directives = [] := by rcases hb with rfl | rfl <;> rfl
  generalize hr : CspOp.run base ops = c
  have hne : c.directives ≠ [] := by
    have := Csp.run_directives base hc ops
    rw [hr] at this
    intro hn
    rw [hn] at this
    have h2 := this.symm.eq_nil
    rw [List.map_eq_nil_iff, List.dedup_eq_nil] at h2
    exact hm h2
  intro he
  have h1 : join s!!"; " (Csp.valueLoop (Csp.valueLoop c.policy c.directives) c.directives)
      = join s!!"; " (Csp.valueLoop c.policy c.directives) := he
  have hp1 := Csp.valueLoop_perm c.policy c.directives
  have hp2 := Csp.valueLoop_perm (Csp.valueLoop c.policy c.directives) c.directives
  have hn1 : Csp.valueLoop c.policy c.directives ≠ [] := by
    intro hn; rw [hn] at hp1
    have := hp1.symm.eq_nil
    simp only [List.append_eq_nil_iff, List.map_eq_nil_iff] at this
    exact hne this.2
  have hn2 : Csp.valueLoop (Csp.valueLoop c.policy c.directives) c.directives ≠ [] := by
    intro hn; rw [hn] at hp2
    have := hp2.symm.eq_nil
    simp only [List.append_eq_nil_iff] at this
    exact hn1 this.1
  have l1 := Csp.join_length s!!"; " _ hn1
  have l2 := Csp.join_length s!!"; " _ hn2
  rw [h1, l1] at l2
  have hsum := (hp2.map fun x : Str => x.length + (s!!"; ").length).sum_nat
  rw [← l2, List.map_append, List.sum_append] at hsum
  have hz : ((c.directives.map Csp.entry).map fun x => x.length + (s!!"; ").length).sum = 0 := by omega
  obtain ⟨e, es, hd⟩ := List.exists_cons_of_ne_nil hne
  rw [hd] at hz
  simp at hz

/-- The documentation's example. -/
def cspExample : List CspOp :=
  [.add .defaultSrc Source.sameOrigin.asRef, .add .defaultSrc s!!"areweasyncyet.rs",
   .add .scriptSrc Source.sameOrigin.asRef, .add .scriptSrc Source.unsafeInline.asRef,
   .add .objectSrc Source.none.asRef, .add .baseUri Source.none.asRef, .upgradeInsecureRequests]

example : (CspOp.run .new cspExample).value.2 =
    s!!"base-uri 'none'; default-src 'self' areweasyncyet.rs; object-src 'none'; script-src 'self' 'unsafe-inline'; upgrade-insecure-requests" := by
  decide +kernel
example : mentioned cspExample ≠ [] := by decide
example : (CspOp.run .new [.add .imgSrc s!!"*"]).value.1.value.2 = s!!"img-src *; img-src *" := by decide +kernel
example : ((CspOp.run .default [.reportOnly]).apply []).2
    = .ok [(s!!"content-security-policy-report-only", [s!!"script-src 'self'; object-src 'self'"])] := by
  decide +kernel
example : ((CspOp.run .new [.add .imgSrc s!!"é"]).apply []).2 = .panic := by decide +kernel

/-! ### C54 -/

namespace Security

theorem put_ok {h : Headers} {name value low : Str} (hn : HeaderName.ofStr name = .ok low)
    (hv : isAscii value = true) : put h name value = .ok (FMap.set h low [value]) := by
  have hv' : HeaderValue.fromStr value = .ok value := if_pos hv
  simp [put, Headers.insertStr, hn, Headers.insert, HvArg.toValues, hv']

theorem default_eq (h : Headers) : Security.default h = .ok
    (FMap.set (FMap.set (FMap.erase (FMap.set (FMap.set (FMap.set h
      s!!"x-dns-prefetch-control" [s!!"on"]) s!!"x-content-type-options" [s!!"nosniff"])
      s!!"x-frame-options" [s!!"sameorigin"]) s!!"X-Powered-By")
      s!!"strict-transport-security" [s!!"max-age=5184000"]) s!!"x-xss-protection" [s!!"1; mode=block"]) := by
  unfold Security.default dnsPrefetchControl nosniff frameguard hsts xssFilter
  rw [put_ok (low := s!!"x-dns-prefetch-control") (by decide +kernel) (by decide)]
  simp only [Res.bind]
  rw [put_ok (low := s!!"x-content-type-options") (by decide +kernel) (by decide)]
  simp only []
  rw [put_ok (low := s!!"x-frame-options") (by decide +kernel) (by decide)]
  simp only [poweredBy, Headers.remove, HeaderName.fromLowercaseStr]
  rw [put_ok (low := s!!"strict-transport-security") (by decide +kernel) (by decide)]
  simp only []
  rw [put_ok (low := s!!"x-xss-protection") (by decide +kernel) (by decide)]

theorem ofStr_ascii {n : Str} (hn : Ascii n) : HeaderName.ofStr n = .ok (lower n) := by
  unfold HeaderName.ofStr HeaderName.fromStr
  rw [if_pos ((spec_ascii_iff _).mp hn)]

theorem getStr_ascii {h : Headers} {n : Str} (hn : Ascii n) : h.getStr n = .ok (FMap.get h (lower n)) := by
  unfold Headers.getStr
  rw [ofStr_ascii hn]
  rfl

theorem lower_ne_powered (n : Str) : s!!"X-Powered-By" ≠ lower n := by
  cases n with
  | nil => simp [lower]
  | cons c n =>
    intro h
    have h1 : 'X' = lowerC c := (List.cons.inj h).1
    have h2 := lowerC_toNat c
    rw [← h1] at h2
    have : ('X' : Char).toNat = 88 := rfl
    rw [this] at h2
    split at h2 <;> omega

theorem get_set_lower (h : Headers) (name low n : Str) (vs : HeaderValues) (hl : lower name = low)
    (ha : Ascii name) (hn : Ascii n) :
    FMap.get (FMap.set h low vs) (lower n) = if sameName name n then some vs else FMap.get h (lower n) := by
  rw [FMap.get_set, ← hl]
  by_cases hs : sameName name n = true
  · rw [if_pos hs, if_pos ((sameName_iff _ _).mp hs).2.2]
  · rw [if_neg hs, if_neg fun h => hs ((sameName_iff _ _).mpr ⟨(spec_ascii_iff _).mp ha, (spec_ascii_iff _).mp hn, h⟩)]

end Security

/-- C54 (protections in force): the default protections can be applied to every collection; each
documented header then has exactly its documented value, under any letter case of its name, and every
other name that can be asked for is as before. Missing: `X-Powered-By` should be gone but is one of the
names left as before, see `C54_violated_powered_by`. -/
theorem C54_protections_partial (h : Headers) (hw : FMap.WF h) :
    ∃ h', Security.default h = .ok h' ∧
      (∀ e ∈ protections, ∀ n, sameName e.1 n → h'.getStr n = .ok (some [e.2])) ∧
      (∀ n, Ascii n → (∀ e ∈ protections, sameName e.1 n = false) → h'.getStr n = h.getStr n) := by
  refine ⟨_, Security.default_eq h, ?_, ?_⟩
  · intro e he n hn
    obtain ⟨_, hna, hl⟩ := (sameName_iff _ _).mp hn
    rw [Security.getStr_ascii ((spec_ascii_iff _).mpr hna), ← hl]
    congr 1
    have hw1 := FMap.wf_set (FMap.wf_set (FMap.wf_set hw s!!"x-dns-prefetch-control" [s!!"on"])
      s!!"x-content-type-options" [s!!"nosniff"]) s!!"x-frame-options" [s!!"sameorigin"]
    rw [FMap.get_set, FMap.get_set, FMap.get_erase hw1, FMap.get_set, FMap.get_set, FMap.get_set]
    clear hl hna hn hw1
    simp only [protections, List.mem_cons, List.not_mem_nil, or_false] at he
    rcases he with rfl | rfl | rfl | rfl | rfl <;> rfl
  · intro n hna hn
    have key : ∀ e ∈ protections, lower e.1 ≠ lower n := by
      intro e he heq
      have := hn e he
      rw [Bool.eq_false_iff] at this
      have hp : ∀ e ∈ protections, isAscii e.1 = true := by decide
      exact this ((sameName_iff _ _).mpr ⟨hp e he, (spec_ascii_iff _).mp hna, heq⟩)
    have k1 := key (s!!"X-DNS-Prefetch-Control", s!!"on") (by simp [protections])
    have k2 := key (s!!"X-Content-Type-Options", s!!"nosniff") (by simp [protections])
    have k3 := key (s!!"X-Frame-Options", s!!"sameorigin") (by simp [protections])
    have k4 := key (s!!"Strict-Transport-Security", s!!"max-age=5184000") (by simp [protections])
    have k5 := key (s!!"X-XSS-Protection", s!!"1; mode=block") (by simp [protections])
    rw [Security.getStr_ascii hna, Security.getStr_ascii hna]
    congr 1
    have hw1 := FMap.wf_set (FMap.wf_set (FMap.wf_set hw s!!"x-dns-prefetch-control" [s!!"on"])
      s!!"x-content-type-options" [s!!"nosniff"]) s!!"x-frame-options" [s!!"sameorigin"]
    rw [FMap.get_set, if_neg (show s!!"x-xss-protection" ≠ lower n from k5),
      FMap.get_set, if_neg (show s!!"strict-transport-security" ≠ lower n from k4),
      FMap.get_erase hw1, if_neg (Security.lower_ne_powered n),
      FMap.get_set, if_neg (show s!!"x-frame-options" ≠ lower n from k3),
      FMap.get_set, if_neg (show s!!"x-content-type-options" ≠ lower n from k2),
      FMap.get_set, if_neg (show s!!"x-dns-prefetch-control" ≠ lower n from k1)]

/-- A collection built by calls meets the hypothesis. -/
example (ops : List HOp) : FMap.WF (HOp.run ops) := HOp.wf_run ops
example : Security.default [(s!!"x-frame-options", [s!!"deny", s!!"x"]), (s!!"age", [s!!"1"])] = .ok
    [(s!!"x-frame-options", [s!!"sameorigin"]), (s!!"age", [s!!"1"]),
     (s!!"x-dns-prefetch-control", [s!!"on"]), (s!!"x-content-type-options", [s!!"nosniff"]),
     (s!!"strict-transport-security", [s!!"max-age=5184000"]),
     (s!!"x-xss-protection", [s!!"1; mode=block"])] := by decide +kernel

/-- C54 is violated: neither the default protections nor `powered_by` (removing or setting) ever has
an effect on what a lookup of `X-Powered-By`, or of any other name, gives. -/
theorem C54_violated_powered_by (h : Headers) (hw : FMap.WF h) :
    (∀ v : Option HeaderValue, ∃ h', Security.poweredBy h v = .ok h' ∧
      ∀ n, Ascii n → h'.getStr n = h.getStr n) ∧
    (∃ h', Security.default h = .ok h' ∧ h'.getStr s!!"X-Powered-By" = h.getStr s!!"X-Powered-By") := by
  constructor
  · intro v
    cases v with
    | none =>
      refine ⟨_, rfl, fun n hn => ?_⟩
      rw [Security.getStr_ascii hn, Security.getStr_ascii hn]
      congr 1
      show FMap.get (FMap.erase h s!!"X-Powered-By") _ = _
      rw [FMap.get_erase hw, if_neg (Security.lower_ne_powered n)]
    | some v =>
      refine ⟨_, rfl, fun n hn => ?_⟩
      rw [Security.getStr_ascii hn, Security.getStr_ascii hn]
      congr 1
      show FMap.get (FMap.set h s!!"X-Powered-By" [v]) _ = _
      rw [FMap.get_set, if_neg (Security.lower_ne_powered n)]
  · obtain ⟨h', h1, _, h3⟩ := C54_protections_partial h hw
    exact ⟨h', h1, h3 _ (by decide) (by decide)⟩

/-- A response that announces its software still does after the default protections. -/
example : (Security.default [(s!!"x-powered-by", [s!!"PHP"])]).map (fun h => h.getStr s!!"x-powered-by")
    = .ok (.ok (some [s!!"PHP"])) := by decide +kernel

/-- C54 (frame options): the header gets the documented value and nothing else changes. -/
theorem C54_frameguard (h : Headers) (g : Option FrameOptions) :
    ∃ h', Security.frameguard h g = .ok h' ∧
      OnlySets h h' s!!"x-frame-options"
        [if g = some .deny then s!!"deny" else s!!"sameorigin"] := by
  have key : ∀ v : Str, isAscii v = true → ∃ h', Security.put h s!!"X-Frame-Options" v = .ok h' ∧
      OnlySets h h' s!!"x-frame-options" [v] := by
    intro v hv
    refine ⟨_, Security.put_ok (low := s!!"x-frame-options") (by decide +kernel) hv, fun n hn => ?_⟩
    rw [Security.getStr_ascii hn, Security.getStr_ascii hn,
      Security.get_set_lower h s!!"x-frame-options" _ n _ (by decide +kernel) (by decide) hn]
    split <;> rfl
  cases g with
  | none => exact key _ (by decide)
  | some g => cases g <;> exact key _ (by decide)

example : Security.frameguard [(s!!"a", [s!!"b"])] (some .deny) = .ok [(s!!"a", [s!!"b"]), (s!!"x-frame-options", [s!!"deny"])] := by
  decide +kernel

/-- C54 (referrer policy): the documented value is added after the values already there. -/
theorem C54_referrer_policy (h : Headers) (r : Option ReferrerOptions) :
    ∃ h', Security.referrerPolicy h r = .ok h' ∧
      OnlySets h h' s!!"referrer-policy"
        ((h.get s!!"referrer-policy").getD [] ++ [documentedReferrer (r.getD .noReferrer)]) := by
  have key : ∀ v : Str, isAscii v = true →
      ∃ h', (match (Headers.appendStr h s!!"Referrer-Policy" (.str v)).2 with
        | .ok _ => Res.ok (Headers.appendStr h s!!"Referrer-Policy" (.str v)).1
        | _ => .panic) = .ok h' ∧
      OnlySets h h' s!!"referrer-policy" ((h.get s!!"referrer-policy").getD [] ++ [v]) := by
    intro v hv
    have hn : HeaderName.ofStr s!!"Referrer-Policy" = .ok s!!"referrer-policy" := by decide +kernel
    have hv' : HeaderValue.fromStr v = .ok v := if_pos hv
    refine ⟨FMap.set h s!!"referrer-policy" ((h.get s!!"referrer-policy").getD [] ++ [v]), ?_, fun n hn => ?_⟩
    · simp only [Headers.appendStr, hn, Headers.append, Headers.get]
      cases FMap.get h s!!"referrer-policy" <;>
        simp [HvArg.toValues, hv', HeaderValues.append, Headers.insert, Res.map]
    · rw [Security.getStr_ascii hn, Security.getStr_ascii hn,
        Security.get_set_lower h s!!"referrer-policy" _ n _ (by decide +kernel) (by decide) hn]
      split <;> rfl
  cases r with
  | none => exact key _ (by decide)
  | some r => cases r <;> exact key _ (by decide)

example : (Security.referrerPolicy [(s!!"referrer-policy", [s!!"unsafe-url"])] none)
    = .ok [(s!!"referrer-policy", [s!!"unsafe-url", s!!"no-referrer"])] := by decide +kernel

end HT
