import Verif.Spec.Layers
import Verif.Props.Allow
import Verif.Props.AcceptTrip
import Verif.Props.Cache
import Verif.Props.Lists
import Verif.Props.ServerTimingTrip
import Verif.Props.TripIff

/-! C121: list headers that pass through several layers. -/

namespace HT
open Spec

/-! ### Any list header -/

/-- If what is written is read back, layers collect. -/
theorem collects_of {L : Type} {name : HeaderName} {value : L → Res HeaderValue} {read : Headers → Res (Option L)}
    {empty : L} {P : L → Prop} (rt : ∀ l, P l → RoundTrips name (value l) read l) :
    Collects name value read empty P := by
  intro h o fs
  induction fs generalizing h o with
  | nil => intro hr _; exact ⟨h, rfl, fun _ _ => rfl, fun hn => absurd rfl hn⟩
  | cons f fs ih =>
    intro hr hp
    obtain ⟨h1, v, a, -, c, d⟩ := rt _ hp.1 h
    obtain ⟨h2, e1, e2, e3⟩ := ih h1 _ d hp.2
    refine ⟨h2, ?_, ?_, ?_⟩
    · unfold layered
      rw [hr]; simp only [Res.bind]; rw [a]; exact e1
    · intro n hn
      rw [e2 n hn, c n, if_neg hn]
    · intro _
      cases fs with
      | nil =>
        have : h1 = h2 := by unfold layered at e1; exact Res.ok.inj e1
        rw [← this]; exact d
      | cons g gs => exact e3 (List.cons_ne_nil _ _)

theorem run_push {α : Type} (l : StarList α) (xs : List α) :
    l.run (xs.map fun x => .list (.push x)) = ⟨l.entries ++ xs, l.wildcard⟩ := by
  induction xs generalizing l with
  | nil => simp [StarList.run]
  | cons x xs ih =>
    rw [List.map_cons]
    unfold StarList.run
    rw [ih]
    simp [StarList.step, ListOp.step]

/-- Layers that push leave a list with all that was there and was pushed, in order. -/
theorem pushing_fold {α : Type} (l : StarList α) (xss : List (List α)) :
    (pushing xss).foldl (fun l f => f l) l = ⟨l.entries ++ xss.flatten, l.wildcard⟩ := by
  induction xss generalizing l with
  | nil => simp [pushing]
  | cons xs xss ih =>
    have : pushing (xs :: xss) = (fun l => l.run (xs.map fun x => .list (.push x))) :: pushing xss := rfl
    rw [this, List.foldl_cons, ih]
    simp only [run_push]
    simp

theorem pushing_leaves {α : Type} {Q : α → Prop} (l : StarList α) (xss : List (List α)) (hl : ∀ x ∈ l.entries, Q x)
    (hx : ∀ xs ∈ xss, ∀ x ∈ xs, Q x) (hn : HasItem l ∨ ∀ xs ∈ xss, xs ≠ []) :
    EachLeaves (fun l => HasItem l ∧ ∀ x ∈ l.entries, Q x) l (pushing xss) := by
  induction xss generalizing l with
  | nil => exact trivial
  | cons xs xss ih =>
    have hq : ∀ x ∈ (l.run (xs.map fun x => .list (.push x))).entries, Q x := by
      rw [run_push]
      intro x hm
      rcases List.mem_append.mp hm with hm | hm
      · exact hl x hm
      · exact hx xs (List.mem_cons_self ..) x hm
    have hs : HasItem (l.run (xs.map fun x => .list (.push x))) := by
      rw [run_push]
      rcases hn with (h | h) | h
      · left; intro e; exact h (List.append_eq_nil_iff.mp e).1
      · right; exact h
      · left; intro e; exact h xs (List.mem_cons_self ..) (List.append_eq_nil_iff.mp e).2
    exact ⟨⟨hs, hq⟩, ih _ hq (fun ys hy => hx ys (List.mem_cons_of_mem _ hy)) (.inl hs)⟩

/-! ### The headers -/

/-- If-Match and If-None-Match: any changes, as long as each layer leaves a tag or the wildcard, the tags have legal
characters and no comma. -/
theorem C121_tags_partial (none : Bool) :
    Collects (if none then s!!"if-none-match" else s!!"if-match") IfMatch.value
      (if none then IfMatch.noneFromHeaders else IfMatch.fromHeaders) StarList.new
      fun l => HasItem l ∧ ∀ e ∈ l.entries, EtagLegal e ∧ Ascii (etagBody e) ∧ ',' ∉ etagBody e :=
  collects_of fun l hl => (C34_roundtrip_iff_partial l none).mpr hl

example : EachLeaves (fun l : StarList ETag => HasItem l ∧ ∀ e ∈ l.entries, EtagLegal e ∧ Ascii (etagBody e) ∧ ',' ∉ etagBody e)
    StarList.new [fun l => { l with wildcard := true }, fun l => { l with entries := [.weak s!!"x"] }] := by
  refine ⟨⟨.inr rfl, fun e he => by cases he⟩, ⟨.inl (by decide), ?_⟩, trivial⟩
  simp only [List.mem_singleton, EtagLegal, Ascii, etagBody]
  rintro e rfl
  decide

/-- Vary: names in lowercase without comma and outer whitespace. -/
theorem C121_vary_partial :
    Collects s!!"vary" Vary.value Vary.fromHeaders StarList.new
      fun l => HasItem l ∧ ∀ n ∈ l.entries, n ≠ [] ∧ Ascii n ∧ lower n = n ∧ ',' ∉ n ∧ Trimmed n ∧ n ≠ s!!"*" :=
  collects_of fun l hl => (C35_roundtrip_iff_partial l).mpr
    ⟨hl.1, fun h => (hl.2 [] (by rw [h.1]; exact List.mem_cons_self ..)).1 rfl, fun n hn => (hl.2 n hn).2⟩

example : EachLeaves (fun l : StarList HeaderName => HasItem l ∧
      ∀ n ∈ l.entries, n ≠ [] ∧ Ascii n ∧ lower n = n ∧ ',' ∉ n ∧ Trimmed n ∧ n ≠ s!!"*")
    ⟨[s!!"accept"], false⟩ [fun l => { l with entries := l.entries ++ [s!!"origin"] }] :=
  ⟨⟨.inl (by decide), by decide⟩, trivial⟩

/-- Clear-Site-Data: any directives. -/
theorem C121_clear_partial :
    Collects s!!"clear-site-data" ClearSiteData.value ClearSiteData.fromHeaders StarList.new HasItem :=
  collects_of fun l hl => (C32_roundtrip_iff_partial l).mpr hl

example : EachLeaves HasItem (StarList.new : StarList ClearDirective)
    [fun l => { l with entries := l.entries ++ [.cookies] }, fun l => { l with wildcard := true }] :=
  ⟨.inl (by decide), .inr rfl, trivial⟩

/-- Timing-Allow-Origin: URLs without comma. -/
theorem C121_origins_partial {Url : Type} (parse : Str → Option Url) (display : Url → Str)
    (hurl : ∀ u, parse (display u) = some u ∧ Ascii (display u) ∧ ∃ c ∈ (display u).head?, c.isAlpha = true) :
    Collects s!!"timing-allow-origin" (TimingAllowOrigin.value display) (TimingAllowOrigin.fromHeaders parse) StarList.new
      fun l => HasItem l ∧ ∀ u ∈ l.entries, ',' ∉ display u :=
  collects_of fun l hl => C52_roundtrip_partial parse display hurl l hl.1 hl.2

example (Url : Type) (display : Url → Str) (u v : Url) (hu : display u = s!!"http://a/") (hv : display v = s!!"http://b/") :
    EachLeaves (fun l : StarList Url => HasItem l ∧ ∀ u ∈ l.entries, ',' ∉ display u) StarList.new (pushing [[u], [v]]) :=
  pushing_leaves _ _ (fun _ h => by cases h) (by simp [hu, hv]) (.inr (by simp))

/-- Allow: each layer inserts a method, visits the set in any order it likes, and the methods read afterwards are those that
were there and those inserted. -/
theorem C121_allow (h : Headers) (o : Option (List Method)) (ls : List (Method × (List Method → List Method)))
    (hp : ∀ l ∈ ls, ∀ s, (l.2 s).Perm s) (hr : Allow.fromHeaders h = .ok o) (hne : ls ≠ []) :
    ∃ h' ms, layered s!!"allow" Allow.value Allow.fromHeaders [] h (ls.map fun l s => l.2 (Allow.insert l.1 s)) = .ok h' ∧
      (∀ n, n ≠ s!!"allow" → h'.get n = h.get n) ∧ Allow.fromHeaders h' = .ok (some ms) ∧ ms.Nodup ∧
      ∀ m, m ∈ ms ↔ m ∈ o.getD [] ∨ ∃ l ∈ ls, l.1 = m := by
  have hnd : (o.getD []).Nodup := by
    cases hg : h.get s!!"allow" with
    | none =>
      have : Allow.fromHeaders h = .ok none := by
        unfold Allow.fromHeaders; rw [show h.get Allow.name = none from hg]
      rw [this] at hr; cases hr; exact List.nodup_nil
    | some vs =>
      by_cases hm : ∀ t ∈ listItems vs, ∃ m : Method, sameName t m.asStr = true
      · obtain ⟨ms, a, b, -⟩ := (C44_reads h vs hg).1 hm
        rw [a] at hr; cases hr; exact b
      · push Not at hm
        obtain ⟨t, h1, h2⟩ := hm
        rw [(C44_reads h vs hg).2 ⟨t, h1, fun m => by simpa using h2 m⟩] at hr
        cases hr
  have rt : ∀ order : List Method, order.Nodup ∧ order ≠ [] →
      RoundTrips s!!"allow" (Allow.value order) Allow.fromHeaders order := allow_trip
  have hins : ∀ m s, s.Nodup → (Allow.insert m s).Nodup ∧ Allow.insert m s ≠ [] ∧ ∀ x, x ∈ Allow.insert m s ↔ x ∈ s ∨ m = x := by
    intro m s hs
    unfold Allow.insert
    by_cases hm : m ∈ s
    · rw [if_pos hm]
      exact ⟨hs, List.ne_nil_of_mem hm, fun x => ⟨.inl, fun h => h.elim id fun e => e ▸ hm⟩⟩
    · rw [if_neg hm]
      refine ⟨?_, by simp, fun x => by simp [eq_comm]⟩
      rw [List.nodup_append]
      exact ⟨hs, List.nodup_singleton _, fun a ha b hb => by
        rw [List.mem_singleton] at hb; subst hb; rintro rfl; exact hm ha⟩
  have key : ∀ (ls : List (Method × (List Method → List Method))) (s : List Method), s.Nodup → (∀ l ∈ ls, ∀ s, (l.2 s).Perm s) →
      EachLeaves (fun s : List Method => s.Nodup ∧ s ≠ []) s (ls.map fun l s => l.2 (Allow.insert l.1 s)) ∧
      ((ls.map fun l s => l.2 (Allow.insert l.1 s)).foldl (fun l f => f l) s).Nodup ∧
      ∀ m, m ∈ (ls.map fun l s => l.2 (Allow.insert l.1 s)).foldl (fun l f => f l) s ↔ m ∈ s ∨ ∃ l ∈ ls, l.1 = m := by
    intro ls
    induction ls with
    | nil => intro s hs _; exact ⟨trivial, hs, fun m => by simp⟩
    | cons l ls ih =>
      intro s hs hp
      obtain ⟨i1, i2, i3⟩ := hins l.1 s hs
      have pm := hp l (List.mem_cons_self ..) (Allow.insert l.1 s)
      have n1 := pm.nodup_iff.mpr i1
      obtain ⟨k1, k2, k3⟩ := ih (l.2 (Allow.insert l.1 s)) n1 fun l' hl' => hp l' (List.mem_cons_of_mem _ hl')
      refine ⟨⟨⟨n1, fun e => i2 ?_⟩, k1⟩, k2, fun m => ?_⟩
      · have pe : ([] : List Method).Perm (Allow.insert l.1 s) := by
          have := pm; rw [show l.2 (Allow.insert l.1 s) = [] from e] at this; exact this
        exact pe.symm.eq_nil
      · refine (k3 m).trans ?_
        rw [pm.mem_iff, i3 m]
        simp only [List.mem_cons, exists_eq_or_imp]
        exact or_assoc
  obtain ⟨k1, k2, k3⟩ := key ls (o.getD []) hnd hp
  obtain ⟨h', a, b, c⟩ := collects_of (empty := []) rt h o _ hr k1
  exact ⟨h', _, a, b, c (by simpa using hne), k2, k3⟩

example : (layered s!!"allow" Allow.value Allow.fromHeaders [] (oneHeader s!!"allow" s!!"GET, HEAD")
      [fun s => (Allow.insert .put s).reverse, fun s => Allow.insert .get s]).bind (fun h => Allow.fromHeaders h) =
    .ok (some [.put, .head, .get]) := by decide +kernel

/-- Layers that push: a header with a wildcard flag read after them has what was there before, followed by what each of them
pushed. Here for Vary; the names are those of `C121_vary_partial`. -/
theorem C121_vary_pushes (h : Headers) (o : Option (StarList HeaderName)) (nss : List (List HeaderName))
    (hr : Vary.fromHeaders h = .ok o) (hne : nss ≠ []) (hn : ∀ ns ∈ nss, ns ≠ [])
    (hg : ∀ n, (n ∈ nss.flatten ∨ ∃ l, o = some l ∧ n ∈ l.entries) →
      n ≠ [] ∧ Ascii n ∧ lower n = n ∧ ',' ∉ n ∧ Trimmed n ∧ n ≠ s!!"*") :
    ∃ h', layered s!!"vary" Vary.value Vary.fromHeaders StarList.new h (pushing nss) = .ok h' ∧
      (∀ n, n ≠ s!!"vary" → h'.get n = h.get n) ∧
      Vary.fromHeaders h' = .ok (some ⟨(o.getD StarList.new).entries ++ nss.flatten, (o.getD StarList.new).wildcard⟩) := by
  obtain ⟨h', a, b, c⟩ := C121_vary_partial h o (pushing nss) hr (pushing_leaves _ _ (by
    intro n hm
    cases o with
    | none => cases hm
    | some l => exact hg n (.inr ⟨l, rfl, hm⟩)) (fun ns hns n hm => hg n (.inl (List.mem_flatten.mpr ⟨ns, hns, hm⟩))) (.inr hn))
  refine ⟨h', a, b, ?_⟩
  rw [c (by unfold pushing; simpa using hne), pushing_fold]

example : (layered s!!"vary" Vary.value Vary.fromHeaders StarList.new (oneHeader s!!"vary" s!!"Accept")
      (pushing [[s!!"origin"], [s!!"cookie", s!!"te"]])).bind (fun h => Vary.fromHeaders h) =
    .ok (some ⟨[s!!"accept", s!!"origin", s!!"cookie", s!!"te"], false⟩) := by decide +kernel

/-- The same for the entity tags. -/
theorem C121_tags_pushes (none : Bool) (h : Headers) (o : Option (StarList ETag)) (ess : List (List ETag))
    (hr : (if none then IfMatch.noneFromHeaders else IfMatch.fromHeaders) h = .ok o) (hne : ess ≠ []) (hn : ∀ es ∈ ess, es ≠ [])
    (hg : ∀ e, (e ∈ ess.flatten ∨ ∃ l, o = some l ∧ e ∈ l.entries) → EtagLegal e ∧ Ascii (etagBody e) ∧ ',' ∉ etagBody e) :
    ∃ h', layered (if none then s!!"if-none-match" else s!!"if-match") IfMatch.value
        (if none then IfMatch.noneFromHeaders else IfMatch.fromHeaders) StarList.new h (pushing ess) = .ok h' ∧
      (∀ n, n ≠ (if none then s!!"if-none-match" else s!!"if-match") → h'.get n = h.get n) ∧
      (if none then IfMatch.noneFromHeaders else IfMatch.fromHeaders) h' =
        .ok (some ⟨(o.getD StarList.new).entries ++ ess.flatten, (o.getD StarList.new).wildcard⟩) := by
  obtain ⟨h', a, b, c⟩ := C121_tags_partial none h o (pushing ess) hr (pushing_leaves _ _ (by
    intro n hm
    cases o with
    | none => cases hm
    | some l => exact hg n (.inr ⟨l, rfl, hm⟩)) (fun ns hns n hm => hg n (.inl (List.mem_flatten.mpr ⟨ns, hns, hm⟩))) (.inr hn))
  refine ⟨h', a, b, ?_⟩
  rw [c (by unfold pushing; simpa using hne), pushing_fold]

example : (layered s!!"if-match" IfMatch.value IfMatch.fromHeaders StarList.new (oneHeader s!!"if-match" s!!"\"a\", *")
      (pushing [[.weak s!!"b"], [.strong s!!"c"]])).bind (fun h => IfMatch.fromHeaders h) =
    .ok (some ⟨[.strong s!!"a", .weak s!!"b", .strong s!!"c"], true⟩) := by decide +kernel

/-- Cache-Control: directives without a shared maximum age and without fractions of seconds. -/
theorem C121_cache_partial :
    Collects s!!"cache-control" CacheControl.value CacheControl.fromHeaders []
      fun ds => ∀ d ∈ ds, SecsFit d ∧ (∀ x, d ≠ .sMaxAge x) ∧ wholeSeconds d = d :=
  collects_of fun ds h => (C31_roundtrip_iff_partial ds fun d hd => (h d hd).1).mpr fun d hd => (h d hd).2

example : (layered s!!"cache-control" CacheControl.value CacheControl.fromHeaders [] []
      [fun ds => ds ++ [.maxAge ⟨60, 0⟩], fun ds => .noTransform :: ds]).bind (fun h => CacheControl.fromHeaders h) =
    .ok (some [.noTransform, .maxAge ⟨60, 0⟩]) := by decide +kernel

/-- Server-Timing: plain metrics whose durations survive, see C57. -/
theorem C121_timings_partial :
    Collects s!!"server-timing" ServerTiming.value ServerTiming.fromHeaders []
      fun ms => ms ≠ [] ∧ ∀ m ∈ ms, MetricOk m ∧ PlainMetric m ∧ ∀ d, m.dur = some d → Survives d :=
  collects_of fun ms h => (C57_roundtrip_iff_partial ms fun m hm => (h.2 m hm).1).mpr ⟨h.1, fun m hm => (h.2 m hm).2⟩

example : (layered s!!"server-timing" ServerTiming.value ServerTiming.fromHeaders [] []
      [fun ms => ms ++ [⟨s!!"db", some ⟨0, 5000000⟩, none⟩], fun ms => ms ++ [⟨s!!"app", none, some s!!"x"⟩]]).bind
        (fun h => ServerTiming.fromHeaders h) =
    .ok (some [⟨s!!"db", some ⟨0, 5000000⟩, none⟩, ⟨s!!"app", none, some s!!"x"⟩]) := by decide +kernel

/-- Accept-Encoding and TE, with all that their methods do, sorting and negotiating included: weights of three decimals. -/
theorem C121_codings :
    Collects AcceptEncoding.name AcceptEncoding.value AcceptEncoding.fromHeaders ⟨false, []⟩
      (fun a => ∀ p ∈ a.entries, WeightOk p ∧ ThreeDecimals p.weight) ∧
    Collects TE.name TE.value TE.fromHeaders ⟨false, []⟩ (fun a => ∀ p ∈ a.entries, WeightOk p ∧ ThreeDecimals p.weight) :=
  ⟨collects_of fun a h => (C41_round_trip_iff.1 a fun p hp => (h p hp).1).mpr fun p hp => (h p hp).2,
    collects_of fun a h => (C41_round_trip_iff.2 a fun p hp => (h p hp).1).mpr fun p hp => (h p hp).2⟩

example : (layered AcceptEncoding.name AcceptEncoding.value AcceptEncoding.fromHeaders ⟨false, []⟩ []
      [fun a => a.push ⟨.gzip, none⟩, fun a => a.push ⟨.brotli, some (.fin false (2 ^ 148))⟩, AcceptList.sort]).bind
        (fun h => AcceptEncoding.fromHeaders h) =
    .ok (some ⟨false, [⟨.brotli, some (.fin false (2 ^ 148))⟩, ⟨.gzip, none⟩]⟩) := by decide +kernel

/-- Accept: as there, and each media type has a weight. -/
theorem C121_media_partial :
    Collects s!!"accept" Accept.value Accept.fromHeaders ⟨false, []⟩
      fun a => ∀ p ∈ a.entries, WeightOk p ∧ AcceptType p.item ∧ ThreeDecimals p.weight ∧ p.weight ≠ none :=
  collects_of fun a h => (C41_media_iff_partial a (fun p hp => (h p hp).1) (fun p hp => (h p hp).2.1)).mpr
    fun p hp => (h p hp).2.2

example (m : Mime) (hm : AcceptType m) :
    EachLeaves (fun a : AcceptList Mime => ∀ p ∈ a.entries, WeightOk p ∧ AcceptType p.item ∧ ThreeDecimals p.weight ∧ p.weight ≠ none)
      ⟨false, []⟩ [fun a => a.push ⟨m, some (thousandths 500)⟩, fun a => a.setWildcard true] := by
  have : ∀ p : Proposal Mime, p = ⟨m, some (thousandths 500)⟩ →
      WeightOk p ∧ AcceptType p.item ∧ ThreeDecimals p.weight ∧ p.weight ≠ none := by
    rintro p rfl
    refine ⟨?_, hm, ?_, by simp⟩
    · rintro x hx; cases hx; exact ⟨2 ^ 148, by decide +kernel⟩
    · rintro x hx; cases hx; exact ⟨500, by decide, rfl⟩
  exact ⟨fun p hp => this p (by simpa [AcceptList.push] using hp),
    fun p hp => this p (by simpa [AcceptList.push, AcceptList.setWildcard] using hp), trivial⟩

/-- Cache-Control is not collected: a layer that only adds `public` makes the shared maximum age unreadable for the next. -/
theorem C121_violated_s_maxage :
    ∃ h', layered s!!"cache-control" CacheControl.value CacheControl.fromHeaders [] (oneHeader s!!"cache-control" s!!"s-maxage=60")
        [fun ds => ds ++ [.publ], fun ds => ds ++ [.immutable]] = .ok h' ∧
      CacheControl.fromHeaders (oneHeader s!!"cache-control" s!!"s-maxage=60") = .ok (some [.sMaxAge ⟨60, 0⟩]) ∧
      CacheControl.fromHeaders h' = .ok (some [.publ, .immutable]) :=
  ⟨oneHeader s!!"cache-control" s!!"public, immutable", by decide +kernel, by decide +kernel, by decide +kernel⟩

/-- A layer that takes the last directive out of Clear-Site-Data makes the next one panic. -/
theorem C121_violated_empty :
    layered s!!"clear-site-data" ClearSiteData.value ClearSiteData.fromHeaders StarList.new
      (oneHeader s!!"clear-site-data" s!!"\"cache\"") [fun l => { l with entries := [] }, id] = .panic := by
  decide +kernel

end HT
