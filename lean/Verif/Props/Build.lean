import Verif.Spec.Build
import Verif.Props.Content
import Verif.Lemmas.Lists
import Verif.Props.Lists

/-! C84: list headers built by calls. C85: setters. -/

namespace HT
open Spec

theorem lastSet_foldl {ω β σ : Type} (step : σ → ω → σ) (field : σ → β) (sets : ω → Option β)
    (h : ∀ s op, field (step s op) = (sets op).getD (field s)) (s : σ) (ops : List ω) :
    LastSet sets (field s) ops (field (ops.foldl step s)) := by
  induction ops using List.reverseRecOn with
  | nil => exact Or.inr ⟨by simp, rfl⟩
  | append_singleton ops op ih =>
    rw [List.foldl_append]
    simp only [List.foldl_cons, List.foldl_nil]
    cases hs : sets op with
    | some b => exact Or.inl ⟨ops, op, [], rfl, by rw [h, hs]; rfl, by simp⟩
    | none =>
      have hf : field (step (ops.foldl step s) op) = field (ops.foldl step s) := by rw [h, hs]; rfl
      rw [hf]
      rcases ih with ⟨pre, o, post, rfl, g, hp⟩ | ⟨g, hp⟩
      · refine Or.inl ⟨pre, o, post ++ [op], by simp, g, ?_⟩
        intro x hx
        rcases List.mem_append.mp hx with hx | hx
        · exact hp x hx
        · simp at hx; subst hx; exact hs
      · refine Or.inr ⟨?_, hp⟩
        intro x hx
        rcases List.mem_append.mp hx with hx | hx
        · exact g x hx
        · simp at hx; subst hx; exact hs

/-- There is exactly one such value. -/
theorem lastSet_unique {ω β : Type} {sets : ω → Option β} {init : β} {ops : List ω} {v w : β}
    (hv : LastSet sets init ops v) (hw : LastSet sets init ops w) : v = w := by
  have key : ∀ {x}, LastSet sets init ops x → x = ((ops.filterMap sets).getLast?).getD init := by
    rintro x (⟨pre, o, post, rfl, g, hp⟩ | ⟨g, rfl⟩)
    · have : post.filterMap sets = [] := by simpa using hp
      rw [List.filterMap_append, List.filterMap_cons_some g, this]
      simp
    · have : ops.filterMap sets = [] := by simpa using g
      rw [this]; rfl
  rw [key hv, key hw]

section
variable {α : Type}

theorem listRun_eq (xs : List α) (ops : List (ListOp α)) : ListOp.run xs ops = ops.foldl ListOp.step xs := by
  induction ops generalizing xs with
  | nil => rfl
  | cons op ops ih => simp [ListOp.run, ih]

theorem pushes_append (a b : List (ListOp α)) : pushes (a ++ b) = pushes a ++ pushes b := by
  induction a with
  | nil => rfl
  | cons op a ih => cases op <;> simp [pushes, ih]

theorem built_run (init : List α) (ops : List (ListOp α)) : Built init ops (ListOp.run init ops) := by
  rw [listRun_eq]
  induction ops using List.reverseRecOn with
  | nil => exact ⟨by simp [pushes], fun i => Or.inr ⟨by simp, by simp [pushes]⟩⟩
  | append_singleton ops op ih =>
    obtain ⟨hl, hi⟩ := ih
    rw [List.foldl_append]
    simp only [List.foldl_cons, List.foldl_nil]
    generalize ops.foldl ListOp.step init = xs at hl hi
    cases op with
    | push a =>
      have hp : pushes (ops ++ [.push a]) = pushes ops ++ [a] := by simp [pushes_append, pushes]
      refine ⟨by simp [ListOp.step, hp, hl]; omega, ?_⟩
      intro i
      rcases hi i with ⟨pre, b, post, rfl, h1, h2, h3⟩ | ⟨h1, h2⟩
      · left
        refine ⟨pre, b, post ++ [.push a], by simp, h1, ?_, ?_⟩
        · intro c hc
          rcases List.mem_append.mp hc with hc | hc
          · exact h2 c hc
          · simp at hc
        · have : i < xs.length := (List.getElem?_eq_some_iff.mp h3).1
          simp only [ListOp.step]
          rw [List.getElem?_append_left this, h3]
      · right
        refine ⟨?_, ?_⟩
        · intro pre b post h
          rcases List.eq_nil_or_concat post with rfl | ⟨post', z, rfl⟩
          · have := List.append_inj_right' h (by simp)
            simp at this
          · have h' : ops ++ [ListOp.push a] = (pre ++ .edit i b :: post') ++ [z] := by rw [h]; simp
            exact h1 pre b post' (List.append_inj_left' h' rfl)
        · simp only [ListOp.step]
          rw [hp]
          by_cases hlt : i < xs.length
          · rw [List.getElem?_append_left hlt, h2, ← List.append_assoc,
              List.getElem?_append_left (l₁ := init ++ pushes ops) (by simp; omega)]
          · rw [List.getElem?_append_right (by omega), ← List.append_assoc,
              List.getElem?_append_right (by simp; omega)]
            simp [hl]
    | edit j a =>
      have hp : pushes (ops ++ [.edit j a]) = pushes ops := by simp [pushes_append, pushes]
      refine ⟨by simp [ListOp.step, hp, hl], ?_⟩
      intro i
      by_cases hij : i = j ∧ i < xs.length
      · obtain ⟨rfl, hlt⟩ := hij
        left
        exact ⟨ops, a, [], rfl, by omega, by simp, by simp [ListOp.step, hlt]⟩
      · have hset : (xs.set j a)[i]? = xs[i]? := by
          rw [List.getElem?_set]
          split
          · rename_i h
            subst h
            rw [if_neg (fun h => hij ⟨rfl, h⟩)]
            rw [List.getElem?_eq_none (by
              have := fun h => hij ⟨rfl, h⟩
              omega)]
          · rfl
        have hout : i = j → init.length + (pushes ops).length ≤ i := by
          intro h
          have : ¬ i < xs.length := fun h' => hij ⟨h, h'⟩
          omega
        simp only [ListOp.step]
        rw [hset, hp]
        rcases hi i with ⟨pre, b, post, rfl, h1, h2, h3⟩ | ⟨h1, h2⟩
        · left
          refine ⟨pre, b, post ++ [.edit j a], by simp, h1, ?_, h3⟩
          intro c hc
          rcases List.mem_append.mp hc with hc | hc
          · exact h2 c hc
          · simp at hc
            have := hout hc.1
            have := (List.getElem?_eq_some_iff.mp h3).1
            omega
        · right
          refine ⟨?_, h2⟩
          intro pre b post h
          rcases List.eq_nil_or_concat post with rfl | ⟨post', z, rfl⟩
          · have h4 := List.append_inj h (by
              have := congrArg List.length h
              simp at this; omega)
            have h5 := h4.2
            simp at h5
            rw [← h4.1]
            exact hout h5.1.symm
          · have h' : ops ++ [ListOp.edit j a] = (pre ++ .edit i b :: post') ++ [z] := by rw [h]; simp
            exact h1 pre b post' (List.append_inj_left' h' rfl)

theorem accept_calls (neg : AcceptList α → List α → AcceptList α × Res α) (hneg : ∀ a av, (neg a av).1 = a.sort)
    (a : AcceptList α) (ops : List (AcceptOp α)) :
    let r := a.calls neg ops
    r.entries.Perm (a.entries ++ proposals ops) ∧ LastSet acceptWildcard a.wildcard ops r.wildcard ∧
    ((∀ op ∈ ops, (∃ p, op = .push p) ∨ ∃ b, op = .setWildcard b) →
      r.entries = a.entries ++ proposals ops) := by
  have hf : ∀ (a : AcceptList α) ops, a.calls neg ops = ops.foldl (AcceptList.call neg) a := by
    intro a ops
    induction ops generalizing a with
    | nil => rfl
    | cons op ops ih => simp [AcceptList.calls, ih]
  refine ⟨?_, ?_, ?_⟩
  · induction ops generalizing a with
    | nil => simp [AcceptList.calls, proposals]
    | cons op ops ih =>
      refine (ih (AcceptList.call neg a op)).trans ?_
      cases op with
      | push p => simp [AcceptList.call, AcceptList.push, proposals]
      | setWildcard b => simp [AcceptList.call, AcceptList.setWildcard, proposals]
      | sort =>
        simp only [AcceptList.call, AcceptList.sort, proposals, List.filterMap_cons]
        exact (mem_sortByWeight a.entries).append_right _
      | negotiate av =>
        simp only [AcceptList.call, hneg, AcceptList.sort, proposals, List.filterMap_cons]
        exact (mem_sortByWeight a.entries).append_right _
  · rw [hf]
    exact lastSet_foldl (AcceptList.call neg) AcceptList.wildcard acceptWildcard
      (fun s op => by cases op <;> simp [AcceptList.call, acceptWildcard, AcceptList.push,
        AcceptList.setWildcard, AcceptList.sort, hneg]) a ops
  · induction ops generalizing a with
    | nil => simp [AcceptList.calls, proposals]
    | cons op ops ih =>
      intro h
      rw [AcceptList.calls, ih _ (fun o ho => h o (by simp [ho]))]
      rcases h op (by simp) with ⟨p, rfl⟩ | ⟨b, rfl⟩
      · simp [AcceptList.call, AcceptList.push, proposals]
      · simp [AcceptList.call, AcceptList.setWildcard, proposals]

theorem starRun_eq (l : StarList α) (ops : List (StarOp α)) : l.run ops = ops.foldl StarList.step l := by
  induction ops generalizing l with
  | nil => rfl
  | cons op ops ih => simp [StarList.run, ih]

theorem starRun_entries (l : StarList α) (ops : List (StarOp α)) :
    (l.run ops).entries = ListOp.run l.entries (listCalls ops) := by
  induction ops generalizing l with
  | nil => rfl
  | cons op ops ih => cases op <;> simp [StarList.run, StarList.step, listCalls, ListOp.run, ih]

/-- Building If-Match, If-None-Match, Vary, Clear-Site-Data or Timing-Allow-Origin by any calls: the items
are those pushed, in order, each with the last value written to its place; the wildcard flag is the last one
set; neither affects the other. A new list is empty without wildcard. -/
theorem C84_star (l : StarList α) (ops : List (StarOp α)) :
    Built l.entries (listCalls ops) (l.run ops).entries ∧
    LastSet givesWildcard l.wildcard ops (l.run ops).wildcard ∧
    (StarList.new : StarList α) = ⟨[], false⟩ := by
  refine ⟨?_, ?_, rfl⟩
  · rw [starRun_entries]; exact built_run _ _
  · rw [starRun_eq]
    exact lastSet_foldl StarList.step StarList.wildcard givesWildcard
      (fun s op => by cases op <;> rfl) l ops

example : (StarList.new.run [.list (.push 1), .setWildcard true, .list (.push 2), .list (.edit 0 7)] : StarList Nat) =
    ⟨[7, 2], true⟩ := rfl

/-- The same for Cache-Control and Server-Timing, which have no wildcard and start empty. -/
theorem C84_plain (cache : List (ListOp CacheDirective)) (timing : List (ListOp Metric)) :
    Built [] cache (CacheControl.run cache) ∧ Built [] timing (ServerTiming.run timing) :=
  ⟨built_run _ _, built_run _ _⟩

example : CacheControl.run [.push .noStore, .push .noCache, .edit 0 .immutable] = [.immutable, .noCache] := rfl

/-- With nothing overwritten the list is what was there followed by what was pushed. -/
theorem C84_pushed (init : List α) (ops : List (ListOp α)) (xs : List α) (h : Built init ops xs)
    (hn : ∀ i a, .edit i a ∉ ops) : xs = init ++ pushes ops := by
  apply List.ext_getElem?
  intro i
  rcases h.2 i with ⟨pre, a, post, rfl, -⟩ | ⟨-, h⟩
  · exact absurd (by simp) (hn i a)
  · exact h

example : (StarList.new.run [.list (.push 1), .setWildcard true, .list (.push 2), .list (.edit 0 7),
    .setWildcard false, .list (.push 3), .list (.edit 5 9)] : StarList Nat) = ⟨[7, 2, 3], false⟩ := rfl

end

/-- What the built headers say: the items in order, then the wildcard if set. (A Vary list holding just
the empty name with the wildcard set writes the wildcard alone; a URL text is never empty.) -/
theorem C84_written {Url : Type} (display : Url → Str) (hd : ∀ u, display u ≠ []) (tags : StarList ETag)
    (clear : StarList ClearDirective) (origins : StarList Url) (cache : List CacheDirective)
    (timing : List Metric) :
    let text := fun (items : List Str) (w : Bool) (star : Str) =>
      join s!!", " (items ++ if w then [star] else [])
    IfMatch.value tags = .ok (text (tags.entries.map etagText) tags.wildcard s!!"*") ∧
    ClearSiteData.value clear = .ok (text (clear.entries.map ClearDirective.asStr) clear.wildcard s!!"\"*\"") ∧
    TimingAllowOrigin.value display origins =
      .ok (text (origins.entries.map display) origins.wildcard s!!"*") ∧
    CacheControl.value cache = .ok (text (cache.map CacheDirective.display) false []) ∧
    ServerTiming.value timing = .ok (text (timing.map Metric.text) false []) := by
  have one : ∀ {α : Type} (f : α → Str) (hf : ∀ x, f x ≠ []) (xs : List α) (w : Bool),
      ¬ (xs.map f = [[]] ∧ w = true) := by
    rintro α f hf xs w ⟨h, -⟩
    cases xs with
    | nil => cases h
    | cons x xs => simp at h; exact hf x h.1
  refine ⟨?_, ?_, ?_, ?_, ?_⟩
  · unfold IfMatch.value
    have he : tags.entries.map ETag.display = tags.entries.map etagText := by
      simp [display_eq_etagText]
    rw [he, writeStar_eq (one etagText (by intro e; cases e <;> simp [etagText]) _ _)]
    rfl
  · unfold ClearSiteData.value
    rw [writeStar_eq (one ClearDirective.asStr (by intro e; cases e <;> decide) _ _)]
    rfl
  · unfold TimingAllowOrigin.value
    rw [writeStar_eq (one display hd _ _)]
    rfl
  · unfold CacheControl.value
    rw [writeLoop_eq]
    simp
  · unfold ServerTiming.value
    rw [writeLoop_eq]
    simp

example : IfMatch.value (StarList.new.run [.list (.push (.strong s!!"a")), .setWildcard true,
    .list (.push (.weak s!!"b"))]) = .ok s!!"\"a\", W/\"b\", *" := rfl

/-- Pushing a string to a Vary list adds the lowercase name, or panics when the string is not ASCII. -/
theorem C84_vary_push (l : StarList HeaderName) (s : Str) :
    (Ascii s → Vary.pushStr l s = .ok ⟨l.entries ++ [lower s], l.wildcard⟩) ∧
    (¬ Ascii s → Vary.pushStr l s = .panic) := by
  unfold Vary.pushStr HeaderName.ofStr HeaderName.fromStr
  have ha := isAscii_iff (s := s)
  constructor
  · intro h
    have h : isAscii s = true := ha.mpr h
    simp [h, Res.map, StarList.step, ListOp.step]
  · intro h
    have h : isAscii s = false := by
      cases hs : isAscii s with
      | false => rfl
      | true => exact absurd (ha.mp hs) h
    simp [h, Res.map]

example : Vary.pushStr ⟨[s!!"accept"], true⟩ s!!"Accept-Encoding" = .ok ⟨[s!!"accept", s!!"accept-encoding"], true⟩ ∧
    Vary.pushStr ⟨[], false⟩ s!!"é" = .panic := by decide

section
variable {α : Type}

/-- Iterating a list header visits every item once in order, always announcing exactly how many are left,
and goes on answering `None`. -/
theorem C84_iter (l : StarList α) (k : Nat) :
    let it := (fun it : ListIter α => it.next.2)^[k] l.iter
    it.next.1 = l.entries[k]? ∧
    it.sizeHint = (l.entries.length - k, some (l.entries.length - k)) := by
  have h : ∀ (xs : List α), ((fun it : ListIter α => it.next.2)^[k] ⟨xs⟩).left = xs.drop k := by
    induction k with
    | zero => intro xs; rfl
    | succ k ih =>
      intro xs
      rw [Function.iterate_succ_apply]
      cases xs with
      | nil => have := ih []; simpa [ListIter.next] using this
      | cons x xs => simpa [ListIter.next] using ih xs
  have h' := h l.entries
  constructor
  · unfold ListIter.next
    show (match ((fun it : ListIter α => it.next.2)^[k] ⟨l.entries⟩).left with
      | [] => ((none : Option α), (⟨[]⟩ : ListIter α))
      | x :: xs => (some x, ⟨xs⟩)).1 = _
    rw [h']
    cases hd : l.entries.drop k with
    | nil =>
      have : l.entries.length ≤ k := List.drop_eq_nil_iff.mp hd
      simp [this]
    | cons x xs =>
      have : (l.entries.drop k)[0]? = some x := by rw [hd]; rfl
      rw [List.getElem?_drop] at this
      simpa using this.symm
  · show (((fun it : ListIter α => it.next.2)^[k] ⟨l.entries⟩).left.length,
      some ((fun it : ListIter α => it.next.2)^[k] ⟨l.entries⟩).left.length) = _
    rw [h']
    simp

example : ((fun it : ListIter Nat => it.next.2)^[1] (⟨[7, 8, 9], false⟩ : StarList Nat).iter).next.1 = some 8 ∧
    ((fun it : ListIter Nat => it.next.2)^[1] (⟨[7, 8, 9], false⟩ : StarList Nat).iter).sizeHint = (2, some 2) := by
  decide

/-- A weighted list after any calls, sorting and negotiating among them: it holds exactly the proposals
pushed, and the wildcard flag is the last one set. -/
theorem C84_accept [DecidableEq α] (a : AcceptList α) (ops : List (AcceptOp α)) :
    let r := a.calls AcceptList.negotiate ops
    r.entries.Perm (a.entries ++ proposals ops) ∧ LastSet acceptWildcard a.wildcard ops r.wildcard ∧
    ((∀ op ∈ ops, (∃ p, op = .push p) ∨ ∃ b, op = .setWildcard b) → r.entries = a.entries ++ proposals ops) := by
  exact accept_calls AcceptList.negotiate (fun a av => rfl) a ops

example : ((⟨true, [⟨Encoding.zstd, none⟩]⟩ : AcceptList Encoding).calls AcceptList.negotiate
    [.push ⟨.gzip, none⟩, .setWildcard false]) = ⟨false, [⟨.zstd, none⟩, ⟨.gzip, none⟩]⟩ := by decide +kernel

end

/-- The same for media types. -/
theorem C84_accept_media (a : AcceptList Mime) (ops : List (AcceptOp Mime)) :
    let r := a.calls AcceptList.negotiateMedia ops
    r.entries.Perm (a.entries ++ proposals ops) ∧ LastSet acceptWildcard a.wildcard ops r.wildcard ∧
    ((∀ op ∈ ops, (∃ p, op = .push p) ∨ ∃ b, op = .setWildcard b) → r.entries = a.entries ++ proposals ops) := by
  exact accept_calls AcceptList.negotiateMedia (fun a av => rfl) a ops

example : (AcceptList.new.calls AcceptList.negotiate
    [.push ⟨Encoding.gzip, none⟩, .setWildcard true, .push ⟨.brotli, some (Fl.one f32Format)⟩,
      .negotiate [.zstd], .push ⟨.zstd, none⟩]).entries.map (·.item) = [.brotli, .gzip, .zstd] := by
  decide +kernel

/-- An Allow header contains exactly the methods inserted, each visited once. -/
theorem C84_allow (ms : List Method) :
    (∀ m, Allow.contains (Allow.run [] ms) m = true ↔ m ∈ ms) ∧ (Allow.run [] ms).Nodup ∧
    (∀ m, m ∈ Allow.run [] ms ↔ m ∈ ms) := by
  have key : ∀ (s : List Method), s.Nodup →
      (Allow.run s ms).Nodup ∧ ∀ m, m ∈ Allow.run s ms ↔ m ∈ s ∨ m ∈ ms := by
    induction ms with
    | nil => intro s hs; exact ⟨hs, by simp [Allow.run]⟩
    | cons x ms ih =>
      intro s hs
      unfold Allow.run
      have hn : (Allow.insert x s).Nodup := by
        unfold Allow.insert
        split
        · exact hs
        · rename_i h
          exact List.nodup_append.mpr ⟨hs, by simp, by intro a ha b hb; simp at hb; subst hb; intro h'; subst h'; exact h ha⟩
      have hm : ∀ m, m ∈ Allow.insert x s ↔ m ∈ s ∨ m = x := by
        intro m
        unfold Allow.insert
        split
        · rename_i h
          constructor
          · exact Or.inl
          · rintro (h' | rfl)
            · exact h'
            · exact h
        · simp
      obtain ⟨h1, h2⟩ := ih _ hn
      refine ⟨h1, ?_⟩
      intro m
      rw [h2, hm]
      simp [or_assoc]
  obtain ⟨h1, h2⟩ := key [] (by simp)
  refine ⟨?_, h1, by simpa using h2⟩
  intro m
  unfold Allow.contains
  rw [List.contains_iff_mem, h2]
  simp

example : Allow.run [] [.get, .post, .get] = [.get, .post] := by decide

/-! ## C85 setters -/

/-- Setters of Strict-Transport-Security: each field is the last value given to it, whatever the order of
calls. -/
theorem C85_hsts (p : Hsts) (ops : List HstsOp) :
    let r := ops.foldl Hsts.step p
    LastSet (fun | .maxAge d => some d | _ => none) p.maxAge ops r.maxAge ∧
    LastSet (fun | .includeSubdomains b => some b | _ => none) p.includeSubdomains ops r.includeSubdomains ∧
    LastSet (fun | .preload b => some b | _ => none) p.preload ops r.preload :=
  ⟨lastSet_foldl Hsts.step Hsts.maxAge _ (fun s op => by cases op <;> rfl) p ops,
    lastSet_foldl Hsts.step Hsts.includeSubdomains _ (fun s op => by cases op <;> rfl) p ops,
    lastSet_foldl Hsts.step Hsts.preload _ (fun s op => by cases op <;> rfl) p ops⟩

example : [HstsOp.preload true, .maxAge ⟨60, 0⟩, .includeSubdomains true, .maxAge ⟨9, 0⟩, .preload false].foldl Hsts.step
    Hsts.default = ⟨⟨9, 0⟩, true, false⟩ := rfl

/-- Made from a duration, by `new` or by conversion, it has that age and no flags, and gives the duration back. -/
theorem C85_hsts_duration (d : Duration) (p : Hsts) :
    Hsts.new d = ⟨d, false, false⟩ ∧ Hsts.ofDuration d = ⟨d, false, false⟩ ∧ (Hsts.ofDuration d).toDuration = d ∧ p.toDuration = p.maxAge :=
  ⟨rfl, rfl, rfl, rfl⟩

example : [HstsOp.preload true, .maxAge ⟨5, 0⟩, .preload false, .includeSubdomains true].foldl Hsts.step
    (Hsts.new ⟨1, 0⟩) = ⟨⟨5, 0⟩, true, false⟩ := rfl

/-- Setters of Authorization and WWW-Authenticate. -/
theorem C85_auth (a : Authorization) (w : WwwAuthenticate) (ops : List AuthOp) (wops : List WwwOp) :
    let r := ops.foldl Authorization.step a
    let q := wops.foldl WwwAuthenticate.step w
    LastSet (fun | .scheme s => some s | _ => none) a.scheme ops r.scheme ∧
    LastSet (fun | .credentials c => some c | _ => none) a.credentials ops r.credentials ∧
    LastSet (fun | .scheme s => some s | _ => none) w.scheme wops q.scheme ∧
    LastSet (fun | .realm c => some c | _ => none) w.realm wops q.realm :=
  ⟨lastSet_foldl Authorization.step Authorization.scheme _ (fun s op => by cases op <;> rfl) a ops,
    lastSet_foldl Authorization.step Authorization.credentials _ (fun s op => by cases op <;> rfl) a ops,
    lastSet_foldl WwwAuthenticate.step WwwAuthenticate.scheme _ (fun s op => by cases op <;> rfl) w wops,
    lastSet_foldl WwwAuthenticate.step WwwAuthenticate.realm _ (fun s op => by cases op <;> rfl) w wops⟩

example : [AuthOp.scheme .bearer, .credentials s!!"x", .scheme .digest].foldl Authorization.step
    ⟨.basic, s!!"y"⟩ = ⟨.digest, s!!"x"⟩ := rfl

/-- Setters of Forwarded: `for` collects, the others keep the last value. Making it owned changes nothing. -/
theorem C85_forwarded (f : Forwarded) (ops : List FwdOp) :
    let r := ops.foldl Forwarded.step f
    r.forwardedFor = f.forwardedFor ++ ops.filterMap (fun | .addFor v => some v | _ => none) ∧
    LastSet (fun | .host v => some (some v) | _ => none) f.host ops r.host ∧
    LastSet (fun | .proto v => some (some v) | _ => none) f.proto ops r.proto ∧
    LastSet (fun | .by v => some (some v) | _ => none) f.by' ops r.by' ∧
    f.intoOwned = f := by
  refine ⟨?_, lastSet_foldl Forwarded.step Forwarded.host _ (fun s op => by cases op <;> rfl) f ops,
    lastSet_foldl Forwarded.step Forwarded.proto _ (fun s op => by cases op <;> rfl) f ops,
    lastSet_foldl Forwarded.step Forwarded.by' _ (fun s op => by cases op <;> rfl) f ops, ?_⟩
  · induction ops generalizing f with
    | nil => simp
    | cons op ops ih =>
      simp only [List.foldl_cons]
      rw [ih]
      cases op <;> simp [Forwarded.step, Forwarded.addFor, Forwarded.setHost, Forwarded.setProto, Forwarded.setBy]
  · simp [Forwarded.intoOwned]

example : [FwdOp.addFor s!!"a", .host s!!"h", .addFor s!!"b", .host s!!"i"].foldl Forwarded.step ⟨none, [], none, none⟩ =
    ⟨none, [s!!"a", s!!"b"], some s!!"i", none⟩ := rfl

/-- The length is the last one set. -/
theorem C85_length (n : Nat) (ls : List Nat) :
    LastSet some n ls (ls.foldl ContentLength.setLen n) :=
  lastSet_foldl ContentLength.setLen id some (fun _ _ => rfl) n ls

example : [3, 7].foldl ContentLength.setLen 1 = 7 := rfl

/-- "Last set" determines the value. -/
theorem C85_last_unique {ω β : Type} (sets : ω → Option β) (init : β) (ops : List ω) (v w : β)
    (hv : LastSet sets init ops v) (hw : LastSet sets init ops w) : v = w := lastSet_unique hv hw

example : LastSet (fun n : Nat => if n < 5 then some n else none) 0 [1, 2, 9] 2 := .inl ⟨[1], 2, [9], by decide⟩

end HT
