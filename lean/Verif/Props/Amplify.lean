import Verif.Spec.Amplify
import Verif.Props.Lists
import Verif.Props.Security
import Verif.Props.Allow
import Verif.Props.Auth
import Verif.Props.Content
import Verif.Props.ForwardedAny
import Verif.Props.Location
import Verif.Props.ServerTiming
import Verif.Props.Tables
import Verif.Props.Whatwg

/-! C122: what is read from a message is not larger than what was sent. -/

namespace HT
open Spec

/-! ### Pieces of lines -/

theorem split_length (c : Char) (s : Str) : (split c s).length = s.count c + 1 := by
  induction s with
  | nil => rfl
  | cons x s ih =>
    unfold split
    by_cases hx : x = c
    · subst hx
      rw [if_pos rfl, List.length_cons, ih, List.count_cons_self]
    · rw [if_neg hx, List.count_cons_of_ne hx]
      split
      · rename_i h; exact absurd h (split_ne_nil c s)
      · rename_i p ps h
        rw [h] at ih
        exact ih

theorem split_chars (c : Char) (s : Str) : chars (split c s) + s.count c = s.length := by
  induction s with
  | nil => rfl
  | cons x s ih =>
    unfold split
    by_cases hx : x = c
    · subst hx
      rw [if_pos rfl, List.count_cons_self]
      simp only [chars, List.map_cons, List.sum_cons, List.length_nil, List.length_cons] at ih ⊢
      omega
    · rw [if_neg hx, List.count_cons_of_ne hx]
      split
      · rename_i h; exact absurd h (split_ne_nil c s)
      · rename_i p ps h
        rw [h] at ih
        simp only [chars, List.map_cons, List.sum_cons, List.length_cons] at ih ⊢
        omega

theorem trim_length (s : Str) : (trim s).length ≤ s.length := by
  obtain ⟨w, w', h, -, -⟩ := trim_spec s
  have := congrArg List.length h
  simp only [List.length_append] at this
  omega

theorem trimStart_length (s : Str) : (trimStart s).length ≤ s.length := by
  obtain ⟨w, h, -⟩ := trimStart_suffix s
  have := congrArg List.length h
  simp only [List.length_append] at this
  omega

theorem trimEnd_length (s : Str) : (trimEnd s).length ≤ s.length := by
  obtain ⟨w, h, -⟩ := trimEnd_prefix s
  have := congrArg List.length h
  simp only [List.length_append] at this
  omega

theorem trim_count {c : Char} (hc : isWs c = false) (s : Str) : (trim s).count c = s.count c := by
  obtain ⟨w, w', h, hw, hw'⟩ := trim_spec s
  have z : ∀ t : Str, (∀ x ∈ t, isWs x = true) → t.count c = 0 := by
    intro t ht
    rw [List.count_eq_zero]
    intro hm
    rw [ht c hm] at hc
    cases hc
  conv_rhs => rw [h, List.count_append, List.count_append, z w hw, z w' hw']
  omega

theorem chars_append (a b : List Str) : chars (a ++ b) = chars a + chars b := by simp [chars]

/-- The pieces between commas. -/
theorem pieces (lines : List Str) : (lines.flatMap fun v => split ',' v).length = lines.length + occurrences ',' lines ∧
    chars (lines.flatMap fun v => split ',' v) + occurrences ',' lines = chars lines := by
  induction lines with
  | nil => exact ⟨rfl, rfl⟩
  | cons v vs ih =>
    have h1 := split_length ',' v
    have h2 := split_chars ',' v
    rw [List.flatMap_cons, chars_append, List.length_append]
    simp only [occurrences, chars, List.map_cons, List.sum_cons, List.length_cons] at *
    omega

theorem trimmed_pieces (lines : List Str) : (trimmedParts lines).length = lines.length + occurrences ',' lines ∧
    chars (trimmedParts lines) + occurrences ',' lines ≤ chars lines := by
  unfold trimmedParts
  rw [iter_eq]
  induction lines with
  | nil => exact ⟨rfl, Nat.le_refl _⟩
  | cons v vs ih =>
    have h1 := split_length ',' (trim v)
    have h2 := split_chars ',' (trim v)
    have h3 := trim_length v
    rw [trim_count (by decide)] at h1 h2
    rw [List.flatMap_cons, chars_append, List.length_append]
    simp only [occurrences, chars, List.map_cons, List.sum_cons, List.length_cons] at *
    omega

/-- A loop over pieces that adds one item at most for a piece, of at most `k` times the size of the piece. -/
theorem loop_bound {A : Type} (k : Nat) (loop : List Str → A → Res A) (sizes : A → List Nat)
    (h0 : ∀ a r, loop [] a = .ok r → r = a)
    (h1 : ∀ p ps a r, loop (p :: ps) a = .ok r → ∃ b, loop ps b = .ok r ∧ (sizes b).length ≤ (sizes a).length + 1 ∧
      (sizes b).sum ≤ (sizes a).sum + k * p.length) (ps : List Str) (a r : A) (h : loop ps a = .ok r) :
    (sizes r).length ≤ (sizes a).length + ps.length ∧ (sizes r).sum ≤ (sizes a).sum + k * chars ps := by
  induction ps generalizing a with
  | nil => rw [h0 a r h]; simp [chars]
  | cons p ps ih =>
    obtain ⟨b, hb, b1, b2⟩ := h1 p ps a r h
    obtain ⟨i1, i2⟩ := ih b hb
    have e : chars (p :: ps) = p.length + chars ps := by simp [chars]
    rw [e, Nat.mul_add, List.length_cons]
    omega

theorem noMore_trimmed {A : Type} {k : Nat} {loop : List Str → A → Res A} {sizes : A → List Nat} {a r : A} {lines : List Str}
    (h0 : ∀ a r, loop [] a = .ok r → r = a)
    (h1 : ∀ p ps a r, loop (p :: ps) a = .ok r → ∃ b, loop ps b = .ok r ∧ (sizes b).length ≤ (sizes a).length + 1 ∧
      (sizes b).sum ≤ (sizes a).sum + k * p.length)
    (ha : sizes a = []) (h : loop (trimmedParts lines) a = .ok r) : NoMore k lines (sizes r) := by
  obtain ⟨b1, b2⟩ := loop_bound k loop sizes h0 h1 _ a r h
  obtain ⟨p1, p2⟩ := trimmed_pieces lines
  rw [ha] at b1 b2
  refine ⟨by simp at b1; omega, ?_⟩
  have := Nat.mul_le_mul_left k p2
  rw [Nat.mul_add] at this
  simp at b2
  omega

theorem starSizes_push {α : Type} (size : α → Nat) (star : Nat) (l : StarList α) (e : α) :
    (starSizes size star { l with entries := l.entries ++ [e] }).length = (starSizes size star l).length + 1 ∧
    (starSizes size star { l with entries := l.entries ++ [e] }).sum = (starSizes size star l).sum + size e := by
  unfold starSizes
  cases l.wildcard <;> (simp; try omega)

theorem starSizes_star {α : Type} (size : α → Nat) (star : Nat) (l : StarList α) :
    (starSizes size star { l with wildcard := true }).length ≤ (starSizes size star l).length + 1 ∧
    (starSizes size star { l with wildcard := true }).sum ≤ (starSizes size star l).sum + star := by
  unfold starSizes
  cases l.wildcard <;> simp

/-- Lists with a wildcard. -/
theorem noMore_star {α : Type} {name : HeaderName} {star : Str} {parse : Str → Res α} {size : α → Nat}
    (hp : ∀ s e, parse s = .ok e → size e ≤ s.length) {h : Headers} {l : StarList α}
    (hr : readStarList name star parse h = .ok (some l)) :
    NoMore 1 (linesOf h name) (starSizes size star.length l) := by
  unfold readStarList at hr
  unfold linesOf
  cases hg : h.get name with
  | none => rw [hg] at hr; cases hr
  | some vs =>
    rw [hg] at hr
    rw [map_some_ok] at hr
    obtain ⟨l', hl, e⟩ := hr
    cases e
    refine noMore_trimmed (loop := starLoop star parse) (a := ⟨[], false⟩) ?_ ?_ rfl hl
    · intro a r h; unfold starLoop at h; cases h; rfl
    · intro p ps a r h
      unfold starLoop at h
      simp only at h
      have ht := trim_length p
      split at h
      · rename_i he
        obtain ⟨s1, s2⟩ := starSizes_star size star.length a
        have : star.length ≤ p.length := by rw [← he]; exact ht
        exact ⟨_, h, s1, by omega⟩
      · rw [Res.bind_eq_ok_iff] at h
        obtain ⟨e, he, h⟩ := h
        have := hp _ _ he
        obtain ⟨s1, s2⟩ := starSizes_push size star.length a e
        exact ⟨_, h, by omega, by omega⟩

/-! ### Lists -/

theorem lower_length (s : Str) : (lower s).length = s.length := by simp [lower]

theorem etag_size {s : Str} {e : ETag} (h : ETag.fromStr s = .ok e) : (etagText e).length ≤ s.length := by
  rw [((C33_parse_iff s).1 e).mp h |>.1]

theorem headerName_size {s : Str} {n : HeaderName} (h : HeaderName.fromStr s = .ok n) : n.length = s.length := by
  unfold HeaderName.fromStr at h
  split at h
  · cases h; exact lower_length s
  · cases h

theorem clear_size {s : Str} {d : ClearDirective} (h : ClearDirective.fromStr s = .ok d) : d.asStr.length ≤ s.length := by
  unfold ClearDirective.fromStr at h
  split at h
  · rename_i e; cases h; rw [e]; decide
  split at h
  · rename_i e; cases h; rw [e]; decide
  split at h
  · rename_i e; cases h; rw [e]; decide
  split at h
  · rename_i e; cases h; rw [e]; decide
  · cases h

theorem method_size {s : Str} {m : Method} (h : Method.fromStr s = .ok m) : m.asStr.length = s.length := by
  rw [← (Method.fromStr_ok_iff s m).mp h]
  simp [upper]

/-- If-Match, If-None-Match, Vary and Clear-Site-Data: the members and the wildcard read are no more, and no longer, than what
was sent. -/
theorem C122_lists (h : Headers) :
    (∀ l, IfMatch.fromHeaders h = .ok (some l) →
      NoMore 1 (linesOf h s!!"if-match") (starSizes (fun e => (etagText e).length) 1 l)) ∧
    (∀ l, IfMatch.noneFromHeaders h = .ok (some l) →
      NoMore 1 (linesOf h s!!"if-none-match") (starSizes (fun e => (etagText e).length) 1 l)) ∧
    (∀ l, Vary.fromHeaders h = .ok (some l) → NoMore 1 (linesOf h s!!"vary") (starSizes List.length 1 l)) ∧
    (∀ l, ClearSiteData.fromHeaders h = .ok (some l) →
      NoMore 1 (linesOf h s!!"clear-site-data") (starSizes (fun d => d.asStr.length) 3 l)) := by
  refine ⟨fun l hl => noMore_star (fun _ _ => etag_size) hl, fun l hl => noMore_star (fun _ _ => etag_size) hl,
    fun l hl => noMore_star ?_ hl, fun l hl => noMore_star (fun _ _ => clear_size) hl⟩
  intro s n hn
  rw [headerName_size hn]
  exact trim_length s

example : ∃ h l, Vary.fromHeaders h = .ok (some l) ∧ linesOf h s!!"vary" = [s!!"a,*", s!!" bc "] ∧
    starSizes List.length 1 l = [1, 2, 1] :=
  ⟨[(s!!"vary", [s!!"a,*", s!!" bc "])], ⟨[s!!"a", s!!"bc"], true⟩, by decide +kernel, by decide, by decide⟩

theorem allow_insert_sizes (m : Method) (acc : List Method) :
    ((Allow.insert m acc).map fun m => m.asStr.length).length ≤ (acc.map fun m => m.asStr.length).length + 1 ∧
    ((Allow.insert m acc).map fun m => m.asStr.length).sum ≤ (acc.map fun m => m.asStr.length).sum + m.asStr.length := by
  unfold Allow.insert
  split <;> simp

/-- Allow: a set of at most as many methods as were sent. -/
theorem C122_allow (h : Headers) (ms : List Method) (hr : Allow.fromHeaders h = .ok (some ms)) :
    NoMore 1 (linesOf h s!!"allow") (ms.map fun m => m.asStr.length) := by
  unfold Allow.fromHeaders at hr
  unfold linesOf
  cases hg : h.get s!!"allow" with
  | none => rw [show h.get Allow.name = none from hg] at hr; cases hr
  | some vs =>
    rw [show h.get Allow.name = some vs from hg] at hr
    rw [map_some_ok] at hr
    obtain ⟨l', hl, e⟩ := hr
    cases e
    refine noMore_trimmed (loop := Allow.loop) (sizes := fun ms => ms.map fun m => m.asStr.length) (a := []) ?_ ?_ rfl hl
    · intro a r h; unfold Allow.loop at h; cases h; rfl
    · intro p ps a r h
      unfold Allow.loop at h
      rw [Res.bind_eq_ok_iff] at h
      obtain ⟨m, hm, h⟩ := h
      have h1 := method_size hm
      have h2 := trim_length p
      obtain ⟨i1, i2⟩ := allow_insert_sizes m a
      exact ⟨_, h, i1, by omega⟩

example : ∃ h ms, Allow.fromHeaders h = .ok (some ms) ∧ linesOf h s!!"allow" = [s!!"get, Get,PUT"] ∧
    (ms.map fun m => m.asStr.length) = [3, 3] :=
  ⟨[(s!!"allow", [s!!"get, Get,PUT"])], [.get, .put], by decide +kernel, by decide, by decide⟩

theorem cacheDirective_ne {p : Str} {e : CacheDirective} (h : CacheDirective.fromStr p = .ok (some e)) : 1 ≤ p.length := by
  cases p with
  | nil => cases h
  | cons c p => simp

/-- Cache-Control: at most one directive per line and comma, and none for an empty piece. -/
theorem C122_cache (h : Headers) (ds : List CacheDirective) (hr : CacheControl.fromHeaders h = .ok (some ds)) :
    NoMore 1 (linesOf h s!!"cache-control") (ds.map fun _ => 1) := by
  unfold CacheControl.fromHeaders at hr
  unfold linesOf
  cases hg : h.get s!!"cache-control" with
  | none => rw [show h.get CacheControl.name = none from hg] at hr; cases hr
  | some vs =>
    rw [show h.get CacheControl.name = some vs from hg] at hr
    rw [map_some_ok] at hr
    obtain ⟨l', hl, e⟩ := hr
    cases e
    refine noMore_trimmed (loop := CacheControl.loop) (sizes := fun ms => ms.map fun _ => 1) (a := []) ?_ ?_ rfl hl
    · intro a r h; unfold CacheControl.loop at h; cases h; rfl
    · intro p ps a r h
      unfold CacheControl.loop at h
      rw [Res.bind_eq_ok_iff] at h
      obtain ⟨m, hm, h⟩ := h
      cases m with
      | none => exact ⟨_, h, by simp, by simp⟩
      | some e =>
        have := cacheDirective_ne hm
        exact ⟨_, h, by simp, by simp; omega⟩

example : ∃ h ds, CacheControl.fromHeaders h = .ok (some ds) ∧ linesOf h s!!"cache-control" = [s!!"no-store,,x", s!!"max-age=5"] ∧
    ds.length = 2 :=
  ⟨[(s!!"cache-control", [s!!"no-store,,x", s!!"max-age=5"])], [.noStore, .maxAge ⟨5, 0⟩], by decide +kernel, by decide, rfl⟩

/-- Timing-Allow-Origin: no more origins than were sent; if no address is held in more than `k` times the space of its text,
no more than `k` times the text. -/
theorem C122_origins {Url : Type} (parse : Str → Option Url) (size : Url → Nat) (k : Nat) (hk : 1 ≤ k)
    (hs : ∀ s u, parse s = some u → size u ≤ k * s.length) (h : Headers) (l : StarList Url)
    (hr : TimingAllowOrigin.fromHeaders parse h = .ok (some l)) :
    NoMore k (linesOf h s!!"timing-allow-origin") (starSizes size 1 l) := by
  unfold TimingAllowOrigin.fromHeaders at hr
  unfold linesOf
  cases hg : h.get s!!"timing-allow-origin" with
  | none => rw [show h.get TimingAllowOrigin.name = none from hg] at hr; cases hr
  | some vs =>
    rw [show h.get TimingAllowOrigin.name = some vs from hg] at hr
    rw [map_some_ok] at hr
    obtain ⟨l', hl, e⟩ := hr
    cases e
    rw [iter_eq] at hl
    obtain ⟨b1, b2⟩ := loop_bound k (TimingAllowOrigin.loop parse) (starSizes size 1)
      (by intro a r h; unfold TimingAllowOrigin.loop at h; cases h; rfl)
      (by
        intro p ps a r h
        unfold TimingAllowOrigin.loop at h
        simp only at h
        have ht := trimStart_length p
        split at h
        · rename_i he
          obtain ⟨s1, s2⟩ := starSizes_star size 1 a
          have h1 : 1 ≤ p.length := by rw [he] at ht; exact ht
          have : 1 ≤ k * p.length := Nat.mul_le_mul hk h1
          exact ⟨_, h, s1, by omega⟩
        split at h
        · exact ⟨_, h, by omega, by omega⟩
        · rw [Res.bind_eq_ok_iff] at h
          obtain ⟨u, hu, h⟩ := h
          obtain ⟨s1, s2⟩ := starSizes_push size 1 a u
          have : parse (trimStart p) = some u := by
            cases hx : parse (trimStart p) with
            | none => rw [hx] at hu; cases hu
            | some v => rw [hx] at hu; cases hu; rfl
          have h1 := hs _ _ this
          have h2 := Nat.mul_le_mul_left k ht
          exact ⟨_, h, by omega, by omega⟩) _ ⟨[], false⟩ _ hl
    obtain ⟨p1, p2⟩ := pieces vs
    refine ⟨?_, ?_⟩
    · rw [p1] at b1
      simpa [starSizes] using b1
    · rw [Option.getD_some, ← p2, Nat.mul_add]
      simp only [starSizes, List.map_nil, List.nil_append] at b2
      simp only [starSizes]
      simp only [Bool.false_eq_true, if_false, List.sum_nil] at b2
      omega

example : ∃ h l, TimingAllowOrigin.fromHeaders (fun s => if s = [] then none else some s) h = .ok (some l) ∧
    linesOf h s!!"timing-allow-origin" = [s!!"a,*", s!!" bc"] ∧ starSizes List.length 1 l = [1, 2, 1] :=
  ⟨[(s!!"timing-allow-origin", [s!!"a,*", s!!" bc"])], ⟨[s!!"a", s!!"bc"], true⟩, by decide +kernel, by decide, by decide⟩

/-! ### Proposals -/

theorem proposalSizes_push {α : Type} (size : α → Nat) (a : AcceptList α) (p : Proposal α) :
    (proposalSizes size { a with entries := a.entries ++ [p] }).length = (proposalSizes size a).length + 1 ∧
    (proposalSizes size { a with entries := a.entries ++ [p] }).sum = (proposalSizes size a).sum + size p.item := by
  unfold proposalSizes
  cases a.wildcard <;> (simp; try omega)

theorem proposalSizes_star {α : Type} (size : α → Nat) (a : AcceptList α) :
    (proposalSizes size { a with wildcard := true }).length ≤ (proposalSizes size a).length + 1 ∧
    (proposalSizes size { a with wildcard := true }).sum ≤ (proposalSizes size a).sum + 1 := by
  unfold proposalSizes
  cases a.wildcard <;> simp

theorem noMore_proposals {α : Type} {name : HeaderName} {parse : Str → Res (Option (Proposal α))} {size : α → Nat} {k : Nat}
    (hk : 1 ≤ k) (hp : ∀ s p, parse s = .ok (some p) → size p.item ≤ k * s.length) {h : Headers} {a : AcceptList α}
    (hr : AcceptList.fromHeaders name parse h = .ok (some a)) : NoMore k (linesOf h name) (proposalSizes size a) := by
  unfold AcceptList.fromHeaders at hr
  unfold linesOf
  cases hg : h.get name with
  | none => rw [hg] at hr; cases hr
  | some vs =>
    rw [hg] at hr
    rw [map_some_ok] at hr
    obtain ⟨l', hl, e⟩ := hr
    cases e
    refine noMore_trimmed (loop := AcceptList.loop parse) (a := AcceptList.new) ?_ ?_ rfl hl
    · intro a r h; unfold AcceptList.loop at h; cases h; rfl
    · intro p ps a r h
      unfold AcceptList.loop at h
      simp only at h
      have ht := trim_length p
      split at h
      · exact ⟨_, h, by omega, by omega⟩
      split at h
      · rename_i he
        obtain ⟨s1, s2⟩ := proposalSizes_star size a
        have h1 : 1 ≤ p.length := by rw [he] at ht; exact ht
        have : 1 ≤ k * p.length := Nat.mul_le_mul hk h1
        exact ⟨_, h, s1, by omega⟩
      · rw [Res.bind_eq_ok_iff] at h
        obtain ⟨e, he, h⟩ := h
        cases e with
        | none => exact ⟨_, h, by omega, by omega⟩
        | some e =>
          have h1 := hp _ _ he
          have h2 := Nat.mul_le_mul_left k ht
          obtain ⟨s1, s2⟩ := proposalSizes_push size a e
          exact ⟨_, h, by omega, by omega⟩

theorem proposal_size {α : Type} {coding : Str → Option α} {text : α → Str}
    (hc : ∀ s e, coding s = some e → trim s = text e) {s : Str} {p : Proposal α}
    (h : Proposal.fromStr coding s = .ok (some p)) : (text p.item).length ≤ s.length := by
  unfold Proposal.fromStr at h
  have hs := split_chars ';' s
  cases hp : split ';' s with
  | nil => exact absurd hp (split_ne_nil _ _)
  | cons name rest =>
    rw [hp] at h hs
    simp only at h
    have hn : name.length ≤ s.length := by simp [chars] at hs; omega
    cases hcn : coding name with
    | none => rw [hcn] at h; cases h
    | some c =>
      rw [hcn] at h
      have h1 := trim_length name
      rw [hc _ _ hcn] at h1
      have key : ∀ w q, (Proposal.new c w).map some = .ok (some q) → q.item = c := by
        intro w q hq
        cases w with
        | none => cases hq; rfl
        | some w =>
          unfold Proposal.new at hq
          simp only at hq
          split at hq
          · cases hq; rfl
          · cases hq
      simp only at h
      cases rest with
      | nil => rw [key _ _ h]; omega
      | cons w ws =>
        simp only at h
        rw [Res.bind_eq_ok_iff] at h
        obtain ⟨w', -, h⟩ := h
        rw [key _ _ h]; omega

/-- Accept-Encoding and TE. -/
theorem C122_codings (h : Headers) :
    (∀ a, AcceptEncoding.fromHeaders h = .ok (some a) →
      NoMore 1 (linesOf h s!!"accept-encoding") (proposalSizes (fun e => e.display.length) a)) ∧
    (∀ a, TE.fromHeaders h = .ok (some a) →
      NoMore 1 (linesOf h s!!"te") (proposalSizes (fun e => e.display.length) a)) := by
  refine ⟨fun a ha => noMore_proposals (Nat.le_refl 1) ?_ ha, fun a ha => noMore_proposals (Nat.le_refl 1) ?_ ha⟩
  · intro s p hp
    have := proposal_size (text := Encoding.display) (fun s e he => (encoding_fromStr s e).mp he) hp
    omega
  · intro s p hp
    have := proposal_size (text := TEncoding.display) (fun s e he => (tencoding_fromStr s e).mp he) hp
    omega

example : ∃ h a, AcceptEncoding.fromHeaders h = .ok (some a) ∧
    linesOf h s!!"accept-encoding" = [s!!"br;q=1, x,*", s!!"gzip"] ∧ proposalSizes (fun e => e.display.length) a = [2, 4, 1] :=
  ⟨[(s!!"accept-encoding", [s!!"br;q=1, x,*", s!!"gzip"])], ⟨true, [⟨.brotli, some (Fl.one f32Format)⟩, ⟨.gzip, none⟩]⟩,
    by decide +kernel, by decide, by decide⟩

/-! ### Server-Timing -/

theorem unquote_size {v t : Str} (h : Metric.unquote v = .ok t) : t.length ≤ v.length := by
  unfold Metric.unquote at h
  split at h
  · split at h
    · cases h; simp; omega
    · cases h
  · split at h
    · cases h
    · cases h; exact Nat.le_refl _

theorem mem_chars {p : Str} {ps : List Str} (h : p ∈ ps) : p.length ≤ chars ps := by
  unfold chars
  induction ps with
  | nil => cases h
  | cons q ps ih =>
    rw [List.map_cons, List.sum_cons]
    rcases List.mem_cons.mp h with rfl | h
    · omega
    · have := ih h; omega

theorem mem_split_length {c : Char} {s p : Str} (h : p ∈ split c s) : p.length ≤ s.length := by
  have := mem_chars h
  have := split_chars c s
  omega

/-- The description is one of the values or was there before. -/
theorem params_size (ps : List Str) (dur d : Option Duration) (desc e : Option Str) (n : Nat)
    (hd : (desc.getD []).length ≤ n) (hp : ∀ p ∈ ps, p.length ≤ n) (h : Metric.params ps dur desc = .ok (d, e)) :
    (e.getD []).length ≤ n := by
  induction ps generalizing dur desc with
  | nil => cases h; exact hd
  | cons p ps ih =>
    have hp' : ∀ q ∈ ps, q.length ≤ n := fun q hq => hp q (List.mem_cons_of_mem _ hq)
    unfold Metric.params at h
    split at h
    · cases h
    split at h
    · rename_i name value tl hs
      simp only at h
      split at h
      · rw [Res.bind_eq_ok_iff] at h
        obtain ⟨x, -, h⟩ := h
        rw [Res.bind_eq_ok_iff] at h
        obtain ⟨y, -, h⟩ := h
        exact ih _ _ hd hp' h
      split at h
      · rw [Res.bind_eq_ok_iff] at h
        obtain ⟨t, ht, h⟩ := h
        refine ih _ _ ?_ hp' h
        have h1 := unquote_size ht
        have h2 := trimStart_length value
        have h3 := mem_split_length (c := '=') (s := trimStart p) (p := value) (by rw [hs]; simp)
        have h4 := trimStart_length p
        have h5 := hp p (List.mem_cons_self)
        simp only [Option.getD_some]
        omega
      · exact ih _ _ hd hp' h
    · cases h

theorem parseEntry_size {s : Str} {m : Metric} (h : Metric.parseEntry s = .ok m) : metricSize m ≤ s.length := by
  unfold Metric.parseEntry at h
  have hs := split_chars ';' (trim s)
  have ht := trim_length s
  cases hp : split ';' (trim s) with
  | nil => exact absurd hp (split_ne_nil _ _)
  | cons name parts =>
    rw [hp] at h hs
    simp only at h
    obtain ⟨d, e, h, he⟩ : ∃ d e, Metric.params parts none none = .ok (d, e) ∧ (⟨trimEnd name, d, e⟩ : Metric) = m := by
      cases hx : Metric.params parts none none with
      | ok x => rw [hx] at h; exact ⟨x.1, x.2, rfl, Res.ok.inj h⟩
      | err _ => rw [hx] at h; cases h
      | panic => rw [hx] at h; cases h
    have hsize := params_size parts none d none e (chars parts) (by simp) (fun p hp => mem_chars hp) h
    rw [← he]
    have := trimEnd_length name
    simp only [metricSize]
    simp only [chars, List.map_cons, List.sum_cons] at hs hsize
    omega

/-- Server-Timing: the metrics read, by their names and descriptions. -/
theorem C122_metrics (h : Headers) (ms : List Metric) (hr : ServerTiming.fromHeaders h = .ok (some ms)) :
    NoMore 1 (linesOf h s!!"server-timing") (ms.map metricSize) := by
  have key : ∀ (vs : List Str) (a r : List Metric), ServerTiming.loop vs a = .ok r →
      (r.map metricSize).length ≤ (a.map metricSize).length + (vs.length + occurrences ',' vs) ∧
      (r.map metricSize).sum + occurrences ',' vs ≤ (a.map metricSize).sum + chars vs := by
    intro vs
    induction vs with
    | nil => intro a r h; cases h; simp [occurrences, chars]
    | cons v vs ih =>
      intro a r h
      unfold ServerTiming.loop at h
      rw [Res.bind_eq_ok_iff] at h
      obtain ⟨b, hb, h⟩ := h
      obtain ⟨i1, i2⟩ := ih b r h
      unfold Metric.parseHeader at hb
      obtain ⟨b1, b2⟩ := loop_bound 1 Metric.parseHeader.loop (fun ms => ms.map metricSize)
        (by intro a r h; unfold Metric.parseHeader.loop at h; cases h; rfl)
        (by
          intro p ps a r h
          unfold Metric.parseHeader.loop at h
          rw [Res.bind_eq_ok_iff] at h
          obtain ⟨m, hm, h⟩ := h
          have : Metric.parseEntry p = .ok m := by
            cases hx : Metric.parseEntry p with
            | ok x => rw [hx] at hm; exact hm
            | err _ => rw [hx] at hm; cases hm
            | panic => rw [hx] at hm; cases hm
          have := parseEntry_size this
          exact ⟨_, h, by simp, by simp; omega⟩) _ _ _ hb
      have h1 := split_length ',' (trim v)
      have h2 := split_chars ',' (trim v)
      have h3 := trim_length v
      rw [trim_count (by decide)] at h1 h2
      simp only [occurrences, chars, List.map_cons, List.sum_cons, List.length_cons] at *
      omega
  unfold ServerTiming.fromHeaders at hr
  unfold linesOf
  cases hg : h.get s!!"server-timing" with
  | none => rw [show h.get ServerTiming.name = none from hg] at hr; cases hr
  | some vs =>
    rw [show h.get ServerTiming.name = some vs from hg] at hr
    rw [map_some_ok] at hr
    obtain ⟨l', hl, e⟩ := hr
    cases e
    rw [iter_eq] at hl
    obtain ⟨k1, k2⟩ := key vs [] _ hl
    simp only [List.map_nil, List.length_nil, List.sum_nil, Nat.zero_add] at k1 k2
    exact ⟨k1, by rw [Nat.one_mul, Nat.one_mul]; exact k2⟩

example : ∃ h ms, ServerTiming.fromHeaders h = .ok (some ms) ∧
    linesOf h s!!"server-timing" = [s!!"a;desc=bc, d;desc=e;desc=\"fgh\""] ∧ ms.map metricSize = [3, 4] :=
  ⟨[(s!!"server-timing", [s!!"a;desc=bc, d;desc=e;desc=\"fgh\""])], [⟨s!!"a", none, some s!!"bc"⟩, ⟨s!!"d", none, some s!!"fgh"⟩],
    by decide +kernel, by decide, by decide⟩

/-! ### Media types -/

open Mime

theorem collect_size (cond : Char → Bool) (s : Str) (pos : Nat) (hp : pos ≤ s.length) :
    (Whatwg.collect cond s pos).1.length + pos = (Whatwg.collect cond s pos).2 ∧
      (Whatwg.collect cond s pos).2 ≤ s.length := by
  have h : ((s.drop pos).takeWhile cond).length ≤ (s.drop pos).length := (List.takeWhile_sublist _).length_le
  rw [List.length_drop] at h
  simp only [Whatwg.collect]
  omega

theorem stripEnd_length (s : Str) : (Whatwg.stripEnd s).length ≤ s.length := by
  unfold Whatwg.stripEnd
  rw [List.length_reverse]
  refine Nat.le_trans (List.dropWhile_sublist _).length_le ?_
  rw [List.length_reverse]

theorem quoted_size (s : Str) (pos : Nat) (value : Str) (hp : pos ≤ s.length) :
    (Whatwg.quoted s pos value).1.length + pos ≤ value.length + (Whatwg.quoted s pos value).2 ∧
      (Whatwg.quoted s pos value).2 ≤ s.length := by
  induction hn : s.length - pos using Nat.strongRecOn generalizing pos value with
  | ind n ih =>
    obtain ⟨c1, c2⟩ := collect_size (fun c => decide (c ≠ '"' ∧ c ≠ '\\')) s pos hp
    change (qrun s pos).1.length + pos = (qrun s pos).2 at c1
    change (qrun s pos).2 ≤ s.length at c2
    cases hg : s[(qrun s pos).2]? with
    | none =>
      rw [(quoted_end value hg).1]
      simp only [List.length_append]
      omega
    | some c =>
      have hl := (List.getElem?_eq_some_iff.mp hg).1
      by_cases hc : c = '\\'
      · subst hc
        cases h2 : s[(qrun s pos).2 + 1]? with
        | none =>
          rw [(quoted_slash_end value hg h2).1]
          simp only [List.length_append, List.length_singleton]
          omega
        | some d =>
          have hl2 := (List.getElem?_eq_some_iff.mp h2).1
          rw [(quoted_slash value hg h2).1]
          obtain ⟨i1, i2⟩ := ih (s.length - ((qrun s pos).2 + 2)) (by omega) ((qrun s pos).2 + 2)
            (value ++ (qrun s pos).1 ++ [d]) (by omega) rfl
          simp only [List.length_append, List.length_singleton] at i1
          omega
      · rw [(quoted_close value hg hc).1]
        simp only [List.length_append]
        omega

/-- The parameters met from a position on, with their semicolons and equals signs, fit the text. -/
theorem parameters_size (s : Str) (pos : Nat) :
    ((Whatwg.parameters s pos).map paramSize).sum ≤ s.length - pos := by
  induction hn : s.length - pos using Nat.strongRecOn generalizing pos with
  | ind n ih =>
    rw [Whatwg.parameters]
    split
    · rename_i hlt
      obtain ⟨w1, w2⟩ := collect_size Whatwg.isWs s (pos + 1) (by omega)
      simp only
      generalize (Whatwg.collect Whatwg.isWs s (pos + 1)).2 = p at w1 w2
      obtain ⟨n1, n2⟩ := collect_size (fun c => decide (c ≠ ';' ∧ c ≠ '=')) s p w2
      generalize Whatwg.collect (fun c => decide (c ≠ ';' ∧ c ≠ '=')) s p = name at n1 n2
      split
      · simp
      · rename_i c hc
        have hl := (List.getElem?_eq_some_iff.mp hc).1
        split
        · have := ih _ (by omega) name.2 rfl
          omega
        · split
          · simp
          · rename_i d hd
            have hl2 := (List.getElem?_eq_some_iff.mp hd).1
            split
            · obtain ⟨q1, q2⟩ := quoted_size s (name.2 + 2) [] (by omega)
              generalize Whatwg.quoted s (name.2 + 2) [] = q at q1 q2
              obtain ⟨r1, r2⟩ := collect_size (fun c => decide (c ≠ ';')) s q.2 q2
              generalize Whatwg.collect (fun c => decide (c ≠ ';')) s q.2 = rest at r1 r2
              have qp : name.2 + 2 ≤ q.2 := by simp only [List.length_nil] at q1; omega
              have := ih _ (by omega) rest.2 rfl
              rw [List.map_cons, List.sum_cons]
              simp only [paramSize, lower_length]
              simp only [List.length_nil] at q1
              omega
            · obtain ⟨r1, r2⟩ := collect_size (fun c => decide (c ≠ ';')) s (name.2 + 1) (by omega)
              generalize Whatwg.collect (fun c => decide (c ≠ ';')) s (name.2 + 1) = v at r1 r2
              have := ih _ (by omega) v.2 rfl
              have hs := stripEnd_length v.1
              split
              · omega
              · rw [List.map_cons, List.sum_cons]
                simp only [paramSize, lower_length]
                omega
    · simp

/-- Type, subtype and the parameters that the standard meets fit the text. -/
theorem parts_size {s t st : Str} {raw : List (Str × Str)} (h : Whatwg.parts s = some (t, st, raw)) :
    t.length + 1 + st.length + (raw.map paramSize).sum ≤ s.length := by
  unfold Whatwg.parts at h
  have h0 : (Whatwg.stripEnd (s.dropWhile Whatwg.isWs)).length ≤ s.length :=
    Nat.le_trans (stripEnd_length _) (List.dropWhile_sublist _).length_le
  simp only at h
  generalize Whatwg.stripEnd (s.dropWhile Whatwg.isWs) = i at h h0
  obtain ⟨t1, t2⟩ := collect_size (fun c => decide (c ≠ '/')) i 0 (Nat.zero_le _)
  generalize Whatwg.collect (fun c => decide (c ≠ '/')) i 0 = type at h t1 t2
  split at h
  · cases h
  split at h
  · cases h
  rename_i hlt
  obtain ⟨s1, s2⟩ := collect_size (fun c => decide (c ≠ ';')) i (type.2 + 1) (by omega)
  generalize Whatwg.collect (fun c => decide (c ≠ ';')) i (type.2 + 1) = sub at h s1 s2
  split at h
  · cases h
  · cases h
    have h1 := parameters_size i sub.2
    have h2 := stripEnd_length sub.1
    rw [lower_length, lower_length]
    omega

/-- What may be met once more is shorter than the text. -/
theorem reread_size (s : Str) : ((Whatwg.reread s).map paramSize).sum ≤ s.length := by
  unfold Whatwg.reread
  have h0 : (Whatwg.stripEnd (s.dropWhile Whatwg.isWs)).length ≤ s.length :=
    Nat.le_trans (stripEnd_length _) (List.dropWhile_sublist _).length_le
  simp only
  rw [rereadFrom_eq]
  generalize Whatwg.dangling _ _ = d
  cases d with
  | none => simp [after]
  | some q =>
    refine Nat.le_trans (parameters_size _ _) ?_
    omega

theorem add_size (raw acc : List (Str × Str)) :
    ((raw.foldl Whatwg.addParameter acc).map paramSize).sum ≤ (acc.map paramSize).sum + (raw.map paramSize).sum := by
  induction raw generalizing acc with
  | nil => simp
  | cons p raw ih =>
    rw [List.foldl_cons, List.map_cons, List.sum_cons]
    refine Nat.le_trans (ih _) ?_
    unfold Whatwg.addParameter
    split
    · simp only [List.map_append, List.map_cons, List.map_nil, List.sum_append, List.sum_cons, List.sum_nil]
      omega
    · omega

theorem filter_size (p : Str × Str) (raw : List (Str × Str)) :
    ((raw.filter (· ≠ p)).map paramSize).sum + (if p ∈ raw then paramSize p else 0) ≤ (raw.map paramSize).sum := by
  induction raw with
  | nil => simp
  | cons q raw ih =>
    by_cases h : q = p
    · subst h
      rw [List.filter_cons_of_neg (by simp), if_pos (List.mem_cons_self), List.map_cons, List.sum_cons]
      split at ih <;> omega
    · rw [List.filter_cons_of_pos (by simpa using h), List.map_cons, List.sum_cons, List.map_cons, List.sum_cons]
      have : (p ∈ q :: raw) ↔ p ∈ raw := by simp [Ne.symm h]
      simp only [this]
      omega

/-- The size of a media type against its text, and what was met twice. -/
theorem mime_size {s : Str} {m : Mime} (h : Mime.parse s = .ok m) :
    mimeSize m ≤ s.length + ((Whatwg.reread s).map paramSize).sum := by
  rw [C96_exact] at h
  cases hp : Whatwg.parts s with
  | none => rw [hp] at h; cases h
  | some x =>
    obtain ⟨t, st, raw⟩ := x
    rw [hp] at h
    cases h
    have h1 := parts_size hp
    have h2 := add_size ((raw ++ Whatwg.reread s).filter (· ≠ utf8Param)) []
    have h3 := filter_size utf8Param (raw ++ Whatwg.reread s)
    rw [List.map_append, List.sum_append] at h3
    simp only [mimeSize, decide_eq_true_eq]
    simp only [List.map_nil, List.sum_nil, Nat.zero_add] at h2
    change _ + 1 + _ + _ + (if utf8Param ∈ _ then paramSize utf8Param else 0) ≤ _
    omega

/-- The code stops within the text. -/
theorem quotedFrom_suffix (start s : Str) (h : s <:+ start) : (quotedFrom start s).2 <:+ start := by
  induction hn : s.length using Nat.strongRecOn generalizing start s with
  | ind n ih =>
    cases s with
    | nil => exact List.suffix_refl _
    | cons c s =>
      have hs : s <:+ start := (List.suffix_cons c s).trans h
      rw [quotedFrom_cons]
      split
      · exact hs
      · split
        · cases s with
          | nil => exact List.nil_suffix
          | cons d s =>
            have h2 : s <:+ start := (List.suffix_cons d s).trans hs
            exact (ih s.length (by rw [← hn]; simp; omega) s s (List.suffix_refl _) rfl).trans h2
        · exact ih s.length (by rw [← hn]; simp) start s hs rfl

/-- One pass takes a semicolon. -/
theorem paramStep_count {r rest : Str} {p : Option (Str × Str)} (h : paramStep (';' :: r) = .ok (some (p, rest))) :
    rest.count ';' + 1 ≤ (';' :: r).count ';' := by
  rw [List.count_cons_self]
  refine Nat.succ_le_succ (List.Sublist.count_le _ (List.IsSuffix.sublist ?_))
  rw [paramStep_cons] at h
  have hc : ∀ ds t, (Mime.collect ds t).2 <:+ t := fun ds t => List.dropWhile_suffix _
  have h0 : (Mime.collect [';', '='] (r.dropWhile isHttpWs)).2 <:+ r :=
    (hc _ _).trans (List.dropWhile_suffix _)
  generalize Mime.collect [';', '='] (r.dropWhile isHttpWs) = n at h h0
  split at h
  · cases h
  split at h
  · cases h; exact h0
  rw [Res.bind_eq_ok_iff] at h
  obtain ⟨i, hi, h⟩ := h
  have h1 : ∀ {a b : Str}, dropOne a = .ok b → b <:+ a := by
    intro a b e
    cases a with
    | nil => cases e
    | cons c a =>
      rw [dropOne] at e
      by_cases hc : isAsciiC c = true
      · rw [if_pos hc] at e
        exact Res.ok.inj e ▸ List.suffix_cons _ _
      · rw [if_neg hc] at e
        cases e
  have h2 : i <:+ r := (h1 hi).trans h0
  split at h
  · unfold collectQuoted at h
    cases hd : dropOne i with
    | ok d =>
      rw [hd] at h
      cases h
      exact ((hc _ _).trans (quotedFrom_suffix d d (List.suffix_refl _))).trans ((h1 hd).trans h2)
    | err _ => rw [hd] at h; cases h
    | panic => rw [hd] at h; cases h
  · split at h
    · cases h; exact (hc _ _).trans h2
    · cases h; exact (hc _ _).trans h2

/-- At most one parameter is met per semicolon. -/
theorem steps_count {i : Str} {ps : List (Str × Str)} (h : Steps i ps) (hi : AtSemi i) : ps.length ≤ i.count ';' := by
  induction h with
  | nil => simp
  | stop h => simp
  | skip h _ ih =>
    rcases hi with rfl | ⟨r, rfl⟩
    · exact absurd rfl (paramStep_ne h)
    · obtain ⟨o, ho, hs⟩ := paramStep_semi r
      rw [h] at ho
      cases ho
      have h1 := paramStep_count h
      have h2 := ih (hs _ _ rfl).1
      omega
  | next h _ ih =>
    rcases hi with rfl | ⟨r, rfl⟩
    · exact absurd rfl (paramStep_ne h)
    · obtain ⟨o, ho, hs⟩ := paramStep_semi r
      rw [h] at ho
      cases ho
      have h1 := paramStep_count h
      have h2 := ih (hs _ _ rfl).1
      rw [List.length_cons]
      omega

theorem add_length (raw acc : List (Str × Str)) :
    (raw.foldl Whatwg.addParameter acc).length ≤ acc.length + raw.length := by
  induction raw generalizing acc with
  | nil => simp
  | cons p raw ih =>
    rw [List.foldl_cons, List.length_cons]
    refine Nat.le_trans (ih _) ?_
    unfold Whatwg.addParameter
    split
    · simp only [List.length_append, List.length_singleton]
      omega
    · omega

theorem filter_length (p : Str × Str) (raw : List (Str × Str)) :
    (raw.filter (· ≠ p)).length + (if p ∈ raw then 1 else 0) ≤ raw.length := by
  induction raw with
  | nil => simp
  | cons q raw ih =>
    by_cases h : q = p
    · subst h
      rw [List.filter_cons_of_neg (by simp), if_pos (List.mem_cons_self), List.length_cons]
      split at ih <;> omega
    · rw [List.filter_cons_of_pos (by simpa using h), List.length_cons, List.length_cons]
      have : (p ∈ q :: raw) ↔ p ∈ raw := by simp [Ne.symm h]
      simp only [this]
      omega

theorem trimWs_sublist (s : Str) : (trimWs s).Sublist s := by
  unfold trimWs trimEndWs
  have h : ((s.dropWhile isHttpWs).reverse.dropWhile isHttpWs).reverse.Sublist (s.dropWhile isHttpWs).reverse.reverse :=
    (List.dropWhile_sublist _).reverse
  rw [List.reverse_reverse] at h
  exact h.trans (List.dropWhile_sublist _)

theorem mime_count {s : Str} {m : Mime} (h : Mime.parse s = .ok m) :
    m.params.length + (if m.isUtf8 then 1 else 0) ≤ s.count ';' := by
  rcases parts_cases s with ⟨-, h2⟩ | ⟨b, sub, rest, raw, h1, h2, -, h4, h5, h3⟩
  · rw [h2] at h; cases h
  · cases hr : (Mime.collect ['/'] (trimWs s)).2 with
    | nil =>
      exfalso
      unfold Mime.parse at h
      simp only at h
      split at h
      · cases h
      split at h
      · cases h
      cases h
    | cons c r =>
      obtain ⟨-, e⟩ := h5 c r hr
      have hsemi : AtSemi rest := by rw [e]; exact collect_semi_atSemi _
      have hc := steps_count h2 hsemi
      have hsub : rest.Sublist s := by
        rw [e]
        have e1 : (Mime.collect [';'] r).2.Sublist r := List.dropWhile_sublist _
        have e2 : r.Sublist (Mime.collect ['/'] (trimWs s)).2 := by rw [hr]; exact List.sublist_cons_self _ _
        have e3 : (Mime.collect ['/'] (trimWs s)).2.Sublist (trimWs s) := List.dropWhile_sublist _
        exact e1.trans (e2.trans (e3.trans (trimWs_sublist s)))
      have hle := hsub.count_le ';'
      rw [h3, h2.loop, foldl_addParam_raw] at h
      cases h
      have l1 := add_length ((raw ++ Whatwg.reread s).filter (· ≠ utf8Param)) []
      have l2 := filter_length utf8Param (raw ++ Whatwg.reread s)
      simp only [List.length_nil, Nat.zero_add] at l1
      simp only [Bool.false_or, decide_eq_true_eq]
      omega

/-- Media types: at most one parameter per semicolon; and the type with its parameters is at most twice as long as the text,
and not longer than the text if no parameter is met twice, as when there is no quote in the text, or it is in the grammar of
RFC 7231. -/
theorem C122_media_partial {s : Str} {m : Mime} (h : Mime.parse s = .ok m) :
    m.params.length + (if m.isUtf8 then 1 else 0) ≤ s.count ';' ∧ mimeSize m ≤ 2 * s.length ∧
      ('"' ∉ s ∨ (∃ base sub ps, MediaText s base sub ps) → mimeSize m ≤ s.length) := by
  have h1 := mime_size h
  have h2 := reread_size s
  refine ⟨mime_count h, by omega, fun hc => ?_⟩
  rw [C96_closed s hc] at h1
  simpa using h1

example : ∃ m, Mime.parse s!!"a/b;c=d;charset=utf-8" = .ok m ∧ mimeSize m = 21 ∧ '"' ∉ s!!"a/b;c=d;charset=utf-8" :=
  ⟨⟨s!!"a/b", s!!"a", s!!"b", true, [(s!!"c", s!!"d")]⟩, by decide +kernel, by decide, by decide⟩

/-- The text of a quoted value that is not closed is kept as the value, and again as further parameters: what is held can come
to almost twice what was sent, for any length. -/
theorem C122_violated_media (k : Nat) : ∃ s m, Mime.parse s = .ok m ∧ s.length = k + 11 ∧ mimeSize m = 2 * k + 14 := by
  let x := List.replicate (k + 1) 'x'
  have hx : ∀ c ∈ x, c = 'x' := fun c hc => List.eq_of_mem_replicate hc
  have hne : ∀ c ∈ s!!";d=" ++ x, c ≠ '"' ∧ c ≠ '\\' := by
    intro c hc
    rcases List.mem_append.mp hc with h | h
    · clear hc; revert c; decide
    · rw [hx c h]; decide
  have hlast : ∀ p : Str, ∀ c ∈ (p ++ x).getLast?, isHttpWs c = false := by
    intro p c hc
    rw [show x = List.replicate k 'x' ++ ['x'] from List.replicate_succ', ← List.append_assoc, List.getLast?_append] at hc
    simp at hc
    rw [← hc]; decide
  have hxs : ∀ d : List Char, 'x' ∉ d → Mime.collect d x = (x, []) := fun d hd =>
    collect_end fun c hc => by rw [hx c hc]; exact hd
  have h1 : paramStep (s!!";c=\";d=" ++ x) = .ok (some (some (s!!"c", s!!";d=" ++ x), s!!";d=" ++ x)) := by
    have hc : Mime.collect [';', '='] ((s!!"c=\";d=" ++ x).dropWhile isHttpWs) = (s!!"c", s!!"=\";d=" ++ x) :=
      collect_found (d := [';', '=']) (a := s!!"c") (c := '=') (b := s!!"\";d=" ++ x) (by decide) (by decide)
    change paramStep (';' :: (s!!"c=\";d=" ++ x)) = _
    rw [paramStep_cons, hc]
    have hq : quotedTail (s!!";d=" ++ x) = (s!!";d=" ++ x, s!!";d=" ++ x) := by
      have := quotedFrom_run (s!!";d=" ++ x) (s!!";d=" ++ x) [] hne
      rw [List.append_nil] at this
      unfold quotedTail
      rw [this]
      simp [quotedFrom]
    have hcq : collectQuoted (s!!"\";d=" ++ x) = .ok (quotedTail (s!!";d=" ++ x)) := rfl
    rw [if_neg (by simp), if_neg (by simp [startsWith_one])]
    simp only [List.cons_append, List.nil_append] at hcq hq ⊢
    rw [dropOne_ascii (by decide), Res.bind_ok, if_pos (startsWith_one.mpr ⟨_, rfl⟩), hcq, hq]
    rfl
  have h2 : paramStep (s!!";d=" ++ x) = .ok (some (some (s!!"d", x), [])) := by
    have hc : Mime.collect [';', '='] ((s!!"d=" ++ x).dropWhile isHttpWs) = (s!!"d", s!!"=" ++ x) :=
      collect_found (d := [';', '=']) (a := s!!"d") (c := '=') (b := x) (by decide) (by decide)
    change paramStep (';' :: (s!!"d=" ++ x)) = _
    rw [paramStep_cons, hc]
    have ht : trimEndWs x = x := trimEndWs_self (hlast [])
    rw [if_neg (by simp), if_neg (by simp [startsWith_one])]
    simp only [List.cons_append, List.nil_append]
    rw [dropOne_ascii (by decide), Res.bind_ok, hxs [';'] (by decide)]
    simp only [ht]
    rw [if_neg (by simp [x, List.replicate_succ, startsWith_one]), if_neg (by simp [x])]
    rfl
  have hs := (Steps.next h1 (Steps.next h2 Steps.nil)).loop ([], false)
  have hp : Mime.parse (s!!"a/b;c=\";d=" ++ x) =
      .ok ⟨s!!"a/b", s!!"a", s!!"b", false, [(s!!"c", s!!";d=" ++ x), (s!!"d", x)]⟩ := by
    have ht : trimWs (s!!"a/b;c=\";d=" ++ x) = s!!"a/b;c=\";d=" ++ x := by
      unfold trimWs
      exact trimEndWs_self (s := s!!"a/b;c=\";d=" ++ x) (hlast _)
    unfold Mime.parse
    simp only [ht]
    change (paramLoop (s!!";c=\";d=" ++ x) ([], false)).map _ = _
    rw [hs]
    have hq : (s!!";d=" ++ x).all isQuotable = true ∧ x.all isQuotable = true := by
      simp only [List.all_eq_true]
      refine ⟨fun c hc => ?_, fun c hc => by rw [hx c hc]; decide⟩
      rcases List.mem_append.mp hc with h | h
      · clear hc; revert c; decide
      · rw [hx c h]; decide
    have a1 : addParam ([], false) (s!!"c", s!!";d=" ++ x) = ([(s!!"c", s!!";d=" ++ x)], false) := by
      unfold addParam
      rw [if_neg (by simp), if_pos ⟨by simp, by simp; decide, hq.1⟩]
      rfl
    have a2 : addParam ([(s!!"c", s!!";d=" ++ x)], false) (s!!"d", x) =
        ([(s!!"c", s!!";d=" ++ x), (s!!"d", x)], false) := by
      unfold addParam
      rw [if_neg (by simp), if_pos ⟨by simp, by simp; decide, hq.2⟩]
      rfl
    rw [List.foldl_cons, a1, List.foldl_cons, a2]
    rfl
  refine ⟨_, _, hp, ?_, ?_⟩
  · simp [x]
  · simp [mimeSize, paramSize, x]; omega

theorem removeParam_size (m : Mime) (n : Str) : mimeSize (m.removeParam n).2 ≤ mimeSize m := by
  unfold Mime.removeParam
  split
  · unfold mimeSize; simp
  · split
    · exact Nat.le_refl _
    · have : ∀ ps : List (Str × Str), ((ps.eraseP fun e => e.1 == n).map paramSize).sum ≤ (ps.map paramSize).sum := by
        intro ps
        induction ps with
        | nil => simp
        | cons x ps ih =>
          rw [List.eraseP_cons]
          cases x.1 == n
          · simpa using ih
          · simp
      have := this m.params
      unfold mimeSize
      simp only
      omega

theorem mediaProposal_size {s : Str} {p : Proposal Mime} (h : Accept.parse s = .ok (some p)) :
    mimeSize p.item ≤ 2 * s.length := by
  unfold Accept.parse at h
  rw [map_some_ok] at h
  obtain ⟨p', h, e⟩ := h
  cases e
  unfold Proposal.mediaFromStr at h
  rw [Res.bind_eq_ok_iff] at h
  obtain ⟨m, hm, h⟩ := h
  have h1 := (C122_media_partial hm).2.1
  have h2 := removeParam_size m s!!"q"
  have key : ∀ m' w q, Proposal.newMedia m' w = .ok q → q.item = m' := by
    intro m' w q hq
    cases w with
    | none => cases hq; rfl
    | some w =>
      unfold Proposal.newMedia at hq
      simp only at hq
      split at hq
      · cases hq; rfl
      · cases hq
  generalize m.removeParam s!!"q" = r at h h2
  obtain ⟨o, m'⟩ := r
  cases o with
  | none => rw [key _ _ _ h]; exact Nat.le_trans h2 h1
  | some t =>
    simp only at h
    rw [Res.bind_eq_ok_iff] at h
    obtain ⟨w, -, h⟩ := h
    rw [key _ _ _ h]; exact Nat.le_trans h2 h1

/-- Accept and Content-Type: no more media types than were sent, in at most twice the space. -/
theorem C122_media_headers_partial (h : Headers) :
    (∀ a, Accept.fromHeaders h = .ok (some a) → NoMore 2 (linesOf h s!!"accept") (proposalSizes mimeSize a)) ∧
    (∀ m vs v, h.get s!!"content-type" = some (vs ++ [v]) → ContentType.fromHeaders h = .ok (some m) →
      m.params.length + (if m.isUtf8 then 1 else 0) ≤ v.count ';' ∧ mimeSize m ≤ 2 * v.length) := by
  refine ⟨fun a ha => noMore_proposals (by decide) (fun s p => mediaProposal_size) ha, fun m vs v hv hm => ?_⟩
  unfold ContentType.fromHeaders at hm
  rw [readLast_snoc (show h.get ContentType.name = _ from hv)] at hm
  rw [map_some_ok] at hm
  obtain ⟨m', hm, e⟩ := hm
  cases e
  have : Mime.parse v = .ok m := by
    cases hx : Mime.parse v with
    | ok x => rw [hx] at hm; exact hm
    | err _ => rw [hx] at hm; cases hm
    | panic => rw [hx] at hm; cases hm
  exact ⟨(C122_media_partial this).1, (C122_media_partial this).2.1⟩

example : ∃ h a, Accept.fromHeaders h = .ok (some a) ∧ linesOf h s!!"accept" = [s!!"a/b;c=\";d=eeeeeeee,*"] ∧
    proposalSizes mimeSize a = [28, 1] :=
  ⟨[(s!!"accept", [s!!"a/b;c=\";d=eeeeeeee,*"])],
    ⟨true, [⟨⟨s!!"a/b", s!!"a", s!!"b", false, [(s!!"c", s!!";d=eeeeeeee"), (s!!"d", s!!"eeeeeeee")]⟩, some (Fl.one f32Format)⟩]⟩,
    by decide +kernel, by decide, by decide⟩

/-! ### Forwarding information -/

theorem quotedAny_size {e v : Str} (h : QuotedAny e v) : v.length ≤ e.length := by
  induction h with
  | nil => simp
  | plain _ _ ih => simpa using ih
  | lost _ _ ih => simp; omega
  | pair _ _ ih => simp; omega

theorem paramAny_size {raw v : Str} (h : ParamAny raw v) : v.length ≤ raw.length := by
  rcases h with ⟨rfl, -⟩ | ⟨e, rfl, h⟩
  · exact Nat.le_refl _
  · have := quotedAny_size h
    simp; omega

/-- The parameters, with their names and equals signs, fit the text; and each `for` but the first is behind a comma or a
semicolon. -/
theorem forwardedAny_size {s : Str} {ps : List (Str × Str)} (h : ForwardedAny s ps) :
    (ps.map fun p => p.1.length + p.2.length + 1).sum ≤ s.length := by
  induction h with
  | nil => simp
  | pair _ _ hp _ _ ih => have := paramAny_size hp; simp at ih ⊢; omega
  | adjacent _ _ hp _ _ _ ih => have := paramAny_size hp; simp at ih ⊢; omega
  | last _ hp => have := paramAny_size hp; simp; omega
  | semi _ hp _ ih => have := paramAny_size hp; simp at ih ⊢; omega
  | comma _ hp _ _ _ ih => have := paramAny_size hp; simp at ih ⊢; omega

theorem forwardedAny_count {s : Str} {ps : List (Str × Str)} (h : ForwardedAny s ps) :
    (ps.filter fun p => lower p.1 = s!!"for").length ≤ 1 + s.count ',' + s.count ';' := by
  induction h with
  | nil => simp
  | pair _ hf _ _ _ ih =>
    rw [List.filter_cons_of_neg (by simpa [IsFor] using hf)]
    simp only [List.count_append, List.count_cons]
    simp; omega
  | adjacent _ hf _ _ _ _ ih =>
    rw [List.filter_cons_of_neg (by simpa [IsFor] using hf)]
    simp only [List.count_append, List.count_cons]
    simp; omega
  | last hf _ =>
    rw [List.filter_cons_of_pos (by simpa [IsFor] using hf)]
    simp; omega
  | semi hf _ _ ih =>
    rw [List.filter_cons_of_pos (by simpa [IsFor] using hf), List.length_cons]
    simp only [List.count_append, List.count_cons]
    simp; omega
  | comma hf _ _ _ _ ih =>
    rw [List.filter_cons_of_pos (by simpa [IsFor] using hf), List.length_cons]
    simp only [List.count_append, List.count_cons]
    simp; omega

theorem filter_sum_add {α : Type} (f : α → Nat) (p q : α → Bool) (hpq : ∀ x, p x = true → q x = false) (l : List α) :
    ((l.filter p).map f).sum + ((l.filter q).map f).sum ≤ ((l.filter fun x => p x || q x).map f).sum := by
  induction l with
  | nil => simp
  | cons x l ih =>
    have := hpq x
    cases hp : p x <;> cases hq : q x <;> simp_all <;> omega

theorem filter_sum_le {α : Type} (f : α → Nat) (p : α → Bool) (l : List α) : ((l.filter p).map f).sum ≤ (l.map f).sum := by
  induction l with
  | nil => simp
  | cons x l ih => cases hp : p x <;> simp [hp] <;> omega

theorem amounts_size {ps : List (Str × Str)} {f : Forwarded} (h : AmountsTo ps f) :
    forwardedSize f ≤ (ps.map fun p => p.1.length + p.2.length + 1).sum := by
  obtain ⟨h1, h2, h3, h4⟩ := h
  let g : Str × Str → Nat := fun p => p.1.length + p.2.length + 1
  have named : ∀ (k : Str) (o : Option Str), valuesOf k ps = o.toList →
      (o.map fun v => v.length + (k.length + 1)).getD 0 = ((ps.filter fun p => p.1 = k).map g).sum := by
    intro k o ho
    have e : ((ps.filter fun p => p.1 = k).map g) = (valuesOf k ps).map fun v => v.length + (k.length + 1) := by
      unfold valuesOf
      rw [List.map_map]
      apply List.map_congr_left
      intro p hp
      have : p.1 = k := by simpa using (List.mem_filter.mp hp).2
      simp only [g, Function.comp]
      rw [this]; omega
    rw [e, ho]
    cases o <;> simp
  have hfor : (f.forwardedFor.map fun v => v.length + 4).sum = ((ps.filter fun p => lower p.1 = s!!"for").map g).sum := by
    rw [h1, List.map_map]
    congr 1
    apply List.map_congr_left
    intro p hp
    have : lower p.1 = s!!"for" := by simpa using (List.mem_filter.mp hp).2
    have := congrArg List.length this
    rw [lower_length] at this
    simp only [g, Function.comp]
    simp at this
    omega
  have n1 := named s!!"by" f.by' h2
  have n2 := named s!!"host" f.host h3
  have n3 := named s!!"proto" f.proto h4
  unfold forwardedSize
  rw [hfor]
  change _ + (Option.map (fun v : Str => v.length + ((s!!"by").length + 1)) f.by').getD 0 +
    (Option.map (fun v : Str => v.length + ((s!!"host").length + 1)) f.host).getD 0 +
    (Option.map (fun v : Str => v.length + ((s!!"proto").length + 1)) f.proto).getD 0 ≤ _
  rw [n1, n2, n3]
  have a1 := filter_sum_add g (fun p => decide (lower p.1 = s!!"for")) (fun p => decide (p.1 = s!!"by"))
    (by intro p hp; simp at hp ⊢; intro e; rw [e] at hp; revert hp; decide) ps
  have a2 := filter_sum_add g (fun p => decide (lower p.1 = s!!"for") || decide (p.1 = s!!"by")) (fun p => decide (p.1 = s!!"host"))
    (by intro p hp; simp at hp ⊢; intro e; rw [e] at hp; revert hp; decide) ps
  have a3 := filter_sum_add g (fun p => decide (lower p.1 = s!!"for") || decide (p.1 = s!!"by") || decide (p.1 = s!!"host"))
    (fun p => decide (p.1 = s!!"proto"))
    (by intro p hp; simp at hp ⊢; intro e; rw [e] at hp; revert hp; decide) ps
  have a4 := filter_sum_le g (fun p => decide (lower p.1 = s!!"for") || decide (p.1 = s!!"by") || decide (p.1 = s!!"host") ||
    decide (p.1 = s!!"proto")) ps
  change _ ≤ (ps.map g).sum
  omega

/-- Forwarded: what is read, with the names it was sent under, is not longer than the line it was read from, and has at most
one more `for` than the line has commas and semicolons. -/
theorem C122_forwarded (v6 : Str → Option Str) (h : Headers) (v : Str) (vs : List Str) (f : Forwarded)
    (hv : h.get s!!"forwarded" = some (v :: vs)) (hr : Forwarded.fromHeaders v6 h = .ok (some f)) :
    forwardedSize f ≤ v.length ∧ f.forwardedFor.length ≤ 1 + v.count ',' + v.count ';' := by
  have hp : Forwarded.parse v = .ok f := by
    unfold Forwarded.fromHeaders Forwarded.fromForwardedHeader at hr
    rw [show h.get Forwarded.NAME = some (v :: vs) from hv] at hr
    change ((Forwarded.parse v).map some).bind _ = _ at hr
    cases hx : Forwarded.parse v with
    | ok x => rw [hx] at hr; cases hr; rfl
    | err _ => rw [hx] at hr; cases hr
    | panic => rw [hx] at hr; cases hr
  obtain ⟨ps, h1, h2⟩ := ((C49_reads_all_partial v).1 f).mp hp
  refine ⟨Nat.le_trans (amounts_size h2) (forwardedAny_size h1), ?_⟩
  rw [h2.1, List.length_map]
  exact forwardedAny_count h1

example : ∃ h f, h.get s!!"forwarded" = some [s!!"for=a,for=\"b;\";by=c"] ∧ Forwarded.fromHeaders (fun _ => none) h = .ok (some f) ∧
    forwardedSize f = 15 :=
  ⟨[(s!!"forwarded", [s!!"for=a,for=\"b;\";by=c"])], ⟨some s!!"c", [s!!"a", s!!"b;"], none, none⟩, by decide, by decide +kernel,
    by decide⟩

/-- X-Forwarded: one `for` per piece of the line, and if the canonical form of an IPv6 address is at most `g` characters longer
than the address, at most `g + 2` characters more than the piece; the others as they were sent. -/
theorem C122_x_forwarded (v6 : Str → Option Str) (g : Nat) (hg : ∀ s t, v6 s = some t → t.length ≤ s.length + g)
    (h : Headers) (f : Forwarded) (hn : h.get s!!"forwarded" = none) (hr : Forwarded.fromHeaders v6 h = .ok (some f)) :
    (h.get s!!"x-forwarded-for" = none → f.forwardedFor = []) ∧
    (∀ x xs, h.get s!!"x-forwarded-for" = some (x :: xs) → f.forwardedFor.length = x.count ',' + 1 ∧
      chars f.forwardedFor + x.count ',' ≤ x.length + (g + 2) * f.forwardedFor.length) ∧
    FirstValue h s!!"x-forwarded-by" f.by' ∧ FirstValue h s!!"x-forwarded-host" f.host ∧
    FirstValue h s!!"x-forwarded-proto" f.proto := by
  have hx : Forwarded.fromXHeaders v6 h = .ok (some f) := by
    unfold Forwarded.fromHeaders Forwarded.fromForwardedHeader at hr
    rw [show h.get Forwarded.NAME = none from hn] at hr
    exact hr
  unfold Forwarded.fromXHeaders at hx
  have first : ∀ n o, Forwarded.xValue h n = .ok o → FirstValue h n o := by
    intro n o ho
    unfold Forwarded.xValue at ho
    unfold FirstValue
    cases hgn : h.get n with
    | none => rw [hgn] at ho; cases ho; rfl
    | some vs =>
      rw [hgn] at ho
      cases vs with
      | nil => cases ho
      | cons v vs => cases ho; exact ⟨vs, rfl⟩
  rw [Res.bind_eq_ok_iff] at hx
  obtain ⟨fs, hfs, hx⟩ := hx
  rw [Res.bind_eq_ok_iff] at hx
  obtain ⟨b, hb, hx⟩ := hx
  rw [Res.bind_eq_ok_iff] at hx
  obtain ⟨pr, hpr, hx⟩ := hx
  rw [Res.bind_eq_ok_iff] at hx
  obtain ⟨ho, hho, hx⟩ := hx
  split at hx
  · cases hx
    refine ⟨fun h0 => ?_, fun x xs h0 => ?_, first _ _ hb, first _ _ hho, first _ _ hpr⟩
    · unfold Forwarded.xValue at hfs
      rw [show h.get Forwarded.X_FOR = none from h0] at hfs
      cases hfs; rfl
    · unfold Forwarded.xValue at hfs
      rw [show h.get Forwarded.X_FOR = some (x :: xs) from h0] at hfs
      cases hfs
      have l1 := split_length ',' x
      have l2 := split_chars ',' x
      refine ⟨by rw [List.length_map, l1], ?_⟩
      have : ∀ ps : List Str, chars (ps.map (Forwarded.xForEntry v6)) ≤ chars ps + (g + 2) * ps.length := by
        intro ps
        induction ps with
        | nil => simp [chars]
        | cons p ps ih =>
          have hp : (Forwarded.xForEntry v6 p).length ≤ p.length + (g + 2) := by
            have ht := trim_length p
            unfold Forwarded.xForEntry
            cases hv : v6 (trim p) with
            | none => simp only; omega
            | some t => have := hg _ _ hv; simp; omega
          simp only [chars, List.map_cons, List.sum_cons, List.length_cons, Nat.mul_succ] at ih ⊢
          omega
      have := this (split ',' x)
      change chars ((split ',' x).map (Forwarded.xForEntry v6)) + _ ≤ _
      rw [List.length_map]
      omega
  · cases hx

example : ∃ h f, h.get s!!"forwarded" = none ∧ Forwarded.fromHeaders (fun s => if s = s!!"::1" then some s else none) h = .ok (some f) ∧
    h.get s!!"x-forwarded-for" = some [s!!"::1, a"] ∧ f.forwardedFor = [s!!"[::1]", s!!"a"] :=
  ⟨[(s!!"x-forwarded-for", [s!!"::1, a"])], ⟨none, [s!!"[::1]", s!!"a"], none, none⟩, by decide, by decide +kernel, by decide, rfl⟩

/-! ### Credentials -/

theorem utf8Encode_length (s : Str) : s.length ≤ (utf8Encode s).length := by
  induction s with
  | nil => simp
  | cons c s ih =>
    have : 1 ≤ (utf8EncodeC c).length := by
      unfold utf8EncodeC
      dsimp only
      split
      · simp
      · split
        · simp
        · split <;> simp
    simp only [utf8Encode, List.flatMap_cons, List.length_append, List.length_cons] at ih ⊢
    omega

/-- Credentials: together with the name of the scheme and the space exactly the line; user and password together at most three
quarters of the base64 text, in bytes and so in characters; a realm and its frame fit the line. -/
theorem C122_credentials (h : Headers) (vs : List Str) (v : Str) :
    (h.get s!!"authorization" = some (vs ++ [v]) →
      (∀ a, Authorization.fromHeaders h = .ok (some a) → a.scheme.toStr.length + 1 + a.credentials.length = v.length) ∧
      ∀ b, BasicAuth.fromHeaders h = .ok (some b) →
        4 * (utf8Encode (b.username ++ ':' :: b.password)).length + 18 ≤ 3 * v.length ∧
        4 * (b.username.length + 1 + b.password.length) + 18 ≤ 3 * v.length) ∧
    (h.get s!!"www-authenticate" = some (vs ++ [v]) → ∀ a, WwwAuthenticate.fromHeaders h = .ok (some a) →
      a.scheme.toStr.length + 9 + a.realm.length ≤ v.length) := by
  have table : ∀ e ∈ schemeNames, e.1.toStr.length = e.2.length := by decide
  have names : ∀ {t s}, Names t s → s.toStr.length = t.length := by
    rintro t s ⟨e, he, rfl, hs⟩
    have := congrArg List.length ((sameName_iff _ _).mp hs).2.2
    rw [lower_length, lower_length] at this
    rw [table e he, this]
  refine ⟨fun hv => ⟨fun a ha => ?_, fun b hb => ?_⟩, fun hv a ha => ?_⟩
  · obtain ⟨t, e, hn⟩ := (((C45_reads h).2 vs v hv).1 a).mp ha
    rw [e, names hn]
    simp; omega
  · obtain ⟨cs, ⟨t, e, hn⟩, -, ds, digits, k, z, hc, hd, hz, -⟩ := (((C46_reads h).2 vs v hv).1 b).mp hb
    have h5 : 5 = t.length := names hn
    have hl := hd.length_eq
    have hu := utf8Encode_length (b.username ++ ':' :: b.password)
    have e1 : v.length = t.length + 1 + cs.length := by rw [e]; simp; omega
    have e2 : cs.length = digits.length + k := by rw [hc]; simp
    simp only [List.length_append, List.length_cons] at hu
    constructor <;> omega
  · obtain ⟨t, ws, rest, e, hn, -⟩ := (((C47_reads h).2 vs v hv).1 a).mp ha
    rw [e, names hn]
    simp; omega

example : ∃ h b, h.get s!!"authorization" = some [s!!"Basic YTpi"] ∧ BasicAuth.fromHeaders h = .ok (some b) ∧
    4 * (b.username.length + 1 + b.password.length) + 18 = 3 * (s!!"Basic YTpi").length :=
  ⟨[(s!!"authorization", [s!!"Basic YTpi"])], ⟨s!!"a", s!!"b"⟩, by decide, by decide +kernel, by decide⟩
example : ∃ h a, h.get s!!"www-authenticate" = some [s!!"Basic realm=\"x\""] ∧ WwwAuthenticate.fromHeaders h = .ok (some a) ∧
    a.scheme.toStr.length + 9 + a.realm.length = (s!!"Basic realm=\"x\"").length :=
  ⟨[(s!!"www-authenticate", [s!!"Basic realm=\"x\""])], ⟨.basic, s!!"x"⟩, by decide, by decide +kernel, by decide⟩

/-! ### Passing on -/

theorem written_size (star : Str) (texts : List Str) (w : Bool) :
    (writeStar star (writeLoop [] true texts) w).length ≤
      (texts.map List.length ++ if w then [star.length] else []).sum +
        2 * ((texts.map List.length ++ if w then [star.length] else []).length - 1) := by
  have hj : (join s!!", " texts).length ≤ (texts.map List.length).sum + 2 * (texts.length - 1) := by
    cases texts with
    | nil => simp [join]
    | cons x xs =>
      have := Csp.join_length s!!", " (x :: xs) (by simp)
      have hs : ∀ ys : List Str, (ys.map fun y => y.length + (s!!", ").length).sum = (ys.map List.length).sum + 2 * ys.length := by
        intro ys
        induction ys with
        | nil => rfl
        | cons y ys ih => rw [List.map_cons, List.sum_cons, ih, List.map_cons, List.sum_cons, List.length_cons]; simp; omega
      rw [hs] at this
      simp only [List.length_cons, List.map_cons, List.sum_cons, List.length_nil] at this ⊢
      omega
  rw [writeLoop_eq]
  unfold writeStar
  cases w with
  | false => simpa using hj
  | true =>
    simp only [if_true]
    cases texts with
    | nil => simp [join, byteLen]
    | cons x xs =>
      split <;> simp at hj ⊢ <;> omega

theorem relayed {lines : List Str} {sizes : List Nat} (h : NoMore 1 lines sizes) {w : Str}
    (hw : w.length ≤ sizes.sum + 2 * (sizes.length - 1)) :
    w.length ≤ chars lines + occurrences ',' lines + 2 * (lines.length - 1) := by
  obtain ⟨h1, h2⟩ := h
  cases lines with
  | nil =>
    cases sizes with
    | nil => exact Nat.le_trans hw (Nat.zero_le _)
    | cons a b => simp [occurrences] at h1
  | cons l ls =>
    simp only [List.length_cons] at *
    omega

/-- A list read from a message and written again is one line that is longer than the lines that were read by at most one
character per comma and two per line but one: what the separators come to. -/
theorem C122_relay (h : Headers) :
    (∀ l w, IfMatch.fromHeaders h = .ok (some l) → IfMatch.value l = .ok w →
      w.length ≤ chars (linesOf h s!!"if-match") + occurrences ',' (linesOf h s!!"if-match") +
        2 * ((linesOf h s!!"if-match").length - 1)) ∧
    (∀ l w, IfMatch.noneFromHeaders h = .ok (some l) → IfMatch.value l = .ok w →
      w.length ≤ chars (linesOf h s!!"if-none-match") + occurrences ',' (linesOf h s!!"if-none-match") +
        2 * ((linesOf h s!!"if-none-match").length - 1)) ∧
    (∀ l w, Vary.fromHeaders h = .ok (some l) → Vary.value l = .ok w →
      w.length ≤ chars (linesOf h s!!"vary") + occurrences ',' (linesOf h s!!"vary") +
        2 * ((linesOf h s!!"vary").length - 1)) ∧
    (∀ l w, ClearSiteData.fromHeaders h = .ok (some l) → ClearSiteData.value l = .ok w →
      w.length ≤ chars (linesOf h s!!"clear-site-data") + occurrences ',' (linesOf h s!!"clear-site-data") +
        2 * ((linesOf h s!!"clear-site-data").length - 1)) ∧
    (∀ ms order w, Allow.fromHeaders h = .ok (some ms) → order.Perm ms → Allow.value order = .ok w →
      w.length ≤ chars (linesOf h s!!"allow") + occurrences ',' (linesOf h s!!"allow") +
        2 * ((linesOf h s!!"allow").length - 1)) := by
  obtain ⟨c1, c2, c3, c4⟩ := C122_lists h
  have tag : ∀ (l : StarList ETag) w, IfMatch.value l = .ok w →
      w.length ≤ (starSizes (fun e => (etagText e).length) 1 l).sum +
        2 * ((starSizes (fun e => (etagText e).length) 1 l).length - 1) := by
    intro l w hw
    cases hw
    have := written_size s!!"*" (l.entries.map ETag.display) l.wildcard
    simp only [List.map_map, Function.comp_def, display_eq_etagText] at this ⊢
    exact this
  refine ⟨fun l w hl hw => relayed (c1 l hl) (tag l w hw), fun l w hl hw => relayed (c2 l hl) (tag l w hw),
    fun l w hl hw => relayed (c3 l hl) ?_, fun l w hl hw => relayed (c4 l hl) ?_,
    fun ms order w hm hp hw => relayed (C122_allow h ms hm) ?_⟩
  · unfold Vary.value at hw
    rw [Res.bind_eq_ok_iff] at hw
    obtain ⟨names, hn, hw⟩ := hw
    cases hw
    have e : names = l.entries := by
      have := Res.mapM_eq_ok_iff.mp hn
      clear hn
      generalize l.entries = es at this
      induction this with
      | nil => rfl
      | cons hx _ ih =>
        rw [ih]
        split at hx
        · next hv =>
          cases hx
          unfold HeaderValue.fromStr at hv
          split at hv
          · cases hv; rfl
          · cases hv
        · cases hx
    rw [e]
    exact written_size s!!"*" l.entries l.wildcard
  · cases hw
    have := written_size s!!"\"*\"" (l.entries.map ClearDirective.asStr) l.wildcard
    rw [List.map_map] at this
    exact this
  · cases hw
    have := written_size [] (order.map Method.asStr) false
    have e := hp.map fun m : Method => m.asStr.length
    rw [← e.sum_nat, ← e.length_eq]
    simpa [writeStar, Function.comp_def] using this

example : ∃ h l w, Vary.fromHeaders h = .ok (some l) ∧ linesOf h s!!"vary" = [s!!"a,bc", s!!"d"] ∧ Vary.value l = .ok w ∧
    w.length = 8 ∧ chars [s!!"a,bc", s!!"d"] + occurrences ',' [s!!"a,bc", s!!"d"] + 2 * 1 = 8 :=
  ⟨[(s!!"vary", [s!!"a,bc", s!!"d"])], ⟨[s!!"a", s!!"bc", s!!"d"], false⟩, s!!"a, bc, d", by decide +kernel, by decide,
    by decide +kernel, by decide, by decide⟩

end HT
