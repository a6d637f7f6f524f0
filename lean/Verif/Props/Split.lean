import Verif.Spec.Split
import Verif.Props.ServerTiming
import Verif.Props.Lists
import Verif.Props.Allow
import Verif.Props.Cache
import Verif.Props.Content
import Verif.Props.Forwarded

/-! C87: a list header may be split over several lines. -/

namespace HT
open Spec

theorem split_concat (c : Char) (a b : Str) : split c (a ++ c :: b) = split c a ++ split c b := by
  induction a with
  | nil =>
    show split c (c :: b) = [[]] ++ split c b
    simp [split]
  | cons x xs ih =>
    rw [List.cons_append, split, split]
    by_cases hx : x = c
    · rw [if_pos hx, if_pos hx, ih]
      rfl
    · rw [if_neg hx, if_neg hx, ih]
      cases h : split c xs with
      | nil => exact absurd h (split_ne_nil c xs)
      | cons p ps => rfl

theorem ws_no_comma {w : Str} (hw : ∀ c ∈ w, isWs c = true) : ',' ∉ w := fun h => by
  have := hw _ h
  revert this
  decide

theorem split_ws {w : Str} (hw : ∀ c ∈ w, isWs c = true) (s : Str) :
    ∃ p ps, split ',' s = p :: ps ∧ split ',' (w ++ s) = (w ++ p) :: ps := by
  cases h : split ',' s with
  | nil => exact absurd h (split_ne_nil _ s)
  | cons p ps => exact ⟨p, ps, rfl, split_append_left (ws_no_comma hw) h⟩

theorem listItems_joined {vs : List Str} {v : Str} (h : Joined vs v) : listItems [v] = listItems vs := by
  induction h with
  | one v => rfl
  | @cons v w rest vs hw _ ih =>
    unfold listItems at ih ⊢
    simp only [List.flatMap_cons, List.flatMap_nil, List.append_nil] at ih ⊢
    rw [split_concat, List.map_append, ← ih]
    obtain ⟨p, ps, h1, h2⟩ := split_ws hw rest
    rw [h1, h2]
    simp [trim_ws_append hw]

/-- The same for parts that are only trimmed at the start. -/
theorem parts_joined {vs : List Str} {v : Str} (h : Joined vs v) :
    (split ',' v).map trimStart = (vs.flatMap fun v => split ',' v).map trimStart := by
  induction h with
  | one v => simp
  | @cons v w rest vs hw _ ih =>
    rw [List.flatMap_cons, List.map_append, ← ih, split_concat, List.map_append]
    obtain ⟨p, ps, h1, h2⟩ := split_ws hw rest
    rw [h1, h2]
    simp [trimStart_ws_append hw]

theorem starList_same {α : Type} {name : HeaderName} {star : Str} {parse : Str → Res α} {h h' : Headers}
    (hs : SameList name h h') : readStarList name star parse h = readStarList name star parse h' := by
  obtain ⟨vs, v, hj, h1, h2⟩ := hs
  rw [readStarList_some h1, readStarList_some h2, listItems_joined hj]

/-- A reader that goes through the trimmed parts depends on the list members only. -/
theorem loop_same {α : Type} {f : List Str → Res α} (hf : ∀ ps, f ps = f (ps.map trim)) {vs : List Str} {v : Str}
    (hj : Joined vs v) : f (trimmedParts vs) = f (trimmedParts [v]) := by
  rw [hf, hf (trimmedParts [v]), trimmedParts_map, trimmedParts_map, listItems_joined hj]

theorem accept_trim {α : Type} (parse : Str → Res (Option (Proposal α))) (ps : List Str) :
    ∀ acc, AcceptList.loop parse ps acc = AcceptList.loop parse (ps.map trim) acc := by
  induction ps with
  | nil => intro acc; rfl
  | cons p ps ih =>
    intro acc
    rw [List.map_cons, AcceptList.loop, AcceptList.loop]
    simp only [trim_trim]
    split
    · exact ih _
    · split
      · exact ih _
      · congr 1
        funext e
        cases e with
        | none => exact ih _
        | some q => exact ih _

theorem accept_same {α : Type} {name : HeaderName} {parse : Str → Res (Option (Proposal α))} {h h' : Headers}
    (hs : SameList name h h') : AcceptList.fromHeaders name parse h = AcceptList.fromHeaders name parse h' := by
  obtain ⟨vs, v, hj, h1, h2⟩ := hs
  unfold AcceptList.fromHeaders
  rw [h1, h2]
  exact congrArg (Res.map some) (loop_same (f := fun ps => AcceptList.loop parse ps AcceptList.new)
    (fun ps => accept_trim parse ps _) hj)

theorem cache_trim (ps : List Str) : ∀ acc, CacheControl.loop ps acc = CacheControl.loop (ps.map trim) acc := by
  have hd : ∀ p, CacheDirective.fromStr (trim p) = CacheDirective.fromStr p := by
    intro p
    unfold CacheDirective.fromStr
    rw [trim_trim]
  induction ps with
  | nil => intro acc; rfl
  | cons p ps ih =>
    intro acc
    rw [List.map_cons, CacheControl.loop, CacheControl.loop, hd]
    congr 1
    funext e
    cases e with
    | none => exact ih _
    | some q => exact ih _

theorem allow_trim (ps : List Str) : ∀ acc, Allow.loop ps acc = Allow.loop (ps.map trim) acc := by
  induction ps with
  | nil => intro acc; rfl
  | cons p ps ih =>
    intro acc
    rw [List.map_cons, Allow.loop, Allow.loop, trim_trim]
    congr 1
    funext e
    exact ih _

theorem trimStart_trimStart (s : Str) : trimStart (trimStart s) = trimStart s := trimStart_of_head trimStart_head

theorem origin_trim {Url : Type} (parse : Str → Option Url) (ps : List Str) :
    ∀ acc, TimingAllowOrigin.loop parse ps acc = TimingAllowOrigin.loop parse (ps.map trimStart) acc := by
  induction ps with
  | nil => intro acc; rfl
  | cons p ps ih =>
    intro acc
    rw [List.map_cons, TimingAllowOrigin.loop, TimingAllowOrigin.loop]
    simp only [trimStart_trimStart]
    split
    · exact ih _
    · split
      · exact ih _
      · congr 1
        funext e
        exact ih _

/-- A list header split over several lines is read (or refused) as the one line that joins them. -/
theorem C87_lists_partial (h h' : Headers) :
    (SameList s!!"cache-control" h h' → CacheControl.fromHeaders h = CacheControl.fromHeaders h') ∧
    (SameList s!!"clear-site-data" h h' → ClearSiteData.fromHeaders h = ClearSiteData.fromHeaders h') ∧
    (SameList s!!"if-match" h h' → IfMatch.fromHeaders h = IfMatch.fromHeaders h') ∧
    (SameList s!!"if-none-match" h h' → IfMatch.noneFromHeaders h = IfMatch.noneFromHeaders h') ∧
    (SameList s!!"vary" h h' → Vary.fromHeaders h = Vary.fromHeaders h') ∧
    (SameList s!!"accept" h h' → Accept.fromHeaders h = Accept.fromHeaders h') ∧
    (SameList s!!"accept-encoding" h h' → AcceptEncoding.fromHeaders h = AcceptEncoding.fromHeaders h') ∧
    (SameList s!!"te" h h' → TE.fromHeaders h = TE.fromHeaders h') ∧
    (SameList s!!"allow" h h' → Allow.fromHeaders h = Allow.fromHeaders h') ∧
    (∀ (Url : Type) (parse : Str → Option Url), SameList s!!"timing-allow-origin" h h' →
      TimingAllowOrigin.fromHeaders parse h = TimingAllowOrigin.fromHeaders parse h') ∧
    (SameList s!!"server-timing" h h' → ServerTiming.fromHeaders h = ServerTiming.fromHeaders h') := by
  refine ⟨?_, starList_same, starList_same, starList_same, starList_same, accept_same, accept_same, accept_same, ?_, ?_,
    ?_⟩
  · rintro ⟨vs, v, hj, h1, h2⟩
    unfold CacheControl.fromHeaders
    rw [show h.get CacheControl.name = _ from h1, show h'.get CacheControl.name = _ from h2]
    exact congrArg (Res.map some) (loop_same (f := fun ps => CacheControl.loop ps []) (fun ps => cache_trim ps _) hj)
  · rintro ⟨vs, v, hj, h1, h2⟩
    unfold Allow.fromHeaders
    rw [show h.get Allow.name = _ from h1, show h'.get Allow.name = _ from h2]
    exact congrArg (Res.map some) (loop_same (f := fun ps => Allow.loop ps []) (fun ps => allow_trim ps _) hj)
  · rintro Url parse ⟨vs, v, hj, h1, h2⟩
    unfold TimingAllowOrigin.fromHeaders
    rw [show h.get TimingAllowOrigin.name = _ from h1, show h'.get TimingAllowOrigin.name = _ from h2]
    simp only [iter_eq]
    rw [origin_trim, origin_trim parse (List.flatMap _ [v]), ← parts_joined hj]
    simp
  · rintro ⟨vs, v, hj, h1, h2⟩
    rw [ServerTiming.read_eq h1, ServerTiming.read_eq h2, listItems_joined hj]

example : SameList s!!"vary" [(s!!"vary", [s!!"a", s!!"b,c"])] (oneHeader s!!"vary" s!!"a, b,c") :=
  ⟨[s!!"a", s!!"b,c"], s!!"a, b,c", .cons (w := s!!" ") (by decide) (.one _), rfl, rfl⟩

/-- Of Forwarded and X-Forwarded-For only the first line is read: later lines can be anything and change
nothing. -/
theorem C87_violated_forwarded (h h' : Headers) (v : Str) (vs : List Str) :
    (h.get s!!"forwarded" = some (v :: vs) → h'.get s!!"forwarded" = some [v] →
      Forwarded.fromForwardedHeader h = Forwarded.fromForwardedHeader h') ∧
    (∃ a b, Forwarded.fromForwardedHeader [(s!!"forwarded", [s!!"for=a", s!!"for=b"])] = .ok (some a) ∧
      Forwarded.fromForwardedHeader (oneHeader s!!"forwarded" s!!"for=a, for=b") = .ok (some b) ∧ a ≠ b) ∧
    (∀ v6, (h.get s!!"x-forwarded-for" = some (v :: vs) → h'.get s!!"x-forwarded-for" = some [v] →
      (∀ n, n ≠ s!!"x-forwarded-for" → h.get n = h'.get n) → Forwarded.fromXHeaders v6 h = Forwarded.fromXHeaders v6 h')) := by
  refine ⟨?_, ⟨{ forwardedFor := [s!!"a"] }, { forwardedFor := [s!!"a", s!!"b"] }, by decide +kernel⟩, ?_⟩
  · intro h1 h2
    unfold Forwarded.fromForwardedHeader
    rw [show h.get Forwarded.NAME = _ from h1, show h'.get Forwarded.NAME = _ from h2]
    rfl
  · intro v6 h1 h2 hn
    have hx : ∀ n, Forwarded.xValue h n = Forwarded.xValue h' n := by
      intro n
      unfold Forwarded.xValue
      by_cases hne : n = s!!"x-forwarded-for"
      · subst hne
        rw [h1, h2]
        rfl
      · rw [hn n hne]
    unfold Forwarded.fromXHeaders
    simp only [hx]

/-- Several codings in one Content-Encoding or Transfer-Encoding line make reading panic, although in several lines the
last one is read. -/
theorem C87_violated_codings :
    (∃ e, readCoding ContentEncoding.name Encoding.fromStr [(s!!"content-encoding", [s!!"gzip", s!!"br"])] = .ok (some e)) ∧
    readCoding ContentEncoding.name Encoding.fromStr (oneHeader s!!"content-encoding" s!!"gzip, br") = .panic ∧
    (∃ e, readCoding TransferEncoding.name TEncoding.fromStr [(s!!"transfer-encoding", [s!!"gzip", s!!"chunked"])] = .ok (some e)) ∧
    readCoding TransferEncoding.name TEncoding.fromStr (oneHeader s!!"transfer-encoding" s!!"gzip, chunked") = .panic :=
  ⟨⟨.brotli, by decide +kernel⟩, by decide +kernel, ⟨.chunked, by decide +kernel⟩, by decide +kernel⟩

end HT
