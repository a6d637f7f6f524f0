import Verif.Spec.Exchange
import Verif.Props.AcceptTrip
import Verif.Props.Location
import Verif.Props.Negotiate
import Verif.Props.PassOn

/-! C115: what comes out of a request stating preferences and the response to it. -/

namespace HT
open Spec

theorem exchange_eq {α : Type} {ask tell : HeaderName} {prefs : Res HeaderValue}
    {heard : Headers → Res (Option (AcceptList α))} {neg : AcceptList α → Res α} {choice : α → Res HeaderValue}
    {told : Headers → Res (Option α)} {b : AcceptList α} (h1 : RoundTrips ask prefs heard b)
    (h2 : ∀ r, neg b = .ok r → RoundTrips tell (choice r) told r) (req resp : Headers) :
    exchange ask prefs heard neg tell choice told req resp = (neg b).map some := by
  obtain ⟨req', -, e1, -, -, e2⟩ := h1 req
  unfold exchange
  rw [e1]
  show (heard req').bind _ = _
  rw [e2]
  show (neg b).bind _ = _
  cases hn : neg b with
  | ok r =>
    obtain ⟨resp', -, e3, -, -, e4⟩ := h2 r hn resp
    show (applyHeader resp tell (choice r)).bind told = _
    rw [e3]
    exact e4
  | err s => rfl
  | panic => rfl

theorem outcome_of {α : Type} {x : Res α} {gets : α → Prop} (h1 : ∀ r, x = .ok r ↔ gets r)
    (h2 : x.Clean 406) : Outcome (x.map some) gets := by
  have key : (∃ r, x = .ok r) ∨ x = .err 406 := h2
  rcases key with ⟨r, rfl⟩ | rfl
  · refine ⟨fun r' => ?_, ?_, .inl ⟨r, rfl⟩⟩
    · rw [← h1]
      show (Res.ok (some r) = .ok (some r')) ↔ _
      simp
    · show (Res.ok (some r) = .err 406) ↔ _
      simp only [reduceCtorEq, false_iff, not_not]
      exact ⟨r, (h1 r).mp rfl⟩
  · refine ⟨fun r' => ?_, ?_, .inr rfl⟩
    · rw [← h1]
      show (Res.err 406 = .ok (some r')) ↔ _
      simp
    · refine ⟨fun _ => ?_, fun _ => rfl⟩
      rintro ⟨r, hr⟩
      have := (h1 r).mpr hr
      cases this

/-- C115: client and server agree on the coding. Whatever is in the headers already, the client reads from the response the
coding it asked for with the most weight among the server's, its weights rounded to three decimals; the server answers 406
exactly if there is none. With weights of three decimals this is what the client asked for. Missing: weights with more decimals, see
`C115_violated_rounding`. -/
theorem C115_codings_partial :
    (∀ (a : AcceptList Encoding), (∀ p ∈ a.entries, WeightOk p) →
      ∃ ps, List.Forall₂ Rounded a.entries ps ∧ ((∀ p ∈ a.entries, ThreeDecimals p.weight) → ps = a.entries) ∧
        ∀ available req resp, Outcome (codingExchange a available req resp) (Gets ps a.wildcard available)) ∧
    (∀ (a : AcceptList TEncoding), (∀ p ∈ a.entries, WeightOk p) →
      ∃ ps, List.Forall₂ Rounded a.entries ps ∧ ((∀ p ∈ a.entries, ThreeDecimals p.weight) → ps = a.entries) ∧
        ∀ available req resp, Outcome (transferExchange a available req resp) (Gets ps a.wildcard available)) := by
  have wok : ∀ {α : Type} {ps : List (Proposal α)}, (∀ p ∈ ps, ThreeDecimals p.weight) → ∀ p ∈ ps, WeightOk p := by
    intro α ps h p hp x hx
    obtain ⟨k, hk, rfl⟩ := h p hp x hx
    exact unit_thousandths hk
  refine ⟨fun a ha => ?_, fun a ha => ?_⟩
  · obtain ⟨ps, h1, h2, h3, h4⟩ := C41_round_trip.1 a ha
    refine ⟨ps, h2, h4, fun av req resp => ?_⟩
    have hn := C37_negotiate (⟨a.wildcard, ps⟩ : AcceptList Encoding) av (wok h3)
    have he : codingExchange a av req resp = _ := exchange_eq h1 (fun r _ => C43_round_trip.1 r) req resp
    rw [he]
    exact outcome_of hn.1 hn.2.2.1
  · obtain ⟨ps, h1, h2, h3, h4⟩ := C41_round_trip.2 a ha
    refine ⟨ps, h2, h4, fun av req resp => ?_⟩
    have hn := C37_negotiate (⟨a.wildcard, ps⟩ : AcceptList TEncoding) av (wok h3)
    have he : transferExchange a av req resp = _ := exchange_eq h1 (fun r _ => C43_round_trip.2 r) req resp
    rw [he]
    exact outcome_of hn.1 hn.2.2.1

example : Outcome (codingExchange ⟨false, [⟨.gzip, some (thousandths 500)⟩, ⟨.brotli, some (thousandths 501)⟩]⟩ [.gzip, .brotli]
    [] []) (· = .brotli) := by
  have h : codingExchange ⟨false, [⟨.gzip, some (thousandths 500)⟩, ⟨.brotli, some (thousandths 501)⟩]⟩ [.gzip, .brotli]
    [] [] = .ok (some .brotli) := by decide +kernel
  rw [h]
  exact ⟨fun r => by simp [eq_comm], by simp, .inl ⟨_, rfl⟩⟩

theorem gap_close {m k n l U : Nat} (h1 : 2 * gap (m * 1000) (U * k) ≤ U) (h2 : 2 * gap (n * 1000) (U * l) ≤ U)
    (h : k ≤ l) : m * 1000 ≤ n * 1000 + U := by
  have : U * k ≤ U * l := Nat.mul_le_mul_left _ h
  unfold gap at h1 h2
  omega

theorem worth_thousandths_le {k l : Nat} (hk : k ≤ 1000)
    (h : worth (some (thousandths k)) ≤ worth (some (thousandths l))) : k ≤ l := by
  rcases worth_le h with h | h
  · exact h
  · omega

theorem forall₂_left' {α β : Type} {R : α → β → Prop} {xs : List α} {ys : List β} (h : List.Forall₂ R xs ys) :
    ∀ x ∈ xs, ∃ y ∈ ys, R x y := by
  induction h with
  | nil => simp
  | cons h _ ih =>
    intro x hx
    rcases List.mem_cons.mp hx with rfl | hx
    · exact ⟨_, List.mem_cons_self, h⟩
    · obtain ⟨y, hy, hr⟩ := ih x hx
      exact ⟨y, List.mem_cons_of_mem _ hy, hr⟩

theorem best_worth {α : Type} {ps : List (Proposal α)} {ok : α → Prop} {i : Nat} {p : Proposal α} (h : Best ps ok i p)
    {q : Proposal α} (hq : q ∈ ps) (hok : ok q.item) : worth q.weight ≤ worth p.weight := by
  obtain ⟨j, hj⟩ := List.getElem?_of_mem hq
  rcases h.2.2 j q hj hok with rfl | ⟨p', q', e1, e2, hr⟩
  · rw [h.1] at hj; cases hj; exact Nat.le_refl _
  · rw [h.1] at e1; rw [hj] at e2; cases e1; cases e2; omega

theorem gets_nearly {α : Type} {es ps : List (Proposal α)} {w : Bool} {av : List α} {r : α}
    (hr : List.Forall₂ Rounded es ps) (h : Gets ps w av r) : GetsNearly es w av r := by
  rcases h with ⟨i, p', hb, rfl⟩ | ⟨h1, h2, h3⟩
  · left
    have hp' : p' ∈ ps := List.mem_of_getElem? hb.1
    obtain ⟨p, hp, hpp⟩ := forall₂_left' hr.flip p' hp'
    refine ⟨p, hp, hpp.1.symm, hb.2.1, fun q hq hqa => ?_⟩
    obtain ⟨q', hq', hqq⟩ := forall₂_left' hr q hq
    have hw := best_worth hb hq' (by rw [hqq.1]; exact hqa)
    obtain ⟨-, ⟨h1, -⟩ | ⟨m, k, h1, h2, h3, h4⟩⟩ := hqq
    · exact .inl h1
    · right
      obtain ⟨-, ⟨g1, g2⟩ | ⟨n, l, g1, g2, g3, g4⟩⟩ := hpp
      · rw [g2, h3] at hw
        obtain ⟨x, hx, -⟩ := C41_thousandths k h2
        rw [hx] at hw
        exact absurd hw (by simp [worth])
      · rw [h3, g3] at hw
        exact ⟨m, n, h1, g1, gap_close h4 g4 (worth_thousandths_le h2 hw)⟩
  · right
    refine ⟨fun p hp hpa => ?_, h2, h3⟩
    obtain ⟨p', hp', hpp⟩ := forall₂_left' hr p hp
    exact h1 p' hp' (by rw [hpp.1]; exact hpa)

/-- C115: whatever the weights are, of those asked for and available none has a weight more than one thousandth above what the
client gets. -/
theorem C115_nearly_partial :
    (∀ (a : AcceptList Encoding), (∀ p ∈ a.entries, WeightOk p) → ∀ available req resp r,
      codingExchange a available req resp = .ok (some r) → GetsNearly a.entries a.wildcard available r) ∧
    (∀ (a : AcceptList TEncoding), (∀ p ∈ a.entries, WeightOk p) → ∀ available req resp r,
      transferExchange a available req resp = .ok (some r) → GetsNearly a.entries a.wildcard available r) := by
  refine ⟨fun a ha av req resp r h => ?_, fun a ha av req resp r h => ?_⟩
  · obtain ⟨ps, h1, -, h2⟩ := C115_codings_partial.1 a ha
    exact gets_nearly h1 (((h2 av req resp).1 r).mp h)
  · obtain ⟨ps, h1, -, h2⟩ := C115_codings_partial.2 a ha
    exact gets_nearly h1 (((h2 av req resp).1 r).mp h)

example : transferExchange ⟨true, [⟨.gzip, none⟩, ⟨.chunked, some (.fin false 1)⟩]⟩ [.gzip, .chunked, .brotli] [] [] =
    .ok (some .chunked) := by decide +kernel

theorem rounds_to_one {m k : Nat} {U : Nat} (h : 2 * gap (m * 1000) (U * k) ≤ U) (hk : k ≤ 1000) (hm : m ≤ U)
    (hc : 2000 * (U - m) < U) : k = 1000 := by
  by_contra hne
  have : U * k ≤ U * 999 := Nat.mul_le_mul_left _ (by omega)
  unfold gap at h
  omega

/-- C115 is violated by weights closer than a thousandth: the client that prefers `e` gets `e'`, though the same list negotiated
without being sent gives `e`. -/
theorem C115_violated_rounding (e e' : Encoding) (m : Nat) (h1 : m < 2 ^ 149) (h2 : 2000 * (2 ^ 149 - m) < 2 ^ 149)
    (available : List Encoding) (he : e ∈ available) (he' : e' ∈ available) (req resp : Headers) :
    let a : AcceptList Encoding := ⟨false, [⟨e, some (.fin false (2 ^ 149))⟩, ⟨e', some (.fin false m)⟩]⟩
    (a.negotiate available).2 = .ok e ∧ codingExchange a available req resp = .ok (some e') := by
  intro a
  have hw : ∀ p ∈ a.entries, WeightOk p := by
    intro p hp x hx
    simp only [a, List.mem_cons, List.not_mem_nil, or_false] at hp
    rcases hp with rfl | rfl
    · cases hx; exact ⟨_, Nat.le_refl _, rfl⟩
    · cases hx; exact ⟨_, Nat.le_of_lt h1, rfl⟩
  constructor
  · refine ((C37_negotiate a available hw).1 e).mpr (.inl ⟨0, _, ⟨rfl, he, ?_⟩, rfl⟩)
    intro j q hj _
    match j with
    | 0 => exact .inl rfl
    | 1 =>
      cases hj
      refine .inr ⟨_, _, rfl, rfl, .inl ?_⟩
      show m + 1 < 2 ^ 149 + 1
      exact Nat.succ_lt_succ h1
    | j + 2 => simp [a] at hj
  · obtain ⟨ps, hr, -, ho⟩ := C115_codings_partial.1 a hw
    refine ((ho available req resp).1 e').mpr (.inl ?_)
    cases hr with
    | cons hp hr =>
      cases hr with
      | cons hq hr =>
        cases hr
        rename_i p q
        obtain ⟨hpi, ⟨hp, -⟩ | ⟨mp, kp, hp1, hp2, hp3, hp4⟩⟩ := hp
        · cases hp
        obtain ⟨hqi, ⟨hq, -⟩ | ⟨mq, kq, hq1, hq2, hq3, hq4⟩⟩ := hq
        · cases hq
        injection hp1 with hp1
        injection hp1 with _ hp1
        injection hq1 with hq1
        injection hq1 with _ hq1
        subst hp1 hq1
        rw [rounds_to_one hp4 hp2 (Nat.le_refl _) (by simp)] at hp3
        rw [rounds_to_one hq4 hq2 (Nat.le_of_lt h1) h2] at hq3
        refine ⟨1, q, ⟨rfl, by rw [hqi]; exact he', ?_⟩, hqi⟩
        intro j x hj _
        match j with
        | 0 => cases hj; exact .inr ⟨_, _, rfl, rfl, .inr ⟨by rw [hp3, hq3], Nat.one_pos⟩⟩
        | 1 => exact .inl rfl
        | j + 2 => simp at hj

example : let m := 2 ^ 149 - 2 ^ 125; m < 2 ^ 149 ∧ 2000 * (2 ^ 149 - m) < 2 ^ 149 := by decide

/-- C115 for media types: the client reads the first available type covered by the range it asked for with the most weight, its
weights rounded to three decimals and a missing weight standing for 1. Missing: missing weights and weights with more decimals. -/
theorem C115_media_partial (a : AcceptList Mime) (hw : ∀ p ∈ a.entries, WeightOk p) (ht : ∀ p ∈ a.entries, AcceptType p.item) :
    ∃ ps, List.Forall₂ RoundedMedia a.entries ps ∧
      ((∀ p ∈ a.entries, ThreeDecimals p.weight ∧ p.weight ≠ none) → ps = a.entries) ∧
      ∀ available req resp, (∀ m ∈ available, MimeWF m ∧ Ascii m.display) →
        Outcome (mediaExchange a available req resp) (GetsMedia ps a.wildcard available) := by
  obtain ⟨ps, h1, h2, h3, h4⟩ := C41_media_partial a hw ht
  refine ⟨ps, h2, h4, fun av req resp hav => ?_⟩
  have wok : ∀ p ∈ ps, WeightOk p := by
    intro p hp x hx
    obtain ⟨k, hk, rfl⟩ := (h3 p hp).1 x hx
    exact unit_thousandths hk
  have hn := C38_negotiate ⟨a.wildcard, ps⟩ av wok
  have he : mediaExchange a av req resp = _ := exchange_eq h1
    (fun r hr => (C75_round_trip_iff r).mpr (hav r (C38_available _ _ _ hr))) req resp
  rw [he]
  exact outcome_of hn.1 hn.2.2.1

example : mediaExchange ⟨false, [⟨⟨s!!"text/*", s!!"text", s!!"*", false, []⟩, some (thousandths 300)⟩]⟩
    [Mime.const s!!"image" s!!"png" false, Mime.const s!!"text" s!!"html" true] [] [] =
    .ok (some (Mime.const s!!"text" s!!"html" true)) := by decide +kernel

/-- C115 is violated for media types by a missing weight: it ranks lowest in the client's list and highest once sent. -/
theorem C115_violated_no_weight (e e' : Mime) (he : AcceptType e) (he' : AcceptType e')
    (h : e.subsetEq e = true) (h' : e'.subsetEq e' = true) (hee : e.subsetEq e' = false) (k : Nat) (hk : k < 1000)
    (req resp : Headers) :
    let a : AcceptList Mime := ⟨false, [⟨e, none⟩, ⟨e', some (thousandths k)⟩]⟩
    (a.negotiateMedia [e, e']).2 = .ok e' ∧ mediaExchange a [e, e'] req resp = .ok (some e) := by
  intro a
  have hw : ∀ p ∈ a.entries, WeightOk p := by
    intro p hp x hx
    simp only [a, List.mem_cons, List.not_mem_nil, or_false] at hp
    rcases hp with rfl | rfl
    · cases hx
    · cases hx; exact unit_thousandths (by omega)
  have ht : ∀ p ∈ a.entries, AcceptType p.item := by
    intro p hp
    simp only [a, List.mem_cons, List.not_mem_nil, or_false] at hp
    rcases hp with rfl | rfl
    · exact he
    · exact he'
  obtain ⟨x, hx, -⟩ := C41_thousandths k (by omega)
  constructor
  · refine ((C38_negotiate a [e, e'] hw).1 e').mpr (.inl ⟨1, _, ⟨rfl, ⟨e', by simp, h'⟩, ?_⟩, [e], [], rfl, h', ?_⟩)
    · intro j q hj _
      match j with
      | 0 =>
        cases hj
        refine .inr ⟨_, _, rfl, rfl, .inl ?_⟩
        show 0 < worth (some (thousandths k))
        rw [hx]
        exact Nat.succ_pos _
      | 1 => exact .inl rfl
      | j + 2 => simp [a] at hj
    · intro y hy
      rw [List.mem_singleton] at hy
      rw [hy]
      exact hee
  · obtain ⟨ps, hr, -, ho⟩ := C115_media_partial a hw ht
    refine ((ho [e, e'] req resp ?_).1 e).mpr (.inl ?_)
    · intro m hm
      simp only [List.mem_cons, List.not_mem_nil, or_false] at hm
      rcases hm with rfl | rfl
      · exact ⟨he.wf, he.ascii⟩
      · exact ⟨he'.wf, he'.ascii⟩
    cases hr with
    | cons hp hr =>
      cases hr with
      | cons hq hr =>
        cases hr
        rename_i p q
        obtain ⟨hpi, ⟨-, hp⟩ | ⟨mp, kp, hp1, -⟩⟩ := hp
        swap
        · cases hp1
        obtain ⟨hqi, ⟨hq, -⟩ | ⟨mq, kq, hq1, hq2, hq3, hq4⟩⟩ := hq
        · cases hq
        have hlt : worth q.weight < worth p.weight := by
          rw [hp, hq3, ← thousandths_one]
          refine worth_lt ?_ (Nat.le_refl _)
          injection hq1 with hq1
          rw [weightOf_thousandths (by omega) ⟨mq, hq1, hq2, hq4⟩]
          exact hk
        refine ⟨0, p, ⟨rfl, ⟨e, by simp, by rw [hpi]; exact h⟩, ?_⟩, [], [e'], rfl, by rw [hpi]; exact h, by simp⟩
        intro j y hj _
        match j with
        | 0 => exact .inl rfl
        | 1 => cases hj; exact .inr ⟨_, _, rfl, rfl, .inl hlt⟩
        | j + 2 => simp at hj

example : let e := Mime.const s!!"text" s!!"html" false; let e' := Mime.const s!!"image" s!!"png" false
    e.subsetEq e = true ∧ e'.subsetEq e' = true ∧ e.subsetEq e' = false ∧ MimeWF e ∧ MimeWF e' :=
  ⟨by decide +kernel, by decide +kernel, by decide +kernel, (C22_round_trip_iff _).mp (by decide +kernel),
    (C22_round_trip_iff _).mp (by decide +kernel)⟩

end HT
