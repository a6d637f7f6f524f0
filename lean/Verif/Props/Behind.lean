import Verif.Spec.Behind
import Verif.Props.Forwarded
import Verif.Props.Message
import Verif.Props.AsciiText

/-! C117: what a server behind proxies learns about the client. -/

namespace HT
open Spec

namespace Forwarded

/-! ### The pieces between semicolons -/

/-- The pieces of a written value. -/
def writtenPieces (f : Forwarded) : List Str :=
  (f.by'.toList.map (s!!"by=" ++ ·)) ++ forPart f.forwardedFor ::
    ((f.host.toList.map (s!!"host=" ++ ·)) ++ f.proto.toList.map (s!!"proto=" ++ ·))

theorem token_plain {v : Str} (h : Token v) : ∀ c ∈ v, c ≠ ';' ∧ c ≠ '=' := by
  intro c hc
  exact ⟨fun e => sep_not_tchar ';' (by simp) (e ▸ h.2 c hc), fun e => sep_not_tchar '=' (by simp) (e ▸ h.2 c hc)⟩

theorem mem_quoteBody {v : Str} {c : Char} (h : c ∈ quoteBody v) : c ∈ v ∨ c = '\\' := by
  obtain ⟨x, hx, hc⟩ := List.mem_flatMap.mp h
  split at hc
  · simp only [List.mem_cons, List.not_mem_nil, or_false] at hc
    rcases hc with rfl | rfl
    · exact .inr rfl
    · exact .inl hx
  · simp only [List.mem_cons, List.not_mem_nil, or_false] at hc
    exact .inl (hc ▸ hx)

theorem mem_formatValue {v : Str} {c : Char} (h : c ∈ formatValue v) : c ∈ v ∨ c = '\\' ∨ c = '"' := by
  rw [formatValue_eq] at h
  split at h
  · exact .inl h
  · simp only [List.mem_cons, List.mem_append, List.not_mem_nil, or_false] at h
    rcases h with h | h | h
    · exact .inr (.inr h)
    · exact (mem_quoteBody h).imp id .inl
    · exact .inr (.inr h)

theorem forPart_single (v : Str) : forPart [v] = s!!"for=" ++ formatValue v := rfl

theorem forPart_two (v w : Str) (vs : List Str) :
    forPart (v :: w :: vs) = s!!"for=" ++ formatValue v ++ s!!", " ++ forPart (w :: vs) := rfl

theorem semi_forPart {vs : List Str} (h : ∀ v ∈ vs, ';' ∉ v) : ';' ∉ forPart vs := by
  have one : ∀ v ∈ vs, ';' ∉ s!!"for=" ++ formatValue v := by
    intro v hv hm
    rcases List.mem_append.mp hm with hm | hm
    · revert hm; decide
    · rcases mem_formatValue hm with hm | hm | hm
      · exact h v hv hm
      · revert hm; decide
      · revert hm; decide
  induction vs with
  | nil => intro hm; cases hm
  | cons v vs ih =>
    cases vs with
    | nil => exact one v (by simp)
    | cons w vs =>
      rw [forPart_two]
      intro hm
      simp only [List.mem_append] at hm
      rcases hm with ((hm | hm) | hm) | hm
      · exact one v (by simp) (List.mem_append_left _ hm)
      · exact one v (by simp) (List.mem_append_right _ hm)
      · revert hm; decide
      · exact ih (fun v hv => h v (List.mem_cons_of_mem _ hv)) (fun v hv => one v (List.mem_cons_of_mem _ hv)) hm

theorem not_mem_key {k v : Str} {c : Char} (hk : c ∉ k) (hv : ∀ x ∈ v, x ≠ ';' ∧ x ≠ '=') (hc : c = ';') : c ∉ k ++ v := by
  rw [List.mem_append, not_or]
  exact ⟨hk, fun hm => (hv c hm).1 hc⟩

theorem split_written {f : Forwarded} (hb : ∀ v ∈ f.by', Token v) (hh : ∀ v ∈ f.host, Token v)
    (hp : ∀ v ∈ f.proto, Token v) (hf : ';' ∉ forPart f.forwardedFor) :
    split ';' f.headerValue = f.writtenPieces := by
  have tail : split ';' (forPart f.forwardedFor ++ tailPart f.host f.proto) = forPart f.forwardedFor ::
      ((f.host.toList.map (s!!"host=" ++ ·)) ++ f.proto.toList.map (s!!"proto=" ++ ·)) := by
    have k1 : ∀ v, Token v → ';' ∉ s!!"host=" ++ v := fun v hv =>
      not_mem_key (by decide) (token_plain hv) rfl
    have k2 : ∀ v, Token v → ';' ∉ s!!"proto=" ++ v := fun v hv =>
      not_mem_key (by decide) (token_plain hv) rfl
    cases h1 : f.host with
    | none =>
      cases h2 : f.proto with
      | none => simp [tailPart, split_of_not_mem hf]
      | some p =>
        have := k2 p (hp p h2)
        show split ';' (forPart f.forwardedFor ++ ';' :: (s!!"proto=" ++ p)) = _
        rw [split_append_sep hf, split_of_not_mem this]
        rfl
    | some h =>
      have ph := k1 h (hh h h1)
      cases h2 : f.proto with
      | none =>
        show split ';' (forPart f.forwardedFor ++ ';' :: (s!!"host=" ++ h)) = _
        rw [split_append_sep hf, split_of_not_mem ph]
        rfl
      | some p =>
        have pp := k2 p (hp p h2)
        have e : tailPart (some h) (some p) = ';' :: ((s!!"host=" ++ h) ++ ';' :: (s!!"proto=" ++ p)) := by
          simp [tailPart]
        rw [e, split_append_sep hf, split_append_sep ph, split_of_not_mem pp]
        rfl
  rw [headerValue_eq]
  unfold writtenPieces
  cases h : f.by' with
  | none => simpa using tail
  | some b =>
    have pb : ';' ∉ s!!"by=" ++ b := not_mem_key (by decide) (token_plain (hb b h)) rfl
    have e : (s!!"by=" ++ b ++ s!!";") ++ (forPart f.forwardedFor ++ tailPart f.host f.proto) =
        (s!!"by=" ++ b) ++ ';' :: (forPart f.forwardedFor ++ tailPart f.host f.proto) := by simp
    simp only
    rw [e, split_append_sep pb, tail]
    rfl

/-- The piece with the addresses has nothing but `for` to tell, and that only if there is one address, without `=`. -/
theorem partOf_forPart (part : Str) (vs : List Str) :
    Request.partOf part (forPart vs) =
      match vs with
      | [v] => if '=' ∈ v then none else if eqIgnoreCase s!!"for" part = true then some (formatValue v) else none
      | _ => none := by
  cases vs with
  | nil => rfl
  | cons v vs =>
    cases vs with
    | nil =>
      simp only
      rw [forPart_single]
      have e : s!!"for=" ++ formatValue v = s!!"for" ++ '=' :: formatValue v := rfl
      unfold Request.partOf
      rw [e, split_append_sep (by decide)]
      by_cases hv : '=' ∈ v
      · rw [if_pos hv]
        have hm : '=' ∈ formatValue v := by
          rw [formatValue_eq]
          split
          · exact hv
          · simp only [List.mem_cons, List.mem_append]
            refine .inr (.inl (List.mem_flatMap.mpr ⟨'=', hv, by decide⟩))
        obtain ⟨a, b, hab, hn⟩ := List.eq_append_cons_of_mem hm
        rw [hab, split_append_sep hn]
        cases hs : split '=' b with
        | nil => exact absurd hs (split_ne_nil _ _)
        | cons y ys => rfl
      · rw [if_neg hv]
        have hm : '=' ∉ formatValue v := by
          intro hm
          rcases mem_formatValue hm with hm | hm | hm
          · exact hv hm
          · revert hm; decide
          · revert hm; decide
        rw [split_of_not_mem hm]
    | cons w vs =>
      simp only
      have three : ∀ (b : Str), '=' ∈ b → ∀ x, Request.partOf x (s!!"for" ++ '=' :: b) = none := by
        intro b hb x
        obtain ⟨p, q, hpq, hn⟩ := List.eq_append_cons_of_mem hb
        unfold Request.partOf
        rw [split_append_sep (by decide), hpq, split_append_sep hn]
        cases hs : split '=' q with
        | nil => exact absurd hs (split_ne_nil _ _)
        | cons y ys => rfl
      rw [forPart_two]
      have e : s!!"for=" ++ formatValue v ++ s!!", " ++ forPart (w :: vs) =
          s!!"for" ++ '=' :: (formatValue v ++ s!!", " ++ forPart (w :: vs)) := by simp
      rw [e]
      refine three _ ?_ _
      refine List.mem_append_right _ ?_
      cases vs <;> simp [forPart, join]

theorem found_token (k part : Str) {o : Option Str} (hk : ∀ c ∈ k, c ≠ ';' ∧ c ≠ '=') (ho : ∀ v ∈ o, Token v) :
    (o.toList.map (k ++ s!!"=" ++ ·)).findSome? (Request.partOf part) = if eqIgnoreCase k part = true then o else none := by
  cases o with
  | none => simp
  | some v =>
    rw [Option.toList_some, List.map_cons, List.map_nil, List.findSome?_cons, partOf_pair hk (token_plain (ho v rfl))]
    by_cases hc : eqIgnoreCase k part = true
    · rw [if_pos hc]
    · rw [if_neg hc]; rfl

/-- What a request that says `f` tells about a part. -/
theorem forwardedPart_says {h : Headers} {f : Forwarded} (hs : Says h f) (hk : Known f)
    (hf : ∀ v ∈ f.forwardedFor, ';' ∉ v) :
    Request.forwardedPart h s!!"for" = .ok (match f.forwardedFor with
      | [v] => if '=' ∈ v then none else some (formatValue v)
      | _ => none) ∧
    Request.forwardedPart h s!!"host" = .ok f.host := by
  obtain ⟨-, hb, hh, hp⟩ := hk
  unfold Request.forwardedPart
  rw [headerFirst_of hs]
  simp only [Res.map_ok, Option.bind_some]
  rw [split_written hb hh hp (semi_forPart hf)]
  have all : ∀ part, f.writtenPieces.findSome? (Request.partOf part) =
      (if eqIgnoreCase s!!"by" part = true then f.by' else none).or
        ((Request.partOf part (forPart f.forwardedFor)).or
          ((if eqIgnoreCase s!!"host" part = true then f.host else none).or
            (if eqIgnoreCase s!!"proto" part = true then f.proto else none))) := by
    intro part
    unfold writtenPieces
    rw [List.findSome?_append, show (f.by'.toList.map (s!!"by=" ++ ·)) = f.by'.toList.map (s!!"by" ++ s!!"=" ++ ·) from rfl,
      found_token s!!"by" part (by decide) hb, List.findSome?_cons]
    rw [List.findSome?_append, show (f.host.toList.map (s!!"host=" ++ ·)) = f.host.toList.map (s!!"host" ++ s!!"=" ++ ·) from rfl,
      found_token s!!"host" part (by decide) hh,
      show (f.proto.toList.map (s!!"proto=" ++ ·)) = f.proto.toList.map (s!!"proto" ++ s!!"=" ++ ·) from rfl,
      found_token s!!"proto" part (by decide) hp]
    cases Request.partOf part (forPart f.forwardedFor) <;> rfl
  have e1 : eqIgnoreCase s!!"by" s!!"for" = false := by decide
  have e2 : eqIgnoreCase s!!"by" s!!"host" = false := by decide
  have e3 : eqIgnoreCase s!!"host" s!!"for" = false := by decide
  have e4 : eqIgnoreCase s!!"host" s!!"host" = true := by decide
  have e5 : eqIgnoreCase s!!"proto" s!!"for" = false := by decide
  have e6 : eqIgnoreCase s!!"proto" s!!"host" = false := by decide
  have e7 : eqIgnoreCase s!!"for" s!!"for" = true := by decide
  have e8 : eqIgnoreCase s!!"for" s!!"host" = false := by decide
  constructor
  · rw [all, partOf_forPart, e1, e3, e5, e7]
    cases f.forwardedFor with
    | nil => rfl
    | cons v vs =>
      cases vs with
      | nil => by_cases hv : '=' ∈ v <;> simp [hv]
      | cons w vs => rfl
  · rw [all, partOf_forPart, e2, e4, e6, e8]
    cases f.forwardedFor with
    | nil => simp
    | cons v vs =>
      cases vs with
      | nil => by_cases hv : '=' ∈ v <;> simp [hv]
      | cons w vs => simp

theorem quoteBody_length (v : Str) : v.length ≤ (quoteBody v).length := by
  induction v with
  | nil => simp
  | cons c v ih =>
    have e : quoteBody (c :: v) = (if c = '\\' ∨ c = '"' then ['\\', c] else [c]) ++ quoteBody v := rfl
    rw [e, List.length_append, List.length_cons]
    split <;> simp only [List.length_cons, List.length_nil] <;> omega

theorem formatValue_eq_self {v : Str} (h : ForValue v) : formatValue v = v ↔ Token v := by
  rw [formatValue_eq]
  constructor
  · intro e
    by_contra ht
    rw [if_neg (by rintro (h' | h'); exact ht h'; exact h.1 h')] at e
    have := congrArg List.length e
    have := quoteBody_length v
    simp at *
    omega
  · intro ht
    rw [if_pos (.inl ht)]

end Forwarded

/-! ### The remote address and the host -/

/-- C117: what the server takes for the remote address when the request says `f`, with no semicolon in an address. One
address that is a token is taken as it is, one that is quoted is taken with quotes and backslashes; with an `=` in it, with
two or more addresses and with none, the header does not count. -/
theorem C117_remote {h : Headers} {f : Forwarded} {xff : Option Str} (peer : Option Str) (hs : Says h f) (hk : Known f)
    (hf : ∀ v ∈ f.forwardedFor, ';' ∉ v) (hx : FirstIs h s!!"x-forwarded-for" xff) :
    (∀ a, f.forwardedFor = [a] → Token a → Request.remote h peer = .ok (some a)) ∧
    (∀ a, f.forwardedFor = [a] → ¬ Token a → '=' ∉ a →
      ∃ q, QuotedText q a ∧ Request.remote h peer = .ok (some ('"' :: (q ++ ['"'])))) ∧
    (∀ a, f.forwardedFor = [a] → '=' ∈ a → Request.remote h peer = .ok (otherwise xff peer)) ∧
    (f.forwardedFor.length ≠ 1 → Request.remote h peer = .ok (otherwise xff peer)) := by
  have hp := (Forwarded.forwardedPart_says hs hk hf).1
  have other : Request.forwardedPart h s!!"for" = .ok none → Request.remote h peer = .ok (otherwise xff peer) := by
    intro hn
    unfold Request.remote Request.forwardedFor
    rw [hn, headerFirst_of hx]
    cases xff with
    | none => cases peer <;> rfl
    | some x => simp [Request.orElse, firstElement_eq, otherwise]
  have found : ∀ v, Request.forwardedPart h s!!"for" = .ok (some v) → Request.remote h peer = .ok (some v) := by
    intro v hv
    unfold Request.remote Request.forwardedFor
    rw [hv]
    rfl
  refine ⟨fun a ha ht => ?_, fun a ha ht he => ?_, fun a ha he => ?_, fun hl => ?_⟩
  · rw [ha] at hp
    simp only at hp
    rw [if_neg (fun hm => (Forwarded.token_plain ht _ hm).2 rfl), (Forwarded.formatValue_eq_self (hk.1 a (by simp [ha]))).mpr ht]
      at hp
    exact found a hp
  · rw [ha] at hp
    simp only at hp
    have hv := hk.1 a (by simp [ha])
    rw [if_neg he, Forwarded.formatValue_eq, if_neg (by rintro (h' | h'); exact ht h'; exact hv.1 h')] at hp
    exact ⟨_, Forwarded.quoteBody_quoted (hv.2.resolve_left ht), found _ hp⟩
  · rw [ha] at hp
    simp only at hp
    rw [if_pos he] at hp
    exact other hp
  · refine other ?_
    rw [hp]
    cases hv : f.forwardedFor with
    | nil => rfl
    | cons v vs =>
      cases vs with
      | nil => rw [hv] at hl; simp at hl
      | cons w vs => rfl

example : (Request.remote [(s!!"forwarded", [s!!"by=p;for=1.2.3.4;host=h"]), (s!!"x-forwarded-for", [s!!"x, y"])] none,
    Request.remote [(s!!"forwarded", [s!!"for=\"[::1]:80\";host=h"]), (s!!"x-forwarded-for", [s!!"x, y"])] none,
    Request.remote [(s!!"forwarded", [s!!"for=1.2.3.4, for=p;host=h"]), (s!!"x-forwarded-for", [s!!"x, y"])] none) =
    (.ok (some s!!"1.2.3.4"), .ok (some s!!"\"[::1]:80\""), .ok (some s!!"x")) := by decide +kernel
example : Forwarded.headerValue ⟨some s!!"p", [s!!"1.2.3.4"], some s!!"h", none⟩ = s!!"by=p;for=1.2.3.4;host=h" := by decide +kernel

/-- C117: the host is the one that the request says, else as without the header. -/
theorem C117_host {h : Headers} {f : Forwarded} {xfh hst : Option Str} (url : Option Str) (hs : Says h f) (hk : Known f)
    (hf : ∀ v ∈ f.forwardedFor, ';' ∉ v) (h2 : FirstIs h s!!"x-forwarded-host" xfh) (h3 : FirstIs h s!!"host" hst) :
    Request.host h url = .ok (((f.host.or (xfh.map beforeComma)).or hst).or url) := by
  unfold Request.host
  rw [(Forwarded.forwardedPart_says hs hk hf).2, headerFirst_of h2, headerFirst_of h3]
  cases f.host with
  | some s => rfl
  | none =>
    cases xfh with
    | none => cases hst <;> cases url <;> rfl
    | some x => simp [Request.orElse, firstElement_eq]

example : Says [(s!!"forwarded", [s!!"for=a, for=b;host=h;proto=https"])] ⟨none, [s!!"a", s!!"b"], some s!!"h", some s!!"https"⟩ ∧
    Request.host [(s!!"forwarded", [s!!"for=a, for=b;host=h;proto=https"])] none = .ok (some s!!"h") :=
  ⟨⟨[], by decide +kernel⟩, by decide +kernel⟩

/-- C117: so the server sees the client, the first of the addresses, whatever else the request has, exactly if there is no
other address and it is a token. -/
theorem C117_client_iff_partial {f : Forwarded} (hk : Known f) (hf : ∀ v ∈ f.forwardedFor, ';' ∉ v)
    (hn : f.forwardedFor ≠ []) :
    (∀ h peer, Says h f → (∀ n, h.get n ≠ some []) → Request.remote h peer = .ok f.forwardedFor.head?) ↔
      ∃ a, f.forwardedFor = [a] ∧ Token a := by
  constructor
  · intro H
    have hs : Says [(s!!"forwarded", [f.headerValue])] f := ⟨[], rfl⟩
    have hx : FirstIs [(s!!"forwarded", [f.headerValue])] s!!"x-forwarded-for" none := rfl
    have hr := H [(s!!"forwarded", [f.headerValue])] none hs (by
      intro n hg
      have := FMap.mem_of_get hg
      simp at this)
    obtain ⟨-, h2, h3, h4⟩ := C117_remote none hs hk hf hx
    cases hl : f.forwardedFor with
    | nil => exact absurd hl hn
    | cons a as =>
      cases as with
      | nil =>
        refine ⟨a, rfl, ?_⟩
        rw [hl] at hr
        by_contra ht
        by_cases he : '=' ∈ a
        · rw [h3 a hl he] at hr
          cases hr
        · obtain ⟨q, hq, hr'⟩ := h2 a hl ht he
          rw [hr'] at hr
          have := congrArg List.length (Option.some.inj (Res.ok.inj hr))
          have := Forwarded.quotedText_length hq
          simp at *
          omega
      | cons b bs =>
        rw [h4 (by rw [hl]; simp), hl] at hr
        cases hr
  · rintro ⟨a, ha, ht⟩ h peer hs hne
    have : ∃ o, FirstIs h s!!"x-forwarded-for" o := by
      cases hg : h.get s!!"x-forwarded-for" with
      | none => exact ⟨none, hg⟩
      | some vs =>
        cases vs with
        | nil => exact absurd hg (hne _)
        | cons v vs => exact ⟨some v, vs, hg⟩
    obtain ⟨o, ho⟩ := this
    rw [(C117_remote peer hs hk hf ho).1 a ha ht, ha]
    rfl

theorem known_tokens {as : List Str} (h : ∀ a ∈ as, Token a) : Known { forwardedFor := as } :=
  ⟨fun v hv => ⟨(h v hv).1, .inl (h v hv)⟩, by simp, by simp, by simp⟩

example : ∀ h peer, Says h { forwardedFor := [s!!"1.2.3.4"] } → (∀ n, h.get n ≠ some []) →
    Request.remote h peer = .ok (some s!!"1.2.3.4") := by
  have ht : Token s!!"1.2.3.4" := ⟨by decide, fun c hc => by rw [← Mime.isToken_iff]; revert c; decide⟩
  exact (C117_client_iff_partial (known_tokens (by simpa using ht)) (by decide) (by simp)).mpr ⟨_, rfl, ht⟩

/-! ### Proxies -/

/-- C117: however many proxies there are, the server reads the addresses they were called from, in order and after those
that were known before; the other parts and the other headers are as before. -/
theorem C117_chain (v6 : Str → Option Str) (as : List Str) (hn : as ≠ []) (ha : ∀ a ∈ as, ForValue a) {h : Headers}
    {o : Option Forwarded} (ho : Forwarded.fromHeaders v6 h = .ok o) (hk : Known (o.getD {})) :
    ∃ h', through v6 as h = .ok h' ∧
      Forwarded.fromHeaders v6 h' = .ok (some { o.getD {} with forwardedFor := (o.getD {}).forwardedFor ++ as }) ∧
      Says h' { o.getD {} with forwardedFor := (o.getD {}).forwardedFor ++ as } ∧
      ∀ n, n ≠ s!!"forwarded" → h'.get n = h.get n := by
  induction as generalizing h o with
  | nil => exact absurd rfl hn
  | cons a as ih =>
    have hk' : Known ((o.getD {}).addFor a) := by
      refine ⟨fun v hv => ?_, hk.2⟩
      rcases List.mem_append.mp hv with hv | hv
      · exact hk.1 v hv
      · rw [List.mem_singleton.mp hv]; exact ha a (by simp)
    have hw : ForwardedWF ((o.getD {}).addFor a) :=
      ⟨hk'.1, hk'.2.1, hk'.2.2.1, hk'.2.2.2, fun e => absurd e (by simp [Forwarded.addFor])⟩
    obtain ⟨h1, v, e1, -, e3, e4⟩ := (C48_round_trip_partial v6 _).mpr hw h
    have hv : v = ((o.getD {}).addFor a).headerValue := by
      rw [applyHeader_ok] at e1
      cases e1
      have := e3 s!!"forwarded"
      rw [if_pos rfl, get_set_self] at this
      simp only [Option.some.injEq, List.cons.injEq, and_true] at this
      exact this.symm
    have hp : proxy v6 h a = .ok h1 := by
      unfold proxy
      rw [ho]
      exact e1
    have hs : Says h1 ((o.getD {}).addFor a) := by
      refine ⟨[], ?_⟩
      have := e3 s!!"forwarded"
      rw [if_pos rfl, hv] at this
      exact this
    have he : ∀ n, n ≠ s!!"forwarded" → h1.get n = h.get n := fun n hn => by rw [e3, if_neg hn]
    cases as with
    | nil => exact ⟨h1, by unfold through; rw [hp]; rfl, e4, hs, he⟩
    | cons b bs =>
      obtain ⟨h2, g1, g2, g3, g4⟩ := ih (by simp) (fun x hx => ha x (List.mem_cons_of_mem _ hx)) e4 hk'
      refine ⟨h2, by unfold through; rw [hp]; exact g1, ?_, ?_, fun n hn => by rw [g4 n hn, he n hn]⟩
      · rw [g2]; simp [Forwarded.addFor]
      · have e : ({ (some ((o.getD {}).addFor a)).getD {} with
            forwardedFor := ((some ((o.getD {}).addFor a)).getD {}).forwardedFor ++ (b :: bs) } : Forwarded) =
          { o.getD {} with forwardedFor := (o.getD {}).forwardedFor ++ a :: b :: bs } := by
          simp [Forwarded.addFor]
        rwa [e] at g3

example : (through (fun _ => none) [s!!"1.2.3.4", s!!"[::1]:80"] [(s!!"accept", [s!!"*/*"])]).bind (Forwarded.fromHeaders fun _ => none) =
    .ok (some { forwardedFor := [s!!"1.2.3.4", s!!"[::1]:80"] }) := by decide +kernel

theorem asciiT_forValueOf {v : Str} (h : ForValue v) : Ascii v := by
  rcases h.2 with h | h
  · exact asciiT_token h.2
  · intro c hc
    rcases h c hc with (h | h | h | h) | h | h
    · subst h; decide
    · subst h; decide
    · omega
    · omega
    · subst h; decide
    · subst h; decide

/-- C117: an address is passed on exactly if it is one or more characters that can be quoted. -/
theorem C117_address_iff (v6 : Str → Option Str) {h : Headers} {o : Option Forwarded}
    (ho : Forwarded.fromHeaders v6 h = .ok o) (hk : Known (o.getD {})) {a : Str} (ha : Ascii a) :
    (∃ h', proxy v6 h a = .ok h' ∧ Forwarded.fromHeaders v6 h' = .ok (some ((o.getD {}).addFor a))) ↔ ForValue a := by
  constructor
  · rintro ⟨h', h1, h2⟩
    unfold proxy at h1
    rw [ho] at h1
    simp only [Res.bind_ok, applyHeader_ok] at h1
    cases h1
    have hr : Forwarded.fromHeaders v6 (FMap.set h s!!"forwarded" [((o.getD {}).addFor a).headerValue]) =
        (Forwarded.parse ((o.getD {}).addFor a).headerValue).map some := by
      unfold Forwarded.fromHeaders Forwarded.fromForwardedHeader Forwarded.NAME
      rw [get_set_self]
      simp only [HeaderValues.first, List.head?_cons, Res.unwrap_some, Res.bind_ok]
      cases Forwarded.parse ((o.getD {}).addFor a).headerValue <;> rfl
    rw [hr] at h2
    have hp : Forwarded.parse ((o.getD {}).addFor a).headerValue = .ok ((o.getD {}).addFor a) := by
      obtain ⟨x, hx, e⟩ := map_some_ok.mp h2
      rw [hx]
      cases e
      rfl
    have hasc : Ascii ((o.getD {}).addFor a).headerValue := by
      rw [asciiT_forwarded]
      obtain ⟨k1, k2, k3, k4⟩ := hk
      refine ⟨fun v hv => ?_, fun v hv => asciiT_token (k2 v hv).2, fun v hv => asciiT_token (k3 v hv).2,
        fun v hv => asciiT_token (k4 v hv).2⟩
      rcases List.mem_append.mp hv with hv | hv
      · exact asciiT_forValueOf (k1 v hv)
      · rw [List.mem_singleton.mp hv]; exact ha
    exact ((Forwarded.parse_headerValue ((spec_ascii_iff _).mp hasc)).mp hp).1 a (by simp [Forwarded.addFor])
  · intro hv
    obtain ⟨h', h1, h2, -⟩ := C117_chain v6 [a] (by simp) (by simpa using hv) ho hk
    refine ⟨h', ?_, h2⟩
    unfold through at h1
    obtain ⟨x, hx, e⟩ := Res.bind_eq_ok_iff.mp h1
    cases e
    exact hx

example : (proxy (fun _ => none) [] s!!"a b!").bind (Forwarded.fromHeaders fun _ => none) = .err 500 := by decide +kernel

/-- C117 (broken): with two or more addresses the server does not see any of them, but what anybody can write into
`X-Forwarded-For`, or the last proxy. -/
theorem C117_violated_two (v6 : Str → Option Str) (as : List Str) (hn : as ≠ []) (ha : ∀ a ∈ as, ForValue a ∧ ';' ∉ a)
    {h : Headers} {o : Option Forwarded} (ho : Forwarded.fromHeaders v6 h = .ok o) (hk : Known (o.getD {}))
    (hs : ∀ a ∈ (o.getD {}).forwardedFor, ';' ∉ a) (hl : 2 ≤ (o.getD {}).forwardedFor.length + as.length) {xff : Option Str}
    (hx : FirstIs h s!!"x-forwarded-for" xff) :
    ∃ h', through v6 as h = .ok h' ∧ ∀ peer, Request.remote h' peer = .ok (otherwise xff peer) := by
  obtain ⟨h', h1, -, h3, h4⟩ := C117_chain v6 as hn (fun a h => (ha a h).1) ho hk
  refine ⟨h', h1, fun peer => ?_⟩
  have hx' : FirstIs h' s!!"x-forwarded-for" xff := by
    cases xff with
    | none => exact (h4 _ (by decide)).trans hx
    | some x => obtain ⟨r, hr⟩ := hx; exact ⟨r, (h4 _ (by decide)).trans hr⟩
  refine (C117_remote peer h3 ⟨fun v hv => ?_, hk.2⟩ (fun v hv => ?_) hx').2.2.2 ?_
  · rcases List.mem_append.mp hv with hv | hv
    · exact hk.1 v hv
    · exact (ha v hv).1
  · rcases List.mem_append.mp hv with hv | hv
    · exact hs v hv
    · exact (ha v hv).2
  · simp only [List.length_append]
    omega

example : (through (fun _ => none) [s!!"1.2.3.4", s!!"10.0.0.1"] []).bind (fun h => Request.remote h (some s!!"10.0.0.2")) =
    .ok (some s!!"10.0.0.2") := by decide +kernel

theorem Forwarded.quoteBody_append (a b : Str) : quoteBody (a ++ b) = quoteBody a ++ quoteBody b := List.flatMap_append

theorem Forwarded.quoteBody_token {v : Str} (h : Token v) : quoteBody v = v := by
  have : ∀ v : Str, (∀ c ∈ v, TChar c) → quoteBody v = v := by
    intro v
    induction v with
    | nil => intro _; rfl
    | cons c v ih =>
      intro hv
      have hc := hv c (by simp)
      have h1 : c ≠ '\\' := fun e => by subst e; revert hc; rw [← Mime.isToken_iff]; decide
      have h2 : c ≠ '"' := fun e => by subst e; revert hc; rw [← Mime.isToken_iff]; decide
      have e : quoteBody (c :: v) = (if c = '\\' ∨ c = '"' then ['\\', c] else [c]) ++ quoteBody v := rfl
      rw [e, if_neg (by simp [h1, h2]), ih fun c hc => hv c (List.mem_cons_of_mem _ hc)]
      rfl
  exact this v h.2

/-- An address that looks like a host. -/
def hostlike (x e : Str) : Str := x ++ s!!";host=" ++ e ++ s!!";"

theorem hostlike_not_token (x e : Str) : ¬ Token (hostlike x e) := fun h =>
  Forwarded.sep_not_tchar ';' (by simp) (h.2 ';' (by simp [hostlike]))

theorem hostlike_forValue {x e : Str} (hx : Token x) (he : Token e) (h1 : '!' ∉ x) (h2 : '!' ∉ e) : ForValue (hostlike x e) := by
  have tok : ∀ {t : Str}, Token t → '!' ∉ t → ∀ c ∈ t, QdText c := by
    intro t ht hb c hc
    have hn := Mime.tchar_nat (ht.2 c hc)
    have n1 : c.toNat ≠ 33 := fun e => hb (by rw [show '!' = c from char_eq_of_toNat e.symm]; exact hc)
    have n2 : c.toNat ≠ 34 := fun e => by
      have := ht.2 c hc
      rw [show c = '"' from char_eq_of_toNat e, ← Mime.isToken_iff] at this
      revert this; decide
    have n3 : c ≠ '\\' := fun e => by
      have := ht.2 c hc
      rw [e, ← Mime.isToken_iff] at this
      revert this; decide
    exact .inr (.inr (.inr ⟨by omega, by omega, n3⟩))
  refine ⟨by simp [hostlike], .inr fun c hc => .inl ?_⟩
  unfold hostlike at hc
  simp only [List.mem_append] at hc
  have lit : ∀ c ∈ s!!";host=", QdText c := by
    intro c hc
    refine .inr (.inr (.inr ?_))
    revert c
    decide
  rcases hc with ((hc | hc) | hc) | hc
  · exact tok hx h1 c hc
  · exact lit c hc
  · exact tok he h2 c hc
  · exact lit c (by rw [List.mem_singleton.mp hc]; decide)

/-- C117 (broken): an address with `;host=` in it, which is written as a quoted string and read from it, decides what the
server takes for the host, whatever host the request says. -/
theorem C117_violated_host {h : Headers} {f : Forwarded} {x e : Str} {as : List Str} (hb : ∀ v ∈ f.by', Token v) (hx : Token x)
    (he : Token e) (hf : f.forwardedFor = hostlike x e :: as) (hs : Says h f) (url : Option Str) :
    Request.host h url = .ok (some e) := by
  have part : Request.forwardedPart h s!!"host" = .ok (some e) := by
    unfold Request.forwardedPart
    rw [headerFirst_of hs]
    simp only [Res.map_ok, Option.bind_some]
    congr 1
    obtain ⟨r, hr⟩ : ∃ r, Forwarded.forPart f.forwardedFor = (s!!"for=\"" ++ x) ++ ';' :: ((s!!"host" ++ s!!"=" ++ e) ++ ';' :: r) := by
      have hv : Forwarded.formatValue (hostlike x e) = (s!!"\"" ++ x) ++ ';' :: ((s!!"host" ++ s!!"=" ++ e) ++ ';' :: s!!"\"") := by
        rw [Forwarded.formatValue_eq, if_neg (by rintro (h | h); exact hostlike_not_token _ _ h; simp [hostlike] at h)]
        simp only [hostlike, Forwarded.quoteBody_append, Forwarded.quoteBody_token hx, Forwarded.quoteBody_token he]
        have e1 : Forwarded.quoteBody s!!";host=" = s!!";host=" := by decide
        have e2 : Forwarded.quoteBody s!!";" = s!!";" := by decide
        rw [e1, e2]
        simp
      rw [hf]
      cases as with
      | nil => exact ⟨_, by rw [Forwarded.forPart_single, hv]; simp; rfl⟩
      | cons b bs => exact ⟨_, by rw [Forwarded.forPart_two, hv]; simp; rfl⟩
    have px : ';' ∉ s!!"for=\"" ++ x := Forwarded.not_mem_key (by decide) (Forwarded.token_plain hx) rfl
    have pe : ';' ∉ s!!"host" ++ s!!"=" ++ e := Forwarded.not_mem_key (by decide) (Forwarded.token_plain he) rfl
    have q1 : Request.partOf s!!"host" (s!!"for=\"" ++ x) = none := by
      have := partOf_pair (k := s!!"for") (v := '"' :: x) (part := s!!"host") (by decide)
        (fun c hc => by
          rcases List.mem_cons.mp hc with rfl | hc
          · decide
          · exact Forwarded.token_plain hx c hc)
      exact this
    have q2 : Request.partOf s!!"host" (s!!"host" ++ s!!"=" ++ e) = some e :=
      partOf_pair (by decide) (Forwarded.token_plain he)
    have main : ∀ r', (split ';' (Forwarded.forPart f.forwardedFor ++ r')).findSome? (Request.partOf s!!"host") = some e := by
      intro r'
      have assoc : ∀ A B : Str, (A ++ ';' :: (B ++ ';' :: r)) ++ r' = A ++ ';' :: (B ++ ';' :: (r ++ r')) := by
        intro A B; simp
      rw [hr, assoc, split_append_sep px, split_append_sep pe, List.findSome?_cons, q1, List.findSome?_cons, q2]
    rw [Forwarded.headerValue_eq]
    cases hby : f.by' with
    | none => exact main _
    | some b =>
      have pb : ';' ∉ s!!"by" ++ s!!"=" ++ b := Forwarded.not_mem_key (by decide) (Forwarded.token_plain (hb b hby)) rfl
      have eb : (s!!"by=" ++ b ++ s!!";") ++ (Forwarded.forPart f.forwardedFor ++ Forwarded.tailPart f.host f.proto) =
        (s!!"by" ++ s!!"=" ++ b) ++ ';' :: (Forwarded.forPart f.forwardedFor ++ Forwarded.tailPart f.host f.proto) := by simp
      have qb : Request.partOf s!!"host" (s!!"by" ++ s!!"=" ++ b) = none :=
        partOf_pair (by decide) (Forwarded.token_plain (hb b hby))
      simp only
      rw [eb, split_append_sep pb, List.findSome?_cons, qb]
      exact main _
  unfold Request.host
  rw [part]
  rfl

example : ForValue (hostlike s!!"x" s!!"evil.com") := by
  have t : ∀ s : Str, s ≠ [] → (∀ c ∈ s, Mime.isToken c = true) → Token s :=
    fun s hn h => ⟨hn, fun c hc => (Mime.isToken_iff c).mp (h c hc)⟩
  exact hostlike_forValue (t _ (by decide) (by decide)) (t _ (by decide) (by decide)) (by decide) (by decide)

/-- C117 (broken): so a client that writes such an entry into `X-Forwarded-For` chooses the host that the server behind a proxy
sees. -/
theorem C117_violated_attack (v6 : Str → Option Str) {h : Headers} {x e a : Str} (hx : Token x) (he : Token e) (h1 : '!' ∉ x)
    (h2 : '!' ∉ e) (ha : ForValue a) (hv : v6 (hostlike x e) = none) (hf : h.get s!!"forwarded" = none)
    (hxf : h.get s!!"x-forwarded-for" = some [hostlike x e]) (hb : h.get s!!"x-forwarded-by" = none)
    (hp : h.get s!!"x-forwarded-proto" = none) (hh : h.get s!!"x-forwarded-host" = none) :
    ∃ h', proxy v6 h a = .ok h' ∧ Forwarded.fromHeaders v6 h' = .ok (some { forwardedFor := [hostlike x e, a] }) ∧
      ∀ url, Request.host h' url = .ok (some e) := by
  have ho : Forwarded.fromHeaders v6 h = .ok (some { forwardedFor := [hostlike x e] }) := by
    have hc : ',' ∉ hostlike x e := by
      have tok : ∀ {t : Str}, Token t → ',' ∉ t := fun ht hm => Forwarded.sep_not_tchar ',' (by simp) (ht.2 _ hm)
      intro hm
      unfold hostlike at hm
      simp only [List.mem_append] at hm
      rcases hm with ((hm | hm) | hm) | hm
      · exact tok hx hm
      · revert hm; decide
      · exact tok he hm
      · revert hm; decide
    have ht : trim (hostlike x e) = hostlike x e := by
      refine trim_of_trimmed ⟨?_, ?_⟩
      · obtain ⟨hne, htc⟩ := hx
        cases x with
        | nil => exact absurd rfl hne
        | cons c x =>
          intro d hd
          cases hd
          have := Mime.tchar_nat (htc c (by simp))
          unfold isWs
          simp
          omega
      · intro d hd
        have : (hostlike x e).getLast? = some ';' := List.getLast?_concat
        rw [this] at hd
        cases hd
        decide
    unfold Forwarded.fromHeaders Forwarded.fromForwardedHeader Forwarded.NAME
    rw [hf]
    simp only [Res.bind_ok]
    unfold Forwarded.fromXHeaders Forwarded.xValue Forwarded.X_FOR Forwarded.X_BY Forwarded.X_PROTO Forwarded.X_HOST
    rw [hxf, hb, hp, hh]
    simp only [HeaderValues.first, List.head?_cons, Res.unwrap_some, Res.map_ok, Res.bind_ok, split_of_not_mem hc,
      List.map_cons, List.map_nil, Forwarded.xForEntry, ht, hv]
    rfl
  obtain ⟨h', e1, e2, e3, -⟩ := C117_chain v6 [a] (by simp) (by simpa using ha) ho
    ⟨by simpa using hostlike_forValue hx he h1 h2, by simp, by simp, by simp⟩
  unfold through at e1
  obtain ⟨h'', hp', e⟩ := Res.bind_eq_ok_iff.mp e1
  cases e
  exact ⟨h', hp', e2, fun url => C117_violated_host (by simp) hx he rfl e3 url⟩

example : (proxy (fun _ => none) [(s!!"x-forwarded-for", [s!!"x;host=evil.com;"]), (s!!"host", [s!!"good.com"])] s!!"1.2.3.4").bind
    (fun h => Request.host h (some s!!"good.com")) = .ok (some s!!"evil.com") := by decide +kernel

end HT
