import Verif.Spec.Message
import Verif.Props.Mime

/-! Messages: C12, C16. -/

namespace HT
open Spec

variable {β : Type}

/-! ### C12: body operations and the content type -/

theorem setContentType_eq (m : Msg β) (mime : Mime) :
    m.setContentType mime =
      (m.headers.get CONTENT_TYPE, { m with headers := FMap.set m.headers CONTENT_TYPE [mime.display] }) := rfl

theorem step_body (I : BodyI β) (m : Msg β) (o : MOp β) :
    (o.step I m).body = stored I o ∧ o.step I m = Msg.copyContentType I { m with body := stored I o } := by
  have key : ∀ m : Msg β, (Msg.copyContentType I m).body = m.body := by
    intro m
    unfold Msg.copyContentType
    cases m.headers.get CONTENT_TYPE with
    | some _ => rfl
    | none => cases I.mime m.body <;> rfl
  cases o <;> exact ⟨key _, rfl⟩

/-- A body model with numbers for bodies: even ones are JSON, odd ones have no type. -/
def exampleI : BodyI Nat := ⟨fun n => if n % 2 = 0 then some Mime.JSON else none, 100⟩

/-- What each operation returns: replacing, swapping and taking hand out the old body. -/
theorem C12_old_body (I : BodyI β) (m : Msg β) (b : β) :
    (m.replaceBody I b).1 = m.body ∧ (m.swapBody I b).1 = m.body ∧ (m.takeBody I).1 = m.body :=
  ⟨rfl, rfl, rfl⟩

example : ((⟨[], 4⟩ : Msg Nat).swapBody exampleI 7).1 = 4 := rfl

/-- The message holds the new body after each operation, the empty one after taking. -/
theorem C12_new_body (I : BodyI β) (m : Msg β) (o : MOp β) : (o.step I m).body = stored I o :=
  (step_body I m o).1

example : ((.swap 7 : MOp Nat).step exampleI ⟨[], 4⟩).body = 7 ∧ ((.take : MOp Nat).step exampleI ⟨[], 4⟩).body = 100 := ⟨rfl, rfl⟩

/-- With a content type present a body operation changes no header. -/
theorem C12_present (I : BodyI β) (m : Msg β) (o : MOp β) (h : m.headers.get CONTENT_TYPE ≠ none) :
    (o.step I m).headers = m.headers := by
  rw [(step_body I m o).2]
  unfold Msg.copyContentType
  cases hg : m.headers.get CONTENT_TYPE with
  | none => exact absurd hg h
  | some _ => simp only

example : ((.set 4 : MOp Nat).step exampleI ⟨[(s!!"content-type", [s!!"a/b"])], 7⟩).headers = [(s!!"content-type", [s!!"a/b"])] := by
  decide +kernel

/-- Without one, the content type becomes that of the body put in, if it has one, and no other header changes. -/
theorem C12_absent (I : BodyI β) (m : Msg β) (o : MOp β) (h : m.headers.get CONTENT_TYPE = none) :
    (∀ n, n ≠ CONTENT_TYPE → (o.step I m).headers.get n = m.headers.get n) ∧
      (o.step I m).headers.get CONTENT_TYPE = (I.mime (stored I o)).map fun mime => [mime.display] := by
  rw [(step_body I m o).2]
  unfold Msg.copyContentType
  simp only [h]
  cases I.mime (stored I o) with
  | none => exact ⟨fun n _ => rfl, h⟩
  | some mime =>
    simp only [setContentType_eq]
    refine ⟨fun n hn => ?_, ?_⟩
    · unfold Headers.get; rw [FMap.get_set, if_neg (Ne.symm hn)]
    · exact get_set_self _ _ _

example : ((.set 4 : MOp Nat).step exampleI ⟨[(s!!"a", [s!!"b"])], 7⟩).headers.get CONTENT_TYPE = some [s!!"application/json"] := by
  decide +kernel

/-- Any sequence of body operations leaves the headers of a message with a content type as they are. -/
theorem C12_sequence_present (I : BodyI β) (m : Msg β) (os : List (MOp β)) (h : m.headers.get CONTENT_TYPE ≠ none) :
    (os.foldl (MOp.step I) m).headers = m.headers := by
  induction os generalizing m with
  | nil => rfl
  | cons o os ih =>
    have h1 := C12_present I m o h
    rw [List.foldl_cons, ih _ (by rw [h1]; exact h), h1]

example : (([.set 2, .take] : List (MOp Nat)).foldl (MOp.step exampleI) ⟨[(s!!"content-type", [s!!"a/b"])], 7⟩).headers =
    [(s!!"content-type", [s!!"a/b"])] := by decide +kernel

/-- Any sequence of body operations on a message without content type: it gets the type of the first body that has
one, and no other header changes. -/
theorem C12_sequence_absent (I : BodyI β) (m : Msg β) (os : List (MOp β)) (h : m.headers.get CONTENT_TYPE = none) :
    (∀ n, n ≠ CONTENT_TYPE → (os.foldl (MOp.step I) m).headers.get n = m.headers.get n) ∧
      (os.foldl (MOp.step I) m).headers.get CONTENT_TYPE =
        (os.findSome? fun o => I.mime (stored I o)).map fun mime => [mime.display] := by
  induction os generalizing m with
  | nil => exact ⟨fun _ _ => rfl, h⟩
  | cons o os ih =>
    obtain ⟨h1, h2⟩ := C12_absent I m o h
    rw [List.foldl_cons, List.findSome?_cons]
    cases hm : I.mime (stored I o) with
    | none =>
      rw [hm] at h2
      obtain ⟨g1, g2⟩ := ih (o.step I m) h2
      exact ⟨fun n hn => by rw [g1 n hn, h1 n hn], g2⟩
    | some mime =>
      rw [hm] at h2
      rw [C12_sequence_present I (o.step I m) os (by rw [h2]; simp)]
      exact ⟨h1, h2⟩

example : (([.set 1, .swap 2, .set 3] : List (MOp Nat)).foldl (MOp.step exampleI) ⟨[], 7⟩).headers.get CONTENT_TYPE =
    some [s!!"application/json"] := by decide +kernel

/-- After an explicit content type, whatever body operations follow, the type reported is that one, and the
operation returns the previous values. -/
theorem C12_explicit (I : BodyI β) (m : Msg β) (mime : Mime) (hm : MimeWF mime) (os : List (MOp β)) :
    (m.setContentType mime).1 = m.headers.get CONTENT_TYPE ∧
      (os.foldl (MOp.step I) (m.setContentType mime).2).contentType = .ok (some mime) := by
  refine ⟨rfl, ?_⟩
  have hg : (m.setContentType mime).2.headers.get CONTENT_TYPE = some [mime.display] := get_set_self _ _ _
  have hs := C12_sequence_present I (m.setContentType mime).2 os (by rw [hg]; simp)
  unfold Msg.contentType
  rw [hs, hg]
  show (Mime.parse mime.display |> fun r => match r with
    | .ok mime => Res.ok (some mime) | .err _ => Res.ok none | .panic => Res.panic) = _
  rw [(C22_round_trip_iff mime).mpr hm]

example : (([.set 1, .swap 2, .take, .replace 3] : List (MOp Nat)).foldl (MOp.step exampleI) (Msg.new exampleI)).contentType =
    .ok (some Mime.JSON) := by decide +kernel
example : MimeWF Mime.JSON := (C22_round_trip_iff _).mp (C22_constants _ (by decide))

/-! ### C16: host and remote address -/

theorem headerFirst_of {h : Headers} {n : HeaderName} {o : Option Str} (hf : FirstIs h n o) :
    Request.headerFirst h n = .ok o := by
  unfold Request.headerFirst
  cases o with
  | none => rw [show h.get n = none from hf]
  | some s =>
    obtain ⟨rest, hr⟩ := hf
    rw [hr]
    rfl

theorem split_head? (c : Char) (s : Str) : (split c s).head? = some (s.takeWhile (· ≠ c)) := by
  induction s with
  | nil => rfl
  | cons x s ih =>
    rw [split]
    by_cases hx : x = c
    · rw [if_pos hx]
      simp [hx]
    · rw [if_neg hx]
      cases hs : split c s with
      | nil => rw [hs] at ih; cases ih
      | cons y ys =>
        rw [hs] at ih
        simp only [List.head?_cons, Option.some.injEq] at ih
        simp [hx, ih]

theorem firstElement_eq (s : Str) : Request.firstElement s = some (beforeComma s) := split_head? ',' s

theorem split_join_one {c : Char} {xs : List Str} (hne : xs ≠ []) (h : ∀ p ∈ xs, c ∉ p) :
    split c (join [c] xs) = xs := by
  cases xs with
  | nil => exact absurd rfl hne
  | cons x xs =>
    rw [split_join (by simp) h]
    simp

theorem partOf_pair {k v part : Str} (hk : ∀ c ∈ k, c ≠ ';' ∧ c ≠ '=') (hv : ∀ c ∈ v, c ≠ ';' ∧ c ≠ '=') :
    Request.partOf part (k ++ s!!"=" ++ v) = if eqIgnoreCase k part = true then some v else none := by
  unfold Request.partOf
  have : split '=' (k ++ s!!"=" ++ v) = [k, v] := by
    rw [List.append_assoc, List.singleton_append, split_append_sep (fun hm => (hk _ hm).2 rfl),
      split_of_not_mem (fun hm => (hv _ hm).2 rfl)]
  rw [this]

theorem forwardedPart_plain {h : Headers} {ps : List (Str × Str)} (hp : PlainPairs ps)
    (hf : FirstIs h s!!"forwarded" (some (plainForwarded ps))) {part : Str} (ha : isAscii part = true) :
    Request.forwardedPart h part = .ok (firstValue ps part) := by
  unfold Request.forwardedPart
  rw [headerFirst_of hf]
  simp only [Res.map_ok, Option.bind_some]
  congr 1
  unfold plainForwarded
  rw [split_join_one]
  · unfold firstValue
    obtain ⟨-, hp⟩ := hp
    clear hf
    induction ps with
    | nil => rfl
    | cons e ps ih =>
      obtain ⟨h1, h2, h3⟩ := hp e (by simp)
      rw [List.map_cons, List.findSome?_cons, partOf_pair h1 h2, List.find?_cons]
      have hs : (eqIgnoreCase e.1 part = true) ↔ sameName e.1 part = true := by
        rw [sameName_iff]
        unfold eqIgnoreCase
        have : isAscii e.1 = true := isAscii_iff.mpr h3
        simp [this, ha]
      by_cases hc : sameName e.1 part = true
      · rw [if_pos (hs.mpr hc), hc]
        rfl
      · rw [if_neg (fun h => hc (hs.mp h)), show sameName e.1 part = false by simpa using hc]
        exact ih (fun e' he' => hp e' (List.mem_cons_of_mem _ he'))
  · simpa using hp.1
  · intro p hpp
    rw [List.mem_map] at hpp
    obtain ⟨e, he, rfl⟩ := hpp
    obtain ⟨h1, h2, -⟩ := hp.2 e he
    simp only [List.mem_append, not_or, List.mem_cons, List.not_mem_nil, or_false]
    exact ⟨⟨fun hm => (h1 _ hm).1 rfl, by decide⟩, fun hm => (h2 _ hm).1 rfl⟩

/-- `Forwarded` absent or in plain form. -/
def PlainOrAbsent (h : Headers) : Option (List (Str × Str)) → Prop
  | none => FirstIs h s!!"forwarded" none
  | some ps => PlainPairs ps ∧ FirstIs h s!!"forwarded" (some (plainForwarded ps))

theorem forwardedPart_of {h : Headers} {fwd : Option (List (Str × Str))} (hf : PlainOrAbsent h fwd) {part : Str}
    (ha : isAscii part = true) : Request.forwardedPart h part = .ok (fwd.bind fun ps => firstValue ps part) := by
  cases fwd with
  | none =>
    unfold Request.forwardedPart
    rw [headerFirst_of (show FirstIs h _ none from hf)]
    rfl
  | some ps => exact forwardedPart_plain hf.1 hf.2 ha

/-- The remote address: the `for` element of the first Forwarded header, else the first X-Forwarded-For header up to
its first comma, else the peer address. (Missing: Forwarded headers not in the plain form `k=v;k=v`, where
the claim is false, see `C16_violated_*`.) -/
theorem C16_remote_partial {h : Headers} {fwd : Option (List (Str × Str))} {xff : Option Str} (peer : Option Str)
    (h1 : PlainOrAbsent h fwd) (h2 : FirstIs h s!!"x-forwarded-for" xff) :
    Request.remote h peer =
      .ok (((fwd.bind fun ps => firstValue ps s!!"for").or (xff.map beforeComma)).or peer) := by
  unfold Request.remote Request.forwardedFor
  rw [forwardedPart_of h1 (by decide), headerFirst_of h2]
  cases (fwd.bind fun ps => firstValue ps s!!"for") with
  | some s => rfl
  | none =>
    cases xff with
    | none => cases peer <;> rfl
    | some x => simp [Request.orElse, firstElement_eq]

example : Request.remote [(s!!"x-forwarded-for", [s!!"1.2.3.4, 5.6.7.8"])] (some s!!"9.9.9.9:1") = .ok (some s!!"1.2.3.4") := by
  decide +kernel

/-- The host: the `host` element of the first Forwarded header, else the first X-Forwarded-Host header up to its
first comma, else the first Host header, else the host of the URL. (Missing: as for `remote`.) -/
theorem C16_host_partial {h : Headers} {fwd : Option (List (Str × Str))} {xfh hst : Option Str} (url : Option Str)
    (h1 : PlainOrAbsent h fwd) (h2 : FirstIs h s!!"x-forwarded-host" xfh) (h3 : FirstIs h s!!"host" hst) :
    Request.host h url =
      .ok ((((fwd.bind fun ps => firstValue ps s!!"host").or (xfh.map beforeComma)).or hst).or url) := by
  unfold Request.host
  rw [forwardedPart_of h1 (by decide), headerFirst_of h2, headerFirst_of h3]
  cases (fwd.bind fun ps => firstValue ps s!!"host") with
  | some s => rfl
  | none =>
    cases xfh with
    | none => cases hst <;> cases url <;> rfl
    | some x => simp [Request.orElse, firstElement_eq]

example : Request.host [(s!!"host", [s!!"b"]), (s!!"x-forwarded-host", [s!!"a, c"])] (some s!!"d") = .ok (some s!!"a") ∧
    Request.host [(s!!"host", [s!!"b"])] (some s!!"d") = .ok (some s!!"b") := by decide +kernel

/-- Neither panics when no header has an empty list of values. -/
theorem C16_never_panics (h : Headers) (hne : ∀ n, h.get n ≠ some []) (o : Option Str) :
    (∃ x, Request.remote h o = .ok x) ∧ ∃ x, Request.host h o = .ok x := by
  have hf : ∀ n, ∃ o, Request.headerFirst h n = .ok o := by
    intro n
    unfold Request.headerFirst
    cases hg : h.get n with
    | none => exact ⟨_, rfl⟩
    | some vs =>
      cases vs with
      | nil => exact absurd hg (hne n)
      | cons v vs => exact ⟨_, rfl⟩
  have hor : ∀ a b, (∃ x, a = Res.ok x) → (∃ x, b () = Res.ok x) → ∃ x, Request.orElse a b = .ok x := by
    rintro a b ⟨x, rfl⟩ ⟨y, hy⟩
    cases x with
    | none => exact ⟨y, hy⟩
    | some s => exact ⟨some s, rfl⟩
  have hm : ∀ n (f : Option Str → Option Str), ∃ x, (Request.headerFirst h n).map f = .ok x := by
    intro n f
    obtain ⟨o, ho⟩ := hf n
    exact ⟨f o, by rw [ho]; rfl⟩
  exact ⟨hor _ _ (hor _ _ (hm _ _) (hm _ _)) ⟨_, rfl⟩, hor _ _ (hor _ _ (hor _ _ (hm _ _) (hm _ _)) (hf _)) ⟨_, rfl⟩⟩

example : PlainOrAbsent [(s!!"forwarded", [s!!"by=p;FOR=1.2.3.4;host=h", s!!"for=x"])]
    (some [(s!!"by", s!!"p"), (s!!"FOR", s!!"1.2.3.4"), (s!!"host", s!!"h")]) := by
  refine ⟨?_, [s!!"for=x"], by decide⟩
  unfold PlainPairs
  decide

end HT
