import Verif.Spec.Json
import Verif.Props.Written
import Verif.Props.CspStd

/-! C137: report groups are written as JSON. -/

namespace HT
open Spec

theorem control_hex : ∀ n < 32, (match hexPad 4 n with
    | [a, b, c, d] => decide (hexChar a b c d = some (Char.ofNat n))
    | _ => false) = true := by decide +kernel

theorem readString_esc {e x : Char} (he : e ≠ 'u') (hx : unescape e = some x) (t : Str) :
    readString ('\\' :: e :: t) = (readString t).map fun y => (x :: y.1, y.2) := by
  conv_lhs => unfold readString
  rw [if_neg (by decide), if_pos rfl]
  simp only [if_neg he, hx, Option.bind_some]

theorem readString_hex {a b c d x : Char} (hx : hexChar a b c d = some x) (t : Str) :
    readString ('\\' :: 'u' :: a :: b :: c :: d :: t) = (readString t).map fun y => (x :: y.1, y.2) := by
  conv_lhs => unfold readString
  rw [if_neg (by decide), if_pos rfl]
  simp only [if_true, hx]

theorem readString_char (c : Char) (t : Str) :
    readString (jsonChar c ++ t) = (readString t).map fun y => (c :: y.1, y.2) := by
  have hc : ∀ {n}, c.toNat = n → c = Char.ofNat n := by rintro n rfl; simp
  unfold jsonChar
  split
  · rename_i h; subst h; exact readString_esc (by decide) rfl t
  split
  · rename_i h; subst h; exact readString_esc (by decide) rfl t
  split
  · rename_i h; rw [hc h]; exact readString_esc (by decide) rfl t
  split
  · rename_i h; rw [hc h]; exact readString_esc (by decide) rfl t
  split
  · rename_i h; rw [hc h]; exact readString_esc (by decide) rfl t
  split
  · rename_i h; rw [hc h]; exact readString_esc (by decide) rfl t
  split
  · rename_i h; rw [hc h]; exact readString_esc (by decide) rfl t
  split
  · rename_i h
    have := control_hex _ h
    split at this
    · rename_i a b x d he
      rw [he]
      have h2 := of_decide_eq_true this
      rw [show Char.ofNat c.toNat = c by simp] at h2
      exact readString_hex h2 t
    · cases this
  · rename_i h1 h2 _ _ _ _ _ h3
    rw [List.singleton_append]
    conv_lhs => unfold readString
    rw [if_neg h1, if_neg h2, if_neg h3]

theorem readString_text (s r : Str) : readString (s.flatMap jsonChar ++ '"' :: r) = some (s, r) := by
  induction s with
  | nil => rw [List.flatMap_nil, List.nil_append]; unfold readString; rfl
  | cons c s ih => rw [List.flatMap_cons, List.append_assoc, readString_char, ih]; rfl

/-- What may follow a value. -/
def Follows (r : Str) : Prop := ∀ c, r.head? = some c → c = ',' ∨ c = '}' ∨ c = ']'

/-- From the text the value is read, with any bound from `k` on and whatever follows. -/
def Writes (k : Nat) (t : Str) (v : Json) : Prop :=
  (∃ c t', t = c :: t' ∧ skipWs t = t ∧ c ≠ ']' ∧ c ≠ '}') ∧
  ∀ n r, k ≤ n → Follows r → readValue n (t ++ r) = some (v, r)

theorem skip_cons {c : Char} (h : (c = ' ' || c = '\t' || c = '\n' || c = '\r') = false) (t : Str) : skipWs (c :: t) = c :: t := by
  unfold skipWs
  rw [List.dropWhile_cons, if_neg (by rw [h]; decide)]

theorem writes_str (s : Str) : Writes 1 (jsonStr s) (.str s) := by
  refine ⟨⟨'"', _, rfl, skip_cons (by decide) _, by decide, by decide⟩, ?_⟩
  rintro n r hn -
  obtain ⟨n, rfl⟩ : ∃ m, n = m + 1 := ⟨n - 1, by omega⟩
  rw [jsonStr, List.cons_append, List.append_assoc, readValue, skip_cons (by decide)]
  simp only [List.singleton_append]
  rw [readString_text]
  rfl

theorem dec_head (n : Nat) : ∃ c t, dec n = c :: t ∧ (c = '0' → t = []) := by
  have key : ∀ n, 0 < n → ∃ c t, natStr 10 n = c :: t ∧ c ≠ '0' := by
    intro n
    induction n using Nat.strongRecOn with
    | ind n ih =>
      intro hn
      rw [natStr]
      split
      · rename_i h
        refine ⟨_, [], rfl, ?_⟩
        have : ∀ n < 10, 0 < n → digitC n ≠ '0' := by decide
        exact this n (by omega) hn
      · rename_i h
        obtain ⟨c, t, h1, h2⟩ := ih (n / 10) (by omega) (by omega)
        exact ⟨c, t ++ [digitC (n % 10)], by rw [h1]; rfl, h2⟩
  by_cases hn : 0 < n
  · obtain ⟨c, t, h1, h2⟩ := key n hn
    exact ⟨c, t, h1, fun h => absurd h h2⟩
  · obtain rfl : n = 0 := by omega
    exact ⟨'0', [], by decide +kernel, fun _ => rfl⟩

theorem readDigits_dec (n : Nat) {r : Str} (hr : Follows r) : readDigits (dec n ++ r) = some (n, r) := by
  have h1 : (dec n ++ r).takeWhile isDigit = dec n ∧ (dec n ++ r).dropWhile isDigit = r := by
    have hr' : r.takeWhile isDigit = [] ∧ r.dropWhile isDigit = r := by
      cases r with
      | nil => exact ⟨rfl, rfl⟩
      | cons c r =>
        have : isDigit c = false := by rcases hr c rfl with rfl | rfl | rfl <;> decide
        simp [this]
    have hd := dec_digits n
    constructor
    · rw [List.takeWhile_append_of_pos hd, hr'.1, List.append_nil]
    · rw [List.dropWhile_append_of_pos hd, hr'.2]
  unfold readDigits
  obtain ⟨c, t, hd, h0⟩ := dec_head n
  simp only [h1.1, h1.2]
  rw [if_neg (by rw [hd]; simp; intro h; simp [h0 h]), decValue_dec]
  cases r with
  | nil => rfl
  | cons c r =>
    have := hr c rfl
    simp only
    rw [if_neg]
    rintro (rfl | rfl | rfl) <;> revert this <;> decide

theorem writes_bool (b : Bool) : Writes 1 (if b then s!!"true" else s!!"false") (.bool b) := by
  constructor
  · cases b
    · exact ⟨'f', _, rfl, by decide, by decide, by decide⟩
    · exact ⟨'t', _, rfl, by decide, by decide, by decide⟩
  · rintro n r hn -
    obtain ⟨n, rfl⟩ : ∃ m, n = m + 1 := ⟨n - 1, by omega⟩
    cases b <;> simp only [if_true, Bool.false_eq_true, if_false, List.cons_append, List.nil_append] <;>
      rw [readValue, skip_cons (by decide)] <;> simp [readWord]

theorem isDigit_ne {c d : Char} (h : isDigit c = true) (hd : isDigit d = false) : c ≠ d := by
  rintro rfl; rw [h] at hd; cases hd

theorem readValue_word {c : Char} (t : Str) (n : Nat) (h : c ≠ '"' ∧ c ≠ '[' ∧ c ≠ '{') (hs : skipWs (c :: t) = c :: t) :
    readValue (n + 1) (c :: t) = readWord (c :: t) := by
  rw [readValue, hs]
  split
  · rename_i heq; cases heq; exact absurd rfl h.1
  · rename_i heq; cases heq; exact absurd rfl h.2.1
  · rename_i heq; cases heq; exact absurd rfl h.2.2
  · rfl

theorem digit_skip {c : Char} (h : isDigit c = true) (t : Str) : skipWs (c :: t) = c :: t := by
  apply skip_cons
  simp [isDigit_ne h (d := ' ') (by decide), isDigit_ne h (d := '\t') (by decide), isDigit_ne h (d := '\n') (by decide),
    isDigit_ne h (d := '\r') (by decide)]

theorem readWord_digit {c : Char} (h : isDigit c = true) (t : Str) :
    readWord (c :: t) = (readDigits (c :: t)).map fun x => (.int x.1, x.2) := by
  unfold readWord
  split
  · rename_i heq; cases heq; exact absurd h (by decide)
  · rename_i heq; cases heq; exact absurd h (by decide)
  · rename_i heq; cases heq; exact absurd h (by decide)
  · rename_i heq; cases heq; exact absurd h (by decide)
  · rfl

theorem writes_int (i : Int) : Writes 1 (jsonInt i) (.int i) := by
  obtain ⟨c, t, hd, -⟩ := dec_head i.natAbs
  have hdig : isDigit c = true := dec_digits i.natAbs c (by rw [hd]; simp)
  unfold jsonInt
  split
  · rename_i hi
    refine ⟨⟨'-', _, rfl, skip_cons (by decide) _, by decide, by decide⟩, ?_⟩
    intro n r hn hr
    obtain ⟨n, rfl⟩ : ∃ m, n = m + 1 := ⟨n - 1, by omega⟩
    rw [List.cons_append, readValue_word _ _ (by decide) (skip_cons (by decide) _)]
    simp only [readWord, readDigits_dec _ hr, Option.bind_some]
    rw [if_neg (by omega)]
    congr 3
    omega
  · rename_i hi
    refine ⟨⟨c, t, hd, by rw [hd]; exact digit_skip hdig _, isDigit_ne hdig (by decide), isDigit_ne hdig (by decide)⟩, ?_⟩
    intro n r hn hr
    obtain ⟨n, rfl⟩ : ∃ m, n = m + 1 := ⟨n - 1, by omega⟩
    have h1 := readDigits_dec i.natAbs hr
    rw [hd, List.cons_append] at h1 ⊢
    rw [readValue_word _ _ ⟨isDigit_ne hdig (by decide), isDigit_ne hdig (by decide), isDigit_ne hdig (by decide)⟩
      (digit_skip hdig _), readWord_digit hdig, h1]
    simp only [Option.map_some]
    congr 3
    omega

theorem follows_cons {c : Char} (h : c = ',' ∨ c = '}' ∨ c = ']') (r : Str) : Follows (c :: r) := by
  intro d hd
  cases hd
  exact h

theorem readElems_join {k : Nat} : ∀ (xs : List (Str × Json)), xs ≠ [] → (∀ x ∈ xs, Writes k x.1 x.2) →
    ∀ n r, k + xs.length ≤ n → readElems n (join s!!"," (xs.map (·.1)) ++ ']' :: r) = some (xs.map (·.2), r)
  | [x], _, h, n, r, hn => by
    obtain ⟨n, rfl⟩ : ∃ m, n = m + 1 := ⟨n - 1, by simp at hn; omega⟩
    simp only [List.map_cons, List.map_nil, join]
    rw [readElems, (h x (by simp)).2 n _ (by simp at hn; omega) (follows_cons (by simp) r)]
    simp only [Option.bind_some, skip_cons (c := ']') (by decide)]
  | x :: y :: xs, _, h, n, r, hn => by
    obtain ⟨n, rfl⟩ : ∃ m, n = m + 1 := ⟨n - 1, by simp at hn; omega⟩
    have ih := readElems_join (y :: xs) (by simp) (fun z hz => h z (by simp [hz])) n r (by simp at hn ⊢; omega)
    simp only [List.map_cons, join, List.append_assoc, List.cons_append, List.nil_append] at ih ⊢
    rw [readElems, (h x (by simp)).2 n _ (by simp at hn; omega) (follows_cons (by simp) _)]
    simp only [Option.bind_some, skip_cons (c := ',') (by decide), ih, Option.map_some]

theorem join_head {ts : List Str} {t : Str} (r : Str) : ∃ u, join s!!"," (t :: ts) ++ r = t ++ u := by
  cases ts with
  | nil => exact ⟨r, rfl⟩
  | cons y ys => exact ⟨_, by simp only [join, List.append_assoc]; rfl⟩

theorem writes_arr {k : Nat} (xs : List (Str × Json)) (h : ∀ x ∈ xs, Writes k x.1 x.2) :
    Writes (k + xs.length + 1) (jsonArr (xs.map (·.1))) (.arr (xs.map (·.2))) := by
  refine ⟨⟨'[', _, rfl, skip_cons (by decide) _, by decide, by decide⟩, ?_⟩
  rintro n r hn -
  obtain ⟨n, rfl⟩ : ∃ m, n = m + 1 := ⟨n - 1, by omega⟩
  unfold jsonArr
  simp only [List.cons_append, List.append_assoc, List.nil_append]
  rw [readValue, skip_cons (by decide)]
  cases xs with
  | nil => simp only [List.map_nil, join, List.nil_append, skip_cons (c := ']') (by decide)]
  | cons x xs =>
    obtain ⟨⟨c, t', h1, h2, h3, -⟩, -⟩ := h x (by simp)
    have ih := readElems_join (x :: xs) (by simp) h n r (by simp at hn ⊢; omega)
    obtain ⟨u, hu⟩ := join_head (ts := xs.map (·.1)) (t := x.1) (']' :: r)
    rw [List.map_cons] at ih ⊢
    have hs : skipWs (join s!!"," (x.1 :: xs.map (·.1)) ++ ']' :: r) = c :: (t' ++ u) := by
      rw [hu, h1, List.cons_append]
      rw [h1] at h2
      unfold skipWs at h2 ⊢
      rw [List.dropWhile_cons] at h2 ⊢
      split at h2
      · rename_i hw
        have := congrArg List.length h2
        have := List.length_dropWhile_le (fun c => c = ' ' || c = '\t' || c = '\n' || c = '\r') t'
        simp at *
        omega
      · rename_i hw; rw [if_neg hw]
    rw [hu, h1, List.cons_append] at ih hs
    rw [hu, h1, List.cons_append]
    simp only [hs]
    split
    · rename_i heq; cases heq; exact absurd rfl h3
    · rw [ih]; rfl

/-- The text of a member. -/
def member (f : Str × Str) : Str := jsonStr f.1 ++ ':' :: f.2

theorem readMembers_join {k : Nat} : ∀ (xs : List (Str × Str × Json)), xs ≠ [] → (∀ x ∈ xs, Writes k x.2.1 x.2.2) →
    ∀ n r, k + xs.length ≤ n → readMembers n (join s!!"," (xs.map fun x => member (x.1, x.2.1)) ++ '}' :: r) =
      some (xs.map fun x => (x.1, x.2.2), r)
  | [x], _, h, n, r, hn => by
    obtain ⟨n, rfl⟩ : ∃ m, n = m + 1 := ⟨n - 1, by simp at hn; omega⟩
    simp only [List.map_cons, List.map_nil, join, member, jsonStr, List.cons_append, List.append_assoc, List.nil_append]
    rw [readMembers, skip_cons (by decide)]
    simp only [readString_text, Option.bind_some, skip_cons (c := ':') (by decide)]
    rw [(h x (by simp)).2 n _ (by simp at hn; omega) (follows_cons (by simp) r)]
    simp only [Option.bind_some, skip_cons (c := '}') (by decide)]
  | x :: y :: xs, _, h, n, r, hn => by
    obtain ⟨n, rfl⟩ : ∃ m, n = m + 1 := ⟨n - 1, by simp at hn; omega⟩
    have ih := readMembers_join (y :: xs) (by simp) (fun z hz => h z (by simp [hz])) n r (by simp at hn ⊢; omega)
    simp only [List.map_cons, join, List.append_assoc, List.cons_append, List.nil_append] at ih ⊢
    generalize join s!!"," (member (y.1, y.2.1) :: List.map (fun x => member (x.1, x.2.1)) xs) ++ '}' :: r = rest at ih ⊢
    simp only [member, jsonStr, List.cons_append, List.append_assoc, List.nil_append]
    rw [readMembers, skip_cons (by decide)]
    simp only [readString_text, Option.bind_some, skip_cons (c := ':') (by decide)]
    rw [(h x (by simp)).2 n _ (by simp at hn; omega) (follows_cons (by simp) _)]
    simp only [Option.bind_some, skip_cons (c := ',') (by decide), ih, Option.map_some]

theorem writes_obj {k : Nat} (xs : List (Str × Str × Json)) (h : ∀ x ∈ xs, Writes k x.2.1 x.2.2) :
    Writes (k + xs.length + 1) (jsonObj (xs.map fun x => (x.1, x.2.1))) (.obj (xs.map fun x => (x.1, x.2.2))) := by
  refine ⟨⟨'{', _, rfl, skip_cons (by decide) _, by decide, by decide⟩, ?_⟩
  rintro n r hn -
  obtain ⟨n, rfl⟩ : ∃ m, n = m + 1 := ⟨n - 1, by omega⟩
  unfold jsonObj
  simp only [List.cons_append, List.append_assoc, List.nil_append, List.map_map]
  rw [readValue, skip_cons (by decide)]
  rw [show ((fun f : Str × Str => jsonStr f.1 ++ ':' :: f.2) ∘ fun x : Str × Str × Json => (x.1, x.2.1)) =
    fun x => member (x.1, x.2.1) from rfl]
  cases xs with
  | nil => simp only [List.map_nil, join, List.nil_append, skip_cons (c := '}') (by decide)]
  | cons x xs =>
    have ih := readMembers_join (x :: xs) (by simp) h n r (by simp at hn ⊢; omega)
    rw [List.map_cons] at ih ⊢
    obtain ⟨u, hu⟩ := join_head (ts := xs.map fun x => member (x.1, x.2.1)) (t := member (x.1, x.2.1)) ('}' :: r)
    rw [hu] at ih ⊢
    simp only [member, jsonStr, List.cons_append, List.append_assoc] at ih ⊢
    simp only [skip_cons (c := '"') (by decide)]
    split
    · rename_i heq; exact absurd (List.cons.inj heq).1 (by decide)
    · rw [ih]; rfl

theorem writes_mono {k k' : Nat} {t : Str} {v : Json} (h : Writes k t v) (hk : k ≤ k') : Writes k' t v :=
  ⟨h.1, fun n r hn hr => h.2 n r (by omega) hr⟩

theorem writes_report (r : ReportTo) : Writes (r.endpoints.length + 9) r.toJson (reportObject r) := by
  have he : Writes (r.endpoints.length + 4) (jsonArr (r.endpoints.map fun u => jsonObj [(s!!"url", jsonStr u)]))
      (.arr (r.endpoints.map fun u => .obj [(s!!"url", .str u)])) := by
    have := writes_arr (k := 3) (r.endpoints.map fun u => (jsonObj [(s!!"url", jsonStr u)], Json.obj [(s!!"url", .str u)])) (by
      intro x hx
      obtain ⟨u, -, rfl⟩ := List.mem_map.1 hx
      exact writes_obj (k := 1) [(s!!"url", jsonStr u, .str u)] (by simpa using writes_str u))
    simp only [List.map_map, List.length_map] at this
    exact writes_mono this (by omega)
  have key := writes_obj (k := r.endpoints.length + 4)
    ((r.group.toList.map fun g => (s!!"group", jsonStr g, .str g)) ++
      [(s!!"max_age", jsonInt r.maxAge, .int r.maxAge),
       (s!!"endpoints", jsonArr (r.endpoints.map fun u => jsonObj [(s!!"url", jsonStr u)]),
        .arr (r.endpoints.map fun u => .obj [(s!!"url", .str u)]))] ++
      r.includeSubdomains.toList.map fun b => (s!!"include_subdomains", if b then s!!"true" else s!!"false", .bool b)) (by
    intro x hx
    simp only [List.mem_append, List.mem_map, List.mem_cons, List.not_mem_nil, or_false] at hx
    rcases hx with (⟨g, -, rfl⟩ | rfl | rfl) | ⟨b, -, rfl⟩
    · exact writes_mono (writes_str g) (by omega)
    · exact writes_mono (writes_int _) (by omega)
    · exact he
    · exact writes_mono (writes_bool b) (by omega))
  obtain ⟨g, m, es, i⟩ := r
  cases g <;> cases i <;> exact writes_mono key (by simp)

theorem join_length (ts : List Str) (h : ∀ t ∈ ts, 1 ≤ t.length) : ts.length ≤ (join s!!"," ts).length := by
  induction ts with
  | nil => simp
  | cons t ts ih =>
    cases ts with
    | nil => simpa [join] using h t (by simp)
    | cons y ys =>
      have := ih fun x hx => h x (by simp [hx])
      have := h t (by simp)
      simp only [join, List.length_append, List.length_cons] at *
      omega

theorem toJson_length (r : ReportTo) : r.endpoints.length + 9 ≤ r.toJson.length := by
  obtain ⟨g, m, es, i⟩ := r
  have h := join_length (es.map fun u => jsonObj [(s!!"url", jsonStr u)]) (by
    intro t ht
    obtain ⟨u, -, rfl⟩ := List.mem_map.1 ht
    simp [jsonObj])
  rw [List.length_map] at h
  have h2 : ∀ a b : Str, (jsonStr a ++ ':' :: b).length = (a.flatMap jsonChar).length + b.length + 3 := by
    intro a b; simp [jsonStr]; omega
  have h3 : (s!!"endpoints".flatMap jsonChar).length = 9 := by decide +kernel
  cases g <;> cases i <;>
    simp only [ReportTo.toJson, jsonObj, List.map_cons, List.map_nil, List.nil_append, List.append_nil,
      List.cons_append, join, List.length_cons, List.length_append, List.length_nil, h2, h3, jsonArr] at h ⊢ <;> omega

/-- Read as JSON, the text of a report group is the group: its name, seconds, endpoints and flag, and nothing else. -/
theorem C137_json (r : ReportTo) : parseJson r.toJson = some (reportObject r) := by
  unfold parseJson
  have := (writes_report r).2 (r.toJson.length + 1) [] (by have := toJson_length r; omega) (by intro c hc; cases hc)
  rw [List.append_nil] at this
  rw [this]
  rfl

example : (ReportTo.mk (some s!!"a\"b") (-5) [s!!"https://x.example"] (some true)).toJson =
    s!!"{\"group\":\"a\\\"b\",\"max_age\":-5,\"endpoints\":[{\"url\":\"https://x.example\"}],\"include_subdomains\":true}" := by
  decide +kernel

/-- Different groups have different texts. -/
theorem C137_distinct (r s : ReportTo) : r.toJson = s.toJson ↔ r = s := by
  refine ⟨fun h => ?_, fun h => by rw [h]⟩
  have h1 := C137_json r
  rw [h, C137_json s] at h1
  obtain ⟨g, m, es, i⟩ := r
  obtain ⟨g', m', es', i'⟩ := s
  have hm : ∀ a b : List Str, (a.map fun u => Json.obj [(s!!"url", .str u)]) = b.map (fun u => .obj [(s!!"url", .str u)]) ↔ a = b := by
    intro a b
    exact ⟨fun hab => List.map_injective_iff.2 (fun x y hxy => by simpa using hxy) hab, fun hab => by rw [hab]⟩
  cases g <;> cases g' <;> cases i <;> cases i' <;> simp [reportObject, hm] at h1 <;> simp [h1]

example : (ReportTo.mk none 5 [] none).toJson ≠ (ReportTo.mk (some []) 5 [] none).toJson := by
  rw [ne_eq, C137_distinct]; decide

theorem mem_jsonChar {c d : Char} (h : d ∈ jsonChar c) :
    32 ≤ d.toNat ∧ (d.toNat < 128 ∨ d = c) ∧ (d = ',' ∨ d = ';' → d = c) := by
  have hx : ∀ n < 32, ∀ d ∈ s!!"\\u" ++ hexPad 4 n, 32 ≤ d.toNat ∧ d.toNat < 128 ∧ d ≠ ',' ∧ d ≠ ';' := by decide +kernel
  have fin : ∀ l : Str, (∀ d ∈ l, 32 ≤ d.toNat ∧ d.toNat < 128 ∧ d ≠ ',' ∧ d ≠ ';') → d ∈ l →
      32 ≤ d.toNat ∧ (d.toNat < 128 ∨ d = c) ∧ (d = ',' ∨ d = ';' → d = c) := by
    intro l hl hd
    obtain ⟨h1, h2, h3, h4⟩ := hl d hd
    exact ⟨h1, .inl h2, fun h => (h.elim h3 h4).elim⟩
  unfold jsonChar at h
  split at h
  · exact fin _ (by decide) h
  split at h
  · exact fin _ (by decide) h
  split at h
  · exact fin _ (by decide) h
  split at h
  · exact fin _ (by decide) h
  split at h
  · exact fin _ (by decide) h
  split at h
  · exact fin _ (by decide) h
  split at h
  · exact fin _ (by decide) h
  split at h
  · rename_i hc; exact fin _ (hx _ hc) h
  · rename_i hc
    simp only [List.mem_singleton] at h
    subst h
    exact ⟨by omega, .inr rfl, fun _ => rfl⟩

theorem jsonChar_keeps {c : Char} (h : 128 ≤ c.toNat) : jsonChar c = [c] := by
  unfold jsonChar
  have h1 : c ≠ '"' := by rintro rfl; revert h; decide
  have h2 : c ≠ '\\' := by rintro rfl; revert h; decide
  rw [if_neg h1, if_neg h2, if_neg (by omega), if_neg (by omega), if_neg (by omega), if_neg (by omega), if_neg (by omega),
    if_neg (by omega)]

/-- Every character of a text satisfies this, if those of the parts do. -/
theorem all_join {P : Char → Prop} (hc : P ',') : ∀ (ts : List Str), (∀ t ∈ ts, ∀ c ∈ t, P c) → ∀ c ∈ join s!!"," ts, P c
  | [], _, c, h => by simp [join] at h
  | [t], ht, c, h => ht t (by simp) c h
  | t :: y :: ys, ht, c, h => by
    simp only [join, List.mem_append, List.mem_singleton] at h
    rcases h with (h | rfl) | h
    · exact ht t (by simp) c h
    · exact hc
    · exact all_join hc (y :: ys) (fun x hx => ht x (by simp [hx])) c h

/-- What holds for the characters of JSON's own signs, of numbers and of the escaped strings holds for the whole text. -/
theorem all_toJson {P : Char → Prop} (r : ReportTo) (hp : ∀ c : Char, 32 ≤ c.toNat → c.toNat < 128 → P c)
    (hg : ∀ g, r.group = some g → ∀ c ∈ g, ∀ d ∈ jsonChar c, P d) (hu : ∀ u ∈ r.endpoints, ∀ c ∈ u, ∀ d ∈ jsonChar c, P d) :
    ∀ c ∈ r.toJson, P c := by
  have lit : ∀ l : Str, (l.all fun c => decide (32 ≤ c.toNat ∧ c.toNat < 128)) = true → ∀ c ∈ l, P c := by
    intro l hl c hc
    have := List.all_eq_true.1 hl c hc
    simp only [decide_eq_true_eq] at this
    exact hp c this.1 this.2
  have str : ∀ s : Str, (∀ c ∈ s, ∀ d ∈ jsonChar c, P d) → ∀ c ∈ jsonStr s, P c := by
    intro s hs c hc
    simp only [jsonStr, List.mem_cons, List.mem_append, List.mem_flatMap, List.not_mem_nil, or_false] at hc
    rcases hc with rfl | ⟨a, ha, hc⟩ | rfl
    · exact hp _ (by decide) (by decide)
    · exact hs a ha c hc
    · exact hp _ (by decide) (by decide)
  have key : ∀ s : Str, (jsonStr s).all (fun c => decide (32 ≤ c.toNat ∧ c.toNat < 128)) = true → ∀ t : Str, (∀ c ∈ t, P c) →
      ∀ c ∈ jsonStr s ++ ':' :: t, P c := by
    intro s hs t ht c hc
    simp only [List.mem_cons, List.mem_append] at hc
    rcases hc with hc | rfl | hc
    · exact lit _ hs c hc
    · exact hp _ (by decide) (by decide)
    · exact ht c hc
  have obj : ∀ fs : List (Str × Str), (∀ f ∈ fs, ∀ c ∈ jsonStr f.1 ++ ':' :: f.2, P c) → ∀ c ∈ jsonObj fs, P c := by
    intro fs hfs c hc
    simp only [jsonObj, List.mem_cons, List.mem_append, List.not_mem_nil, or_false] at hc
    rcases hc with rfl | hc | rfl
    · exact hp _ (by decide) (by decide)
    · refine all_join (hp _ (by decide) (by decide)) _ (fun t ht => ?_) c hc
      obtain ⟨f, hf, rfl⟩ := List.mem_map.1 ht
      exact hfs f hf
    · exact hp _ (by decide) (by decide)
  have dig : ∀ n, ∀ c ∈ dec n, P c := by
    intro n c hc
    have h1 := dec_digits n c hc
    have h2 : 48 ≤ c.toNat ∧ c.toNat ≤ 57 := by
      simpa [isDigit] using h1
    exact hp c (by omega) (by omega)
  have int : ∀ c ∈ jsonInt r.maxAge, P c := by
    intro c hc
    unfold jsonInt at hc
    split at hc
    · rcases List.mem_cons.1 hc with rfl | hc
      · exact hp _ (by decide) (by decide)
      · exact dig _ c hc
    · exact dig _ c hc
  have arr : ∀ c ∈ jsonArr (r.endpoints.map fun u => jsonObj [(s!!"url", jsonStr u)]), P c := by
    intro c hc
    simp only [jsonArr, List.mem_cons, List.mem_append, List.not_mem_nil, or_false] at hc
    rcases hc with rfl | hc | rfl
    · exact hp _ (by decide) (by decide)
    · refine all_join (hp _ (by decide) (by decide)) _ (fun t ht => ?_) c hc
      obtain ⟨u, hu', rfl⟩ := List.mem_map.1 ht
      refine obj _ fun f hf => ?_
      rw [List.mem_singleton] at hf
      subst hf
      exact key s!!"url" (by decide +kernel) _ (str u (hu u hu'))
    · exact hp _ (by decide) (by decide)
  refine obj _ fun f hf => ?_
  simp only [List.mem_append, List.mem_cons, List.not_mem_nil, or_false] at hf
  rcases hf with (hf | rfl | rfl) | hf
  · cases hgr : r.group with
    | none => rw [hgr] at hf; simp at hf
    | some g =>
      rw [hgr] at hf
      simp only [List.mem_singleton] at hf
      subst hf
      exact key s!!"group" (by decide +kernel) _ (str g (hg g hgr))
  · exact key s!!"max_age" (by decide +kernel) _ int
  · exact key s!!"endpoints" (by decide +kernel) _ arr
  · cases hi : r.includeSubdomains with
    | none => rw [hi] at hf; simp at hf
    | some b =>
      rw [hi] at hf
      simp only [List.mem_singleton] at hf
      subst hf
      exact key s!!"include_subdomains" (by decide +kernel) _ (by cases b <;> exact lit _ (by decide))

/-- The text has no control characters: whatever the group and its endpoints are named, it stays on one line. -/
theorem C137_one_line (r : ReportTo) : ∀ c ∈ r.toJson, 32 ≤ c.toNat :=
  all_toJson r (fun _ h _ => h) (fun _ _ _ _ _ hd => (mem_jsonChar hd).1) (fun _ _ _ _ _ hd => (mem_jsonChar hd).1)

example : (ReportTo.mk (some s!!"a\r\nX: b") 5 [] none).toJson =
    s!!"{\"group\":\"a\\r\\nX: b\",\"max_age\":5,\"endpoints\":[]}" := by decide +kernel

/-- A text with an escaped string has its characters beyond ASCII. -/
theorem jsonStr_keeps {s : Str} {c : Char} (hc : c ∈ s) (h : 128 ≤ c.toNat) : c ∈ jsonStr s := by
  unfold jsonStr
  refine List.mem_cons_of_mem _ (List.mem_append_left _ (List.mem_flatMap.2 ⟨c, hc, ?_⟩))
  rw [jsonChar_keeps h]
  simp

theorem jsonObj_has {fs : List (Str × Str)} {f : Str × Str} (hf : f ∈ fs) {c : Char} (hc : c ∈ f.2) : c ∈ jsonObj fs := by
  unfold jsonObj
  refine List.mem_cons_of_mem _ (List.mem_append_left _ ?_)
  exact mem_joined (List.mem_map.2 ⟨f, hf, rfl⟩) (List.mem_append_right _ (List.mem_cons_of_mem _ hc))

/-- The text is ASCII exactly if the name of the group and its endpoints are. -/
theorem C137_ascii_iff (r : ReportTo) :
    Ascii r.toJson ↔ (∀ g, r.group = some g → Ascii g) ∧ ∀ u ∈ r.endpoints, Ascii u := by
  constructor
  · intro h
    refine ⟨fun g hg c hc => ?_, fun u hu c hc => ?_⟩
    · refine Nat.lt_of_not_le fun hn => absurd (h c ?_) (by omega)
      refine jsonObj_has (f := (s!!"group", jsonStr g)) ?_ (jsonStr_keeps hc hn)
      rw [hg]
      simp
    · refine Nat.lt_of_not_le fun hn => absurd (h c ?_) (by omega)
      refine jsonObj_has (f := (s!!"endpoints", jsonArr (r.endpoints.map fun u => jsonObj [(s!!"url", jsonStr u)]))) (by simp) ?_
      unfold jsonArr
      refine List.mem_cons_of_mem _ (List.mem_append_left _ (mem_joined (List.mem_map.2 ⟨u, hu, rfl⟩) ?_))
      exact jsonObj_has (f := (s!!"url", jsonStr u)) (by simp) (jsonStr_keeps hc hn)
  · rintro ⟨hg, hu⟩
    refine all_toJson r (fun _ _ h => h) (fun g h c hc d hd => ?_) (fun u h c hc d hd => ?_)
    · rcases (mem_jsonChar hd).2.1 with hd | rfl
      · exact hd
      · exact hg g h _ hc
    · rcases (mem_jsonChar hd).2.1 with hd | rfl
      · exact hd
      · exact hu u h _ hc

example : ¬ Ascii (ReportTo.mk none 5 [s!!"https://bücher.example"] none).toJson := by
  rw [C137_ascii_iff]; decide

/-- The value with nothing but report groups: one `report-to` for each, in the order given. -/
theorem report_value (rs : List ReportTo) :
    (Csp.new.reportGroups rs).value.2 = join s!!"; " (rs.map fun r => s!!"report-to " ++ r.toJson) := by
  have : ∀ l : List ReportTo, ((l.map fun r => some r.toJson).filterMap fun e => e.map fun j => s!!"report-to " ++ j) =
      l.map fun r => s!!"report-to " ++ r.toJson := by
    intro l
    induction l with
    | nil => rfl
    | cons r l ih => simp
  show join s!!"; " (([] : List Str) ++ ((rs.map fun r => some r.toJson).filterMap fun e => e.map fun j => s!!"report-to " ++ j)) = _
  rw [this, List.nil_append]

/-- Applying a policy with report groups panics exactly if a group or an endpoint is not ASCII. -/
theorem C137_panics_iff (rs : List ReportTo) (h : Headers) :
    ((Csp.new.reportGroups rs).apply h).2 = .panic ↔
      ∃ r ∈ rs, (∃ g, r.group = some g ∧ ¬ Ascii g) ∨ ∃ u ∈ r.endpoints, ¬ Ascii u := by
  have hr : Csp.new.reportGroups rs = CspOp.run .new [.reportTo (rs.map fun r => some r.toJson)] := rfl
  have hap := C53_apply .new (.inl rfl) [.reportTo (rs.map fun r => some r.toJson)] h
  rw [← hr] at hap
  dsimp only at hap
  rw [report_value] at hap
  have hasc : Ascii (join s!!"; " (rs.map fun r => s!!"report-to " ++ r.toJson)) ↔ ∀ r ∈ rs, Ascii r.toJson := by
    constructor
    · intro ha r hr c hc
      exact ha c (mem_joined (List.mem_map.2 ⟨r, hr, rfl⟩) (List.mem_append_right _ hc))
    · intro ha c hc
      refine Nat.lt_of_not_le fun hn => ?_
      refine not_mem_joined (sep := s!!"; ") (c := c) (ps := rs.map fun r => s!!"report-to " ++ r.toJson) ?_ ?_ hc
      · intro hm
        have : ∀ c ∈ s!!"; ", c.toNat < 128 := by decide
        exact absurd (this c hm) (by omega)
      · intro p hp hm
        obtain ⟨r, hr, rfl⟩ := List.mem_map.1 hp
        rcases List.mem_append.1 hm with hm | hm
        · have : ∀ c ∈ s!!"report-to ", c.toNat < 128 := by decide
          exact absurd (this c hm) (by omega)
        · exact absurd (ha r hr c hm) (by omega)
  have hne : (∃ r ∈ rs, (∃ g, r.group = some g ∧ ¬ Ascii g) ∨ ∃ u ∈ r.endpoints, ¬ Ascii u) ↔ ¬ ∀ r ∈ rs, Ascii r.toJson := by
    simp only [C137_ascii_iff]
    push Not
    constructor
    · rintro ⟨r, hr, h⟩
      refine ⟨r, hr, fun hg => ?_⟩
      rcases h with ⟨g, h1, h2⟩ | h
      · exact absurd (hg g h1) h2
      · exact h
    · rintro ⟨r, hr, h⟩
      refine ⟨r, hr, ?_⟩
      by_cases hg : ∀ g, r.group = some g → Ascii g
      · exact .inr (h hg)
      · push Not at hg
        exact .inl hg
  rw [hne]
  constructor
  · intro hp ha
    obtain ⟨h', h1, -⟩ := hap.1 (hasc.2 ha)
    rw [h1] at hp
    cases hp
  · intro hn
    exact hap.2 fun ha => hn (hasc.1 ha)

example : ((Csp.new.reportGroups [.mk none 5 [s!!"https://bücher.example"] none]).apply []).2 = .panic := by
  rw [C137_panics_iff]; decide

theorem pieces_mem : ∀ {s w : Str} {c : Char}, w ∈ pieces s → c ∈ w → c ∈ s
  | [], w, c, hw, hc => by
    simp only [pieces, List.mem_singleton] at hw
    subst hw; cases hc
  | a :: s, w, c, hw, hc => by
    unfold pieces at hw
    split at hw
    · rcases List.mem_cons.1 hw with rfl | hw
      · cases hc
      · exact List.mem_cons_of_mem _ (pieces_mem hw hc)
    · split at hw
      · rename_i h; exact absurd h (pieces_ne s)
      · rename_i w0 ws hws
        rcases List.mem_cons.1 hw with rfl | hw
        · rcases List.mem_cons.1 hc with rfl | hc
          · simp
          · exact List.mem_cons_of_mem _ (pieces_mem (w := w0) (by simp [hws]) hc)
        · exact List.mem_cons_of_mem _ (pieces_mem (w := w) (by simp [hws, hw]) hc)

/-- No word of a policy that a browser reads has a comma. -/
theorem policy_no_comma {v : Str} {p : List (Str × List Str)} (hp : p ∈ cspPolicies v) {d : Str × List Str} (hd : d ∈ p)
    {w : Str} (hw : w ∈ d.2) : ',' ∉ w := by
  intro hc
  unfold cspPolicies at hp
  obtain ⟨s, hs, rfl⟩ := List.mem_map.1 (List.mem_filter.1 hp).1
  have hadd : ∀ (es acc : List (Str × List Str)), d ∈ es.foldl addDirective acc → d ∈ acc ∨ d ∈ es := by
    intro es
    induction es with
    | nil => intro acc h; exact .inl h
    | cons e es ih =>
      intro acc h
      rcases ih _ h with h | h
      · unfold addDirective at h
        split at h
        · exact .inl h
        · rcases List.mem_append.1 h with h | h
          · exact .inl h
          · exact .inr (by simp [List.mem_singleton.1 h])
      · exact .inr (List.mem_cons_of_mem _ h)
  unfold cspPolicy at hd
  rcases hadd _ _ hd with h | h
  · cases h
  · obtain ⟨t, ht, htd⟩ := List.mem_filterMap.1 h
    unfold cspDirective at htd
    split at htd
    · split at htd
      · cases htd
      · rename_i n vs hwords
        cases htd
        have : w ∈ pieces t := (List.mem_filter.1 (show w ∈ words t by rw [hwords]; exact List.mem_cons_of_mem _ hw)).1
        have h1 := pieces_mem this hc
        exact not_mem_of_mem_split hs (mem_of_mem_split ht h1)
    · cases htd

/-- The text up to its first comma and what follows, if the name of the group has none. -/
theorem toJson_cut (r : ReportTo) : ∃ k, r.toJson =
    (match r.group with
      | some g => s!!"{\"group\":" ++ jsonStr g
      | none => s!!"{\"max_age\":" ++ jsonInt r.maxAge) ++ ',' :: k := by
  obtain ⟨g, m, es, i⟩ := r
  have hg : jsonStr s!!"group" = s!!"\"group\"" := by decide +kernel
  have hm : jsonStr s!!"max_age" = s!!"\"max_age\"" := by decide +kernel
  cases g with
  | none => cases i <;> simp [ReportTo.toJson, jsonObj, join, hm]
  | some g => cases i <;> simp [ReportTo.toJson, jsonObj, join, hg]

/-- C137 (broken): no browser ever gets the text of a group. Whatever the calls, and in general whatever the value of the
header, no directive of the policies it reads has that text, neither in a word nor in all of its words. -/
theorem C137_violated_never (r : ReportTo) (v : Str) :
    ∀ p ∈ cspPolicies v, ∀ d ∈ p, r.toJson ∉ d.2 ∧ join s!!" " d.2 ≠ r.toJson := by
  obtain ⟨k, hk⟩ := toJson_cut r
  have hc : ',' ∈ r.toJson := by rw [hk]; simp
  intro p hp d hd
  refine ⟨fun h => policy_no_comma hp hd h hc, fun h => ?_⟩
  rw [← h] at hc
  exact not_mem_joined (by decide) (fun w hw => policy_no_comma hp hd hw) hc

example : cspPolicies (Csp.new.reportGroups [.mk (some s!!"g") 5 [s!!"https://x.example"] none]).value.2 =
    [[(s!!"report-to", [s!!"{\"group\":\"g\""])], [(s!!"\"max_age\":5", [])],
      [(s!!"\"endpoints\":[{\"url\":\"https://x.example\"}]}", [])]] := by decide +kernel

/-- C137 (broken): what the browser gets instead is a group that ends where the text has its first comma, and the
directives of the policy that come after it are lost to it. -/
theorem C137_violated_cut (r : ReportTo) (a b : Str) (ha : Contained a) (hg : ∀ g, r.group = some g → Contained g) :
    ∃ ps, cspPolicies (CspOp.run (CspOp.run .new [.add .defaultSrc a]|>.reportGroups [r]) [.add .scriptSrc b]).value.2 =
      [(s!!"default-src", words a),
       (s!!"report-to", words (match r.group with
          | some g => s!!"{\"group\":" ++ jsonStr g
          | none => s!!"{\"max_age\":" ++ jsonInt r.maxAge))] :: ps := by
  obtain ⟨k, hk⟩ := toJson_cut r
  have h := C107_violated_report_to a b (match r.group with
      | some g => s!!"{\"group\":" ++ jsonStr g
      | none => s!!"{\"max_age\":" ++ jsonInt r.maxAge) k ha (by
    have app : ∀ {x y : Str}, Contained x → Contained y → Contained (x ++ y) := contained_append
    cases hgr : r.group with
    | some g =>
      refine app (by unfold Contained; decide) ?_
      intro c hc
      simp only [jsonStr, List.mem_cons, List.mem_append, List.mem_flatMap, List.not_mem_nil, or_false] at hc
      rcases hc with rfl | ⟨x, hx, hc⟩ | rfl
      · decide
      · obtain ⟨h1, h2, h3⟩ := mem_jsonChar hc
        obtain ⟨g1, g2, g3⟩ := hg g hgr x hx
        refine ⟨?_, fun h => ?_, fun h => ?_⟩
        · rcases h2 with h2 | rfl
          · simpa [isAsciiC] using h2
          · exact g1
        · exact g2 (h3 (.inr h) ▸ h)
        · exact g3 (h3 (.inl h) ▸ h)
      · decide
    | none =>
      refine app (by unfold Contained; decide) ?_
      have dig : ∀ n, Contained (dec n) := by
        intro n c hc
        have h1 := dec_digits n c hc
        refine ⟨?_, ?_, ?_⟩
        · simp [isDigit, isAsciiC] at h1 ⊢; omega
        · rintro rfl; revert h1; decide
        · rintro rfl; revert h1; decide
      show Contained (jsonInt r.maxAge)
      unfold jsonInt
      split
      · exact app (x := ['-']) (by unfold Contained; decide) (dig _)
      · exact dig _)
  rw [← hk] at h
  exact h

example : cspPolicies (CspOp.run (CspOp.run .new [.add .defaultSrc s!!"'self'"]|>.reportGroups [.mk (some s!!"g") 5 [] none])
      [.add .scriptSrc s!!"x"]).value.2 =
    [[(s!!"default-src", [s!!"'self'"]), (s!!"report-to", [s!!"{\"group\":\"g\""])], [(s!!"\"max_age\":5", [])],
      [(s!!"\"endpoints\":[]}", []), (s!!"script-src", [s!!"x"])]] := by decide +kernel

end HT
