import Verif.Model.ParseUtils
import Verif.Model.Headers

/-! Model of `src/proxies/forwarded.rs`. `Cow` strings are strings. A `ParseError` carries no status;
entering an `http_types::Error` by `?` it gets status 500 (src/error.rs:200-204). -/

namespace HT

open ParseUtils

theorem splitAtByte_append {n : Nat} {s a b : Str} (h : splitAtByte n s = .ok (a, b)) : s = a ++ b := by
  induction s generalizing n a b with
  | nil =>
    cases n with
    | zero => unfold splitAtByte at h; cases h; rfl
    | succ n => unfold splitAtByte at h; cases h
  | cons c s ih =>
    cases n with
    | zero => unfold splitAtByte at h; cases h; rfl
    | succ n =>
      unfold splitAtByte at h
      split at h
      · cases h' : splitAtByte (n + 1 - utf8Len c) s with
        | ok p =>
          rw [h'] at h
          obtain ⟨x, y⟩ := p
          cases h
          rw [ih h']; rfl
        | err _ => rw [h'] at h; cases h
        | panic => rw [h'] at h; cases h
      · cases h

/-- `Forwarded`, src/proxies/forwarded.rs:16-21. -/
structure Forwarded where
  by' : Option Str := none
  forwardedFor : List Str := []
  host : Option Str := none
  proto : Option Str := none
  deriving DecidableEq, Repr

namespace Forwarded

/-- `FORWARDED`, src/headers/constants.rs:100. -/
def NAME : HeaderName := s!!"forwarded"

/-- `X_FORWARDED_FOR`, src/proxies/forwarded.rs:8. -/
def X_FOR : HeaderName := s!!"x-forwarded-for"
/-- `X_FORWARDED_PROTO`, src/proxies/forwarded.rs:9. -/
def X_PROTO : HeaderName := s!!"x-forwarded-proto"
/-- `X_FORWARDED_BY`, src/proxies/forwarded.rs:10. -/
def X_BY : HeaderName := s!!"x-forwarded-by"
/-- `X_FORWARDED_HOST`, src/proxies/forwarded.rs:11. -/
def X_HOST : HeaderName := s!!"x-forwarded-host"

/-- `parse_value`, src/proxies/forwarded.rs:398-403. -/
def parseValue (input : Str) : Res (Option Str × Str) :=
  match parseToken input with
  | (some token, rest) => .ok (some token, rest)
  | (none, rest) => parseQuotedString rest

/-- `match_ignore_case`, src/proxies/forwarded.rs:422-429. -/
def matchIgnoreCase (start input : Str) : Res (Bool × Str) :=
  (splitAtByte (byteLen start) input).map fun (a, b) =>
    if eqIgnoreCase a start then (true, b) else (false, input)

/-- `starts_with_ignore_case`, src/proxies/forwarded.rs:431-438. -/
def startsWithIgnoreCase (start input : Str) : Res Bool :=
  if byteLen start ≤ byteLen input then
    (splitAtByte (byteLen start) input).map fun (a, _) => eqIgnoreCase a start
  else .ok false

/-- `rest.strip_prefix(';')` or `rest`, src/proxies/forwarded.rs:257-260. -/
def stripSemi (rest : Str) : Str :=
  match stripPrefix s!!";" rest with
  | some rest => rest
  | none => rest

/-- Storing a pair, src/proxies/forwarded.rs:232-255. -/
def store (f : Forwarded) (key value : Str) : Res Forwarded :=
  if key = s!!"by" then
    if f.by'.isSome then .err 500 else .ok { f with by' := some value }
  else if key = s!!"host" then
    if f.host.isSome then .err 500 else .ok { f with host := some value }
  else if key = s!!"proto" then
    if f.proto.isSome then .err 500 else .ok { f with proto := some value }
  else .ok f

/-- `parse_forwarded_pair`, src/proxies/forwarded.rs:222-261. -/
def parsePair (f : Forwarded) (input : Str) : Res (Forwarded × Str) :=
  match parseToken input with
  | (some key, '=' :: rest) =>
    (parseValue rest).bind fun
      | (some value, rest) => (store f key value).bind fun f => .ok (f, stripSemi rest)
      | (none, _) => .err 500
  | _ => .err 500

theorem parseToken_append {s t r : Str} (h : parseToken s = (some t, r)) : s = t ++ r ∧ t ≠ [] := by
  unfold parseToken at h
  split at h
  · cases h
  · next hn =>
    cases h
    exact ⟨List.takeWhile_append_dropWhile.symm, hn⟩

theorem parseQuotedString_length {s r : Str} {v : Str} (h : parseQuotedString s = .ok (some v, r)) :
    r.length < s.length := by
  unfold parseQuotedString at h
  split at h
  · next s' =>
    cases hs : scan 1 [] s' with
    | none => rw [hs] at h; cases h
    | some p =>
      obtain ⟨e, bs⟩ := p
      rw [hs] at h
      simp only at h
      cases h1 : splitAtByte (e - 1 - 1) s' with
      | ok p1 =>
        rw [h1] at h
        cases h2 : splitAtByte e ('"' :: s') with
        | ok p2 =>
          rw [h2] at h
          obtain ⟨a, b⟩ := p2
          cases h
          cases e with
          | zero =>
            exfalso
            have : ∀ (i : Nat) (bs : List Nat) (s : Str) e b, scan i bs s = some (e, b) → i < e := by
              intro i bs s
              induction s generalizing i bs with
              | nil => intro e b h; cases h
              | cons c s ih =>
                intro e b h
                unfold scan at h
                have hp : 0 < utf8Len c := by
                  unfold utf8Len; split <;> (try split) <;> (try split) <;> omega
                split at h
                · split at h
                  · have := ih _ _ _ _ h; omega
                  · cases h
                · split at h
                  · have := ih _ _ _ _ h; omega
                  · split at h
                    · cases h; omega
                    · split at h
                      · have := ih _ _ _ _ h; omega
                      · cases h
            have := this _ _ _ _ _ hs
            omega
          | succ e =>
            have hl := splitAtByte_append h2
            cases a with
            | nil =>
              exfalso
              unfold splitAtByte at h2
              split at h2
              · cases h3 : splitAtByte (e + 1 - utf8Len '"') s' with
                | ok p =>
                  rw [h3] at h2
                  cases h2
                | err _ => rw [h3] at h2; cases h2
                | panic => rw [h3] at h2; cases h2
              · cases h2
            | cons x a =>
              rw [hl]
              simp
              omega
        | err _ => rw [h2] at h; cases h
        | panic => rw [h2] at h; cases h
      | err _ => rw [h1] at h; cases h
      | panic => rw [h1] at h; cases h
  · cases h

theorem parseValue_length {s r : Str} {v : Str} (h : parseValue s = .ok (some v, r)) :
    r.length < s.length := by
  unfold parseValue at h
  split at h
  · next t r' ht =>
    cases h
    obtain ⟨h1, h2⟩ := parseToken_append ht
    rw [h1]
    cases v with
    | nil => exact absurd rfl h2
    | cons c t => simp; omega
  · next r' ht =>
    have : r' = s := by
      unfold parseToken at ht
      split at ht <;> cases ht
      rfl
    subst this
    exact parseQuotedString_length h

theorem stripSemi_length (s : Str) : (stripSemi s).length ≤ s.length := by
  unfold stripSemi
  cases s with
  | nil => exact Nat.le_refl _
  | cons c s =>
    by_cases hc : ';' = c
    · subst hc; simp [stripPrefix]
    · simp [stripPrefix, hc]

theorem parsePair_length {f f' : Forwarded} {s r : Str} (h : parsePair f s = .ok (f', r)) :
    r.length < s.length := by
  unfold parsePair at h
  split at h
  · next key rest ht =>
    obtain ⟨h1, h2⟩ := parseToken_append ht
    rw [Res.bind_eq_ok_iff] at h
    obtain ⟨⟨v, r'⟩, hv, h⟩ := h
    cases v with
    | none => cases h
    | some v =>
      simp only [Res.bind_eq_ok_iff] at h
      obtain ⟨f'', _, h⟩ := h
      cases h
      have := parseValue_length hv
      have := stripSemi_length r'
      rw [h1]
      simp
      omega
  · cases h

/-- `parse_for`, src/proxies/forwarded.rs:263-298. -/
def parseFor (f : Forwarded) (rest : Str) : Res (Forwarded × Str) :=
  match _h1 : matchIgnoreCase s!!"for=" rest with
  | .panic => .panic
  | .err s => .err s
  | .ok (false, _) => .err 500
  | .ok (true, rest1) =>
    match _h2 : parseValue rest1 with
    | .panic => .panic
    | .err s => .err s
    | .ok (none, _) => .err 500
    | .ok (some value, rest2) =>
      let f' := { f with forwardedFor := f.forwardedFor ++ [value] }
      match rest2 with
      | ',' :: rest3 => parseFor f' (trimStart rest3)
      | ';' :: rest3 => .ok (f', rest3)
      | [] => .ok (f', [])
      | _ => .err 500
termination_by rest.length
decreasing_by
  have a := parseValue_length _h2
  have b : (trimStart rest3).length ≤ rest3.length := (List.dropWhile_sublist _).length_le
  unfold matchIgnoreCase at _h1
  cases hs : splitAtByte (byteLen s!!"for=") rest with
  | ok p =>
    obtain ⟨x, y⟩ := p
    rw [hs] at _h1
    simp only [Res.map_ok] at _h1
    have := splitAtByte_append hs
    split at _h1
    · cases _h1
      rw [this]
      simp at a ⊢
      omega
    · cases _h1
  | err _ => rw [hs] at _h1; cases _h1
  | panic => rw [hs] at _h1; cases _h1

theorem parseFor_length {f f' : Forwarded} {s r : Str} (h : parseFor f s = .ok (f', r)) :
    r.length < s.length := by
  induction hn : s.length using Nat.strongRecOn generalizing s f with
  | _ n ih =>
    unfold parseFor at h
    split at h
    · cases h
    · cases h
    · cases h
    · next rest1 h1 =>
      have hl : rest1.length ≤ s.length := by
        unfold matchIgnoreCase at h1
        cases hs : splitAtByte (byteLen s!!"for=") s with
        | ok p =>
          obtain ⟨x, y⟩ := p
          rw [hs] at h1
          simp only [Res.map_ok] at h1
          have := splitAtByte_append hs
          split at h1
          · cases h1
            rw [this]; simp
          · cases h1
        | err _ => rw [hs] at h1; cases h1
        | panic => rw [hs] at h1; cases h1
      split at h
      · cases h
      · cases h
      · cases h
      · next value rest2 h2 =>
        have a := parseValue_length h2
        simp only at h
        split at h
        · next rest3 _ =>
          have b : (trimStart rest3).length ≤ rest3.length := (List.dropWhile_sublist _).length_le
          simp at a
          have := ih _ (by omega) h rfl
          omega
        · cases h
          simp at a
          omega
        · cases h
          simp at a ⊢
          omega
        · cases h

/-- The loop of `parse`, src/proxies/forwarded.rs:211-219. -/
def parseLoop (f : Forwarded) (input : Str) : Res Forwarded :=
  if input = [] then .ok f
  else
    match startsWithIgnoreCase s!!"for=" input with
    | .panic => .panic
    | .err s => .err s
    | .ok true =>
      match _h : parseFor f input with
      | .panic => .panic
      | .err s => .err s
      | .ok (f', rest) => parseLoop f' rest
    | .ok false =>
      match _h : parsePair f input with
      | .panic => .panic
      | .err s => .err s
      | .ok (f', rest) => parseLoop f' rest
termination_by input.length
decreasing_by
  · exact parseFor_length _h
  · exact parsePair_length _h

/-- `parse`, src/proxies/forwarded.rs:207-220. -/
def parse (input : Str) : Res Forwarded := parseLoop {} input

/-- `from_forwarded_header`, src/proxies/forwarded.rs:111-119: the first value only. -/
def fromForwardedHeader (h : Headers) : Res (Option Forwarded) :=
  match h.get NAME with
  | some vs => vs.first.bind fun v => (parse v).map some
  | none => .ok none

/-- One entry of `X-Forwarded-For`, src/proxies/forwarded.rs:154-160. `v6` stands for
`v.parse::<IpAddr>()` of the standard library followed by `Display`, for IPv6 addresses. -/
def xForEntry (v6 : Str → Option Str) (v : Str) : Str :=
  match v6 (trim v) with
  | some text => s!!"[" ++ text ++ s!!"]"
  | none => trim v

/-- `headers.get(name).map(|hv| hv.as_str())`, src/proxies/forwarded.rs:165-175. -/
def xValue (h : Headers) (name : HeaderName) : Res (Option Str) :=
  match h.get name with
  | some vs => vs.first.map some
  | none => .ok none

/-- `from_x_headers`, src/proxies/forwarded.rs:146-187. -/
def fromXHeaders (v6 : Str → Option Str) (h : Headers) : Res (Option Forwarded) :=
  ((xValue h X_FOR).map fun
    | some hv => (split ',' hv).map (xForEntry v6)
    | none => []).bind fun forwardedFor =>
  (xValue h X_BY).bind fun b =>
  (xValue h X_PROTO).bind fun proto =>
  (xValue h X_HOST).bind fun host =>
    if !forwardedFor.isEmpty || b.isSome || proto.isSome || host.isSome then
      .ok (some ⟨b, forwardedFor, host, proto⟩)
    else .ok none

/-- `from_headers`, src/proxies/forwarded.rs:79-85. -/
def fromHeaders (v6 : Str → Option Str) (h : Headers) : Res (Option Forwarded) :=
  (fromForwardedHeader h).bind fun
    | some f => .ok (some f)
    | none => fromXHeaders v6 h

/-- `format_value`, src/proxies/forwarded.rs:405-420. -/
def formatValue (input : Str) : Str :=
  match parseToken input with
  | (_, []) => input
  | _ => s!!"\"" ++ input.flatMap (fun ch => if ch = '\\' ∨ ch = '"' then ['\\', ch] else [ch]) ++ s!!"\""

/-- `header_value`, src/proxies/forwarded.rs:365-395. -/
def headerValue (f : Forwarded) : HeaderValue :=
  let output := match f.by' with
    | some b => s!!"by=" ++ b ++ s!!";"
    | none => []
  let output := output ++ join s!!", " (f.forwardedFor.map fun v => s!!"for=" ++ formatValue v)
  let output := output ++ s!!";"
  let output := match f.host with
    | some h => output ++ s!!"host=" ++ h ++ s!!";"
    | none => output
  let output := match f.proto with
    | some p => output ++ s!!"proto=" ++ p ++ s!!";"
    | none => output
  output.dropLast

/-- `add_for`, src/proxies/forwarded.rs:321-323. -/
def addFor (f : Forwarded) (v : Str) : Forwarded := { f with forwardedFor := f.forwardedFor ++ [v] }

/-- `set_host`, src/proxies/forwarded.rs:331-333. -/
def setHost (f : Forwarded) (v : Str) : Forwarded := { f with host := some v }

/-- `set_proto`, src/proxies/forwarded.rs:341-343. -/
def setProto (f : Forwarded) (v : Str) : Forwarded := { f with proto := some v }

/-- `set_by`, src/proxies/forwarded.rs:351-353. -/
def setBy (f : Forwarded) (v : Str) : Forwarded := { f with by' := some v }

end Forwarded
end HT
