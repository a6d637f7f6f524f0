import Verif.Spec.Trace
import Verif.Lemmas.Num
import Verif.Lemmas.Typed
import Verif.Lemmas.Headers

/-! Properties C55 (trace contexts) and C56 (reading a trace context). -/

namespace HT

open Spec

theorem toDigit_hex_iff {c : Char} {v : Nat} : toDigit 16 c = some v ↔ HexDigit c v := by
  have key : ∀ m < 103, ∀ v < 16, (toDigit 16 (Char.ofNat m) = some v ↔ HexDigit (Char.ofNat m) v) := by
    unfold HexDigit
    decide +kernel
  constructor
  · intro h
    have hc : c.toNat < 103 ∧ v < 16 := by
      unfold toDigit at h
      simp only [Option.ite_none_right_eq_some] at h
      grind
    have := key c.toNat hc.1 v hc.2
    rw [Char.ofNat_toNat] at this
    exact this.mp h
  · intro h
    have hv : v < 16 := by
      rcases h with h | h
      · have := (List.getElem?_eq_some_iff.mp h).1; simpa using this
      · have := (List.getElem?_eq_some_iff.mp h).1; simpa using this
    have hc : c.toNat < 103 := by
      have : ∀ v < 16, ∀ c, HexDigit c v → c.toNat < 103 := by
        intro v hv c hc
        have k1 : ∀ c ∈ s!!"0123456789abcdef", c.toNat < 103 := by decide
        have k2 : ∀ c ∈ s!!"0123456789ABCDEF", c.toNat < 103 := by decide
        rcases hc with h | h
        · exact k1 c (List.mem_of_getElem? h)
        · exact k2 c (List.mem_of_getElem? h)
      exact this v hv c h
    have := key c.toNat hc v hv
    rw [Char.ofNat_toNat] at this
    exact this.mpr h

theorem digitsVal_hex (acc : Nat) (s : Str) (n : Nat) :
    digitsVal 16 acc s = some n ↔
      ∃ vs, List.Forall₂ HexDigit s vs ∧ n = vs.foldl (fun a d => a * 16 + d) acc := by
  induction s generalizing acc with
  | nil =>
    simp only [digitsVal, Option.some.injEq]
    constructor
    · rintro rfl; exact ⟨[], .nil, rfl⟩
    · rintro ⟨vs, h, rfl⟩; cases h; rfl
  | cons c s ih =>
    unfold digitsVal
    cases hd : toDigit 16 c with
    | none =>
      simp only [reduceCtorEq, false_iff]
      rintro ⟨vs, h, _⟩
      cases h with
      | cons h _ => rw [toDigit_hex_iff.mpr h] at hd; cases hd
    | some d =>
      simp only
      rw [ih]
      constructor
      · rintro ⟨vs, h, rfl⟩
        exact ⟨d :: vs, .cons (toDigit_hex_iff.mp hd) h, rfl⟩
      · rintro ⟨vs, h, rfl⟩
        cases h with
        | cons h1 h2 =>
          rw [toDigit_hex_iff.mpr h1] at hd
          cases hd
          exact ⟨_, h2, rfl⟩

theorem parseRadix_hex_iff {b n : Nat} {s : Str} :
    parseRadix 16 b s = some n ↔ HexNumeral s n ∧ n < b := by
  have key : parseRadix 16 b s = some n ↔ dropPlus s ≠ [] ∧
      (∃ vs, List.Forall₂ HexDigit (dropPlus s) vs ∧ n = vs.foldl (fun a d => a * 16 + d) 0) ∧ n < b := by
    unfold parseRadix
    cases dropPlus s with
    | nil => simp
    | cons c cs =>
      simp only [ne_eq, reduceCtorEq, not_false_eq_true, true_and]
      rw [← digitsVal_hex]
      cases digitsVal 16 0 (c :: cs) with
      | none => simp
      | some m =>
        simp only [Option.some.injEq]
        constructor
        · intro h
          split at h
          · cases h; exact ⟨rfl, by assumption⟩
          · cases h
        · rintro ⟨rfl, h⟩; rw [if_pos h]
  rw [key]
  constructor
  · rintro ⟨h1, ⟨vs, h2, h3⟩, h4⟩
    refine ⟨⟨dropPlus s, vs, h1, ?_, h2, h3⟩, h4⟩
    unfold dropPlus
    split
    · exact .inr rfl
    · exact .inl rfl
  · rintro ⟨⟨ds, vs, h1, h2, h3, h4⟩, h5⟩
    have hp : ∀ v, ¬ HexDigit '+' v := by
      intro v h
      rw [← toDigit_hex_iff] at h
      revert h
      have : toDigit 16 '+' = none := by decide
      rw [this]; simp
    have hd : dropPlus s = ds := by
      rcases h2 with rfl | rfl
      · apply dropPlus_of_head
        intro h
        cases h3 with
        | nil => cases h
        | cons hx _ =>
          simp only [List.head?_cons, Option.some.injEq] at h
          subst h
          exact hp _ hx
      · rfl
    rw [hd]
    exact ⟨h1, ⟨vs, h3, h4⟩, h5⟩

namespace TraceContext

/-- One field: index, parse, continue. -/
theorem hexNumeral_unique {s : Str} {n m : Nat} (h : HexNumeral s n) (h' : HexNumeral s m) : n = m := by
  have h1 := (parseRadix_hex_iff (b := max n m + 1)).mpr ⟨h, by omega⟩
  have h2 := (parseRadix_hex_iff (b := max n m + 1)).mpr ⟨h', by omega⟩
  rw [h1] at h2
  exact Option.some.inj h2

/-- One field parsed with status `e`. -/
def field (e bits : Nat) (s : Str) : Res Nat := (Res.ofOption 500 (parseRadix 16 (2 ^ bits) s)).status e

theorem field_ok {e bits : Nat} {s : Str} {n : Nat} :
    field e bits s = .ok n ↔ HexNumeral s n ∧ n < 2 ^ bits := by
  unfold field
  rw [Res.status_eq_ok_iff, Res.ofOption_eq_ok_iff, parseRadix_hex_iff]

theorem field_err {e bits : Nat} {s : Str} (h : ¬ IsHex bits s) : field e bits s = .err e := by
  unfold field
  cases hp : parseRadix 16 (2 ^ bits) s with
  | none => rfl
  | some n => exact absurd ⟨n, parseRadix_hex_iff.mp hp⟩ h

/-- The fields left to read, as a recursion over widths. -/
theorem parse_eq (r : Nat) (v : Str) : parse r v =
    (part (split '-' v) 0).bind fun p0 => (field 500 8 p0).bind fun version =>
    (part (split '-' v) 1).bind fun p1 => (field 400 128 p1).bind fun traceId =>
    (part (split '-' v) 2).bind fun p2 => (field 400 64 p2).bind fun parentId =>
    (part (split '-' v) 3).bind fun p3 => (field 400 8 p3).bind fun flags =>
      .ok ⟨r, version, traceId, some parentId, flags⟩ := by
  have h0 : ∀ s, field 500 8 s = Res.ofOption 500 (parseRadix 16 u8Max1 s) := by
    intro s
    unfold field u8Max1
    cases parseRadix 16 (2 ^ 8) s <;> rfl
  simp only [h0]
  rfl

end TraceContext

open TraceContext in
/-- C56 (reading): the outcome of reading any value. Reading looks at the first value of the header. It
succeeds exactly on `TraceText`; a malformed version gives 500 and the first malformed other field
gives 400. Missing: running out of fields panics, see `C56_violated_panics`. -/
theorem C56_reads_partial (r : Nat) (h : Headers) :
    (h.get TraceContext.NAME = none → TraceContext.fromHeaders r h = .ok none) ∧
    ∀ v vs, h.get TraceContext.NAME = some (v :: vs) →
      (∀ c, TraceContext.fromHeaders r h = .ok (some c) ↔
        ∃ ver t p f, TraceText v ver t p f ∧ c = ⟨r, ver, t, some p, f⟩) ∧
      (TraceContext.fromHeaders r h = .err 500 ↔ ∃ a rest, split '-' v = a :: rest ∧ ¬ IsHex 8 a) ∧
      (TraceContext.fromHeaders r h = .err 400 ↔
        (∃ a b rest, split '-' v = a :: b :: rest ∧ IsHex 8 a ∧ ¬ IsHex 128 b) ∨
        (∃ a b c rest, split '-' v = a :: b :: c :: rest ∧ IsHex 8 a ∧ IsHex 128 b ∧ ¬ IsHex 64 c) ∨
        (∃ a b c d rest, split '-' v = a :: b :: c :: d :: rest ∧ IsHex 8 a ∧ IsHex 128 b ∧ IsHex 64 c ∧
          ¬ IsHex 8 d)) ∧
      (TraceContext.fromHeaders r h = .panic ↔
        (split '-' v).length < 4 ∧ List.Forall₂ IsHex (traceBits.take (split '-' v).length) (split '-' v)) := by
  refine ⟨fun hn => by unfold TraceContext.fromHeaders; rw [hn], fun v vs hv => ?_⟩
  have he : TraceContext.fromHeaders r h = (TraceContext.parse r v).map some := by
    unfold TraceContext.fromHeaders
    rw [hv]
    rfl
  rw [he, parse_eq]
  unfold TraceText
  have hne := split_ne_nil '-' v
  generalize split '-' v = parts at hne
  match parts, hne with
  | [a], _ =>
    by_cases h0 : IsHex 8 a
    · obtain ⟨n, hn⟩ := h0
      simp [part, Res.unwrap, Res.bind, Res.map, field_ok.mpr hn, traceBits, show IsHex 8 a from ⟨n, hn⟩]
    · simp [part, Res.unwrap, Res.bind, Res.map, field_err h0, traceBits, h0]
  | [a, b], _ =>
    by_cases h0 : IsHex 8 a
    · obtain ⟨n, hn⟩ := h0
      by_cases h1 : IsHex 128 b
      · obtain ⟨m, hm⟩ := h1
        simp [part, Res.unwrap, Res.bind, Res.map, field_ok.mpr hn, field_ok.mpr hm, traceBits,
          show IsHex 8 a from ⟨n, hn⟩, show IsHex 128 b from ⟨m, hm⟩]
      · simp [part, Res.unwrap, Res.bind, Res.map, field_ok.mpr hn, field_err h1, traceBits,
          show IsHex 8 a from ⟨n, hn⟩, h1]
    · simp [part, Res.unwrap, Res.bind, Res.map, field_err h0, traceBits, h0]
  | [a, b, c], _ =>
    by_cases h0 : IsHex 8 a
    · obtain ⟨n, hn⟩ := h0
      by_cases h1 : IsHex 128 b
      · obtain ⟨m, hm⟩ := h1
        by_cases h2 : IsHex 64 c
        · obtain ⟨k, hk⟩ := h2
          simp [part, Res.unwrap, Res.bind, Res.map, field_ok.mpr hn, field_ok.mpr hm, field_ok.mpr hk, traceBits,
            show IsHex 8 a from ⟨n, hn⟩, show IsHex 128 b from ⟨m, hm⟩, show IsHex 64 c from ⟨k, hk⟩]
        · simp [part, Res.unwrap, Res.bind, Res.map, field_ok.mpr hn, field_ok.mpr hm, field_err h2, traceBits,
            show IsHex 8 a from ⟨n, hn⟩, show IsHex 128 b from ⟨m, hm⟩, h2]
      · simp [part, Res.unwrap, Res.bind, Res.map, field_ok.mpr hn, field_err h1, traceBits,
          show IsHex 8 a from ⟨n, hn⟩, h1]
    · simp [part, Res.unwrap, Res.bind, Res.map, field_err h0, traceBits, h0]
  | a :: b :: c :: d :: rest, _ =>
    by_cases h0 : IsHex 8 a
    · obtain ⟨n, hn⟩ := h0
      by_cases h1 : IsHex 128 b
      · obtain ⟨m, hm⟩ := h1
        by_cases h2 : IsHex 64 c
        · obtain ⟨k, hk⟩ := h2
          by_cases h3 : IsHex 8 d
          · obtain ⟨l, hl⟩ := h3
            simp [part, Res.unwrap, Res.bind, Res.map, field_ok.mpr hn, field_ok.mpr hm, field_ok.mpr hk,
              field_ok.mpr hl,
              show IsHex 8 a from ⟨n, hn⟩, show IsHex 128 b from ⟨m, hm⟩, show IsHex 64 c from ⟨k, hk⟩,
              show IsHex 8 d from ⟨l, hl⟩, -List.take_succ_cons]
            refine ⟨fun x => ⟨?_, ?_⟩, fun h => by omega⟩
            · rintro rfl
              exact ⟨n, m, k, l, ⟨hn.1, hn.2, hm.1, hm.2, hk.1, hk.2, hl.1, hl.2⟩, rfl⟩
            · rintro ⟨n', m', k', l', ⟨g1, _, g2, _, g3, _, g4, _⟩, rfl⟩
              rw [hexNumeral_unique hn.1 g1, hexNumeral_unique hm.1 g2, hexNumeral_unique hk.1 g3,
                hexNumeral_unique hl.1 g4]
          · simp [part, Res.unwrap, Res.bind, Res.map, field_ok.mpr hn, field_ok.mpr hm, field_ok.mpr hk,
              field_err h3, show IsHex 8 a from ⟨n, hn⟩, show IsHex 128 b from ⟨m, hm⟩,
              show IsHex 64 c from ⟨k, hk⟩, h3]
            refine ⟨?_, fun h => by omega⟩
            intro x ver t p f _ _ _ _ _ _ h7 h8
            exact absurd ⟨f, h7, h8⟩ h3
        · simp [part, Res.unwrap, Res.bind, Res.map, field_ok.mpr hn, field_ok.mpr hm, field_err h2,
              show IsHex 8 a from ⟨n, hn⟩, show IsHex 128 b from ⟨m, hm⟩, h2]
          refine ⟨?_, fun h => by omega⟩
          intro x ver t p f _ _ _ _ h7 h8
          exact absurd ⟨p, h7, h8⟩ h2
      · simp [part, Res.unwrap, Res.bind, Res.map, field_ok.mpr hn, field_err h1,
              show IsHex 8 a from ⟨n, hn⟩, h1]
        refine ⟨?_, fun h => by omega⟩
        intro x ver t p f _ _ h7 h8
        exact absurd ⟨t, h7, h8⟩ h1
    · simp [part, Res.unwrap, Res.bind, Res.map, field_err h0, h0]
      refine ⟨?_, fun h => by omega⟩
      intro x ver t p f h7 h8
      exact absurd ⟨ver, h7, h8⟩ h0

example : TraceContext.fromHeaders 7
    [(s!!"traceparent", [s!!"00-0af7651916cd43dd8448eb211c80319c-00f067aa0ba902b7-01", s!!"junk"])]
    = .ok (some ⟨7, 0, 0x0af7651916cd43dd8448eb211c80319c, some 0x00f067aa0ba902b7, 1⟩) := by decide +kernel
example : TraceContext.fromHeaders 7 [(s!!"traceparent", [s!!"00-xyz-1-1"])] = .err 400 := by decide +kernel
example : TraceContext.fromHeaders 7 [(s!!"traceparent", [s!!"00-+A-fF-1-more"])]
    = .ok (some ⟨7, 0, 10, some 255, 1⟩) := by decide +kernel

/-- C56 is violated: a peer that sends fewer than four fields, each well formed, crashes the reader. -/
theorem C56_violated_panics (r : Nat) (h : Headers) (v : Str) (vs : List Str)
    (hv : h.get TraceContext.NAME = some (v :: vs)) (hl : (split '-' v).length < 4)
    (hw : List.Forall₂ IsHex (traceBits.take (split '-' v).length) (split '-' v)) :
    TraceContext.fromHeaders r h = .panic :=
  ((C56_reads_partial r h).2 v vs hv).2.2.2.mpr ⟨hl, hw⟩

example : TraceContext.fromHeaders 7 [(s!!"traceparent", [s!!"00"])] = .panic := by decide +kernel
example : TraceContext.fromHeaders 7 [(s!!"traceparent", [s!!"00-0af7651916cd43dd8448eb211c80319c"])] = .panic := by
  decide +kernel

/-- C56 is violated in its status too: a malformed version is reported as a server error. -/
theorem C56_violated_status (r : Nat) (h : Headers) (v : Str) (vs : List Str)
    (hv : h.get TraceContext.NAME = some (v :: vs)) (a : Str) (rest : List Str) (hs : split '-' v = a :: rest)
    (ha : ¬ IsHex 8 a) : TraceContext.fromHeaders r h = .err 500 :=
  ((C56_reads_partial r h).2 v vs hv).2.1.mpr ⟨a, rest, hs, ha⟩

example : TraceContext.fromHeaders 7 [(s!!"traceparent", [[]])] = .err 500 := by decide +kernel
example : TraceContext.fromHeaders 7 [(s!!"traceparent", [s!!"100-1-1-1"])] = .err 500 := by decide +kernel

theorem dash_not_mem_hexPad (w n : Nat) : '-' ∉ hexPad w n := by
  intro h
  obtain ⟨d, hd, e⟩ := hexPad_chars w n '-' h
  have : ∀ d < 16, digitC d ≠ '-' := by decide
  exact this d hd e.symm

theorem isAscii_hexPad (w n : Nat) : isAscii (hexPad w n) = true := by
  rw [isAscii_iff]
  intro c hc
  obtain ⟨d, hd, rfl⟩ := hexPad_chars w n c hc
  have : ∀ d < 16, (digitC d).toNat < 128 := by decide
  exact this d hd

theorem natStr_length_le {b w : Nat} : ∀ {n : Nat}, 0 < w → n < b ^ w → (natStr b n).length ≤ w := by
  induction w with
  | zero => intro n h; omega
  | succ w ih =>
    intro n _ h
    rw [natStr]
    split
    · simp
    · rename_i hn
      have hw : 0 < w := by
        rcases Nat.eq_zero_or_pos w with rfl | h'
        · simp at h; omega
        · exact h'
      have := ih (n := n / b) hw (Nat.div_lt_of_lt_mul (by rw [Nat.mul_comm, ← Nat.pow_succ]; exact h))
      simp only [List.length_append, List.length_cons, List.length_nil]
      omega

theorem hexPad_length {w n : Nat} (hw : 0 < w) (h : n < 16 ^ w) : (hexPad w n).length = w := by
  unfold hexPad zpad
  have := natStr_length_le (b := 16) hw h
  simp only [List.length_append, List.length_replicate]
  omega

theorem split_headerValue (c : TraceContext) : split '-' c.headerValue =
    [hexPad 2 c.version, hexPad 32 c.traceId, hexPad 16 c.id, hexPad 2 c.flags] := by
  have : c.headerValue = hexPad 2 c.version ++ '-' :: (hexPad 32 c.traceId ++ '-' :: (hexPad 16 c.id ++ '-' ::
      hexPad 2 c.flags)) := by
    simp [TraceContext.headerValue]
  rw [this, split_append_sep (dash_not_mem_hexPad _ _), split_append_sep (dash_not_mem_hexPad _ _),
    split_append_sep (dash_not_mem_hexPad _ _), split_of_not_mem (dash_not_mem_hexPad _ _)]

theorem traceText_headerValue (c : TraceContext) (hc : TraceWF c) :
    TraceText c.headerValue c.version c.traceId c.id c.flags := by
  obtain ⟨h1, h2, h3, _, h5⟩ := hc
  have key : ∀ w {n b}, n < b → HexNumeral (hexPad w n) n := fun w n b h =>
    (parseRadix_hex_iff.mp (parseRadix_hexPad h)).1
  exact ⟨_, _, _, _, [], split_headerValue c, key _ h2, h2, key _ h3, h3, key _ h1, h1, key _ h5, h5⟩

/-- C55 (round trip): a context that is written is read back with its version, trace id and flags, and
its id as the parent of the reader's new random id. -/
theorem C55_round_trip (c : TraceContext) (hc : TraceWF c) (r : Nat) :
    RoundTrips TraceContext.NAME (.ok c.headerValue)
      (TraceContext.fromHeaders r) ⟨r, c.version, c.traceId, some c.id, c.flags⟩ := by
  refine roundTrips_of c.headerValue rfl ?_ ?_
  · simp [TraceContext.headerValue, isAscii_append, isAscii_hexPad]; decide
  · intro h hg
    rw [((C56_reads_partial r h).2 _ _ hg).1]
    exact ⟨_, _, _, _, traceText_headerValue c hc, rfl⟩

example : TraceWF ⟨1, 0, 2 ^ 127, none, 1⟩ := by
  refine ⟨by decide, by decide, by decide, ?_, by decide⟩
  intro p hp; cases hp

/-- C55 (form): the value is four dash-separated fields of 2, 32, 16 and 2 hexadecimal digits. -/
theorem C55_form (c : TraceContext) (hc : TraceWF c) :
    (split '-' c.headerValue).map List.length = [2, 32, 16, 2] ∧
    TraceText c.headerValue c.version c.traceId c.id c.flags := by
  refine ⟨?_, traceText_headerValue c hc⟩
  obtain ⟨h1, h2, h3, _, h5⟩ := hc
  rw [split_headerValue]
  simp only [List.map_cons, List.map_nil]
  rw [hexPad_length (by decide) h2, hexPad_length (by decide) (show _ < 16 ^ 32 by simpa using h3),
    hexPad_length (by decide) (show _ < 16 ^ 16 by simpa using h1), hexPad_length (by decide) h5]

example : (⟨0xb7ad6b7169203331, 0, 0xaf7651916cd43dd8448eb211c80319c, none, 1⟩ : TraceContext).headerValue
    = s!!"00-0af7651916cd43dd8448eb211c80319c-b7ad6b7169203331-01" := by decide +kernel

/-- C55 (children): a child has a new id, its parent's id as parent id, and shares everything else. -/
theorem C55_child (c : TraceContext) (r : Nat) :
    (c.child r).id = r ∧ (c.child r).parentId = some c.id ∧ (c.child r).traceId = c.traceId ∧
    (c.child r).version = c.version ∧ (c.child r).flags = c.flags ∧ (c.child r).sampled = c.sampled :=
  ⟨rfl, rfl, rfl, rfl, rfl, rfl⟩

example : (TraceContext.mk 5 0 9 none 1).child 6 = ⟨6, 0, 9, some 5, 1⟩ := rfl

/-- C55 (descendants): every context reached by repeatedly making children is in the same trace, with the
last random number as its id and the one before as its parent. -/
theorem C55_descendants (c : TraceContext) (rs : List Nat) (r : Nat) :
    let d := (rs ++ [r]).foldl TraceContext.child c
    d.traceId = c.traceId ∧ d.version = c.version ∧ d.flags = c.flags ∧
    d.id = r ∧ d.parentId = (c.id :: rs).getLast? := by
  intro d
  have hd : d = (rs.foldl TraceContext.child c).child r := by
    simp only [d, List.foldl_append, List.foldl_cons, List.foldl_nil]
  have key : ∀ (rs : List Nat) (c : TraceContext), let e := rs.foldl TraceContext.child c
      e.traceId = c.traceId ∧ e.version = c.version ∧ e.flags = c.flags ∧ some e.id = (c.id :: rs).getLast? := by
    intro rs
    induction rs with
    | nil => intro c; exact ⟨rfl, rfl, rfl, rfl⟩
    | cons x xs ih =>
      intro c
      obtain ⟨h1, h2, h3, h4⟩ := ih (c.child x)
      refine ⟨h1, h2, h3, ?_⟩
      rw [List.getLast?_cons_cons]
      exact h4
  obtain ⟨h1, h2, h3, h4⟩ := key rs c
  rw [hd]
  exact ⟨h1, h2, h3, rfl, h4⟩

example : ([5, 6].foldl TraceContext.child (.new 1 2)) = ⟨6, 0, 2, some 5, 1⟩ := by decide

/-- C55 (sampled): setting the sampled flag sets bit 0 of the flags to it and leaves every other bit,
and every other field, unchanged; reading it gives bit 0. -/
theorem C55_sampled (c : TraceContext) (b : Bool) :
    (c.setSampled b).sampled = b ∧ { c.setSampled b with flags := c.flags } = c ∧
    (∀ i, (c.setSampled b).flags.testBit i = if i = 0 then b else c.flags.testBit i) ∧
    c.sampled = c.flags.testBit 0 := by
  have hs : ∀ c : TraceContext, c.sampled = c.flags.testBit 0 := by
    intro c
    unfold TraceContext.sampled
    rw [Nat.testBit_zero, Nat.and_one_is_mod]
    rfl
  have hb : ∀ i, (c.setSampled b).flags.testBit i = if i = 0 then b else c.flags.testBit i := by
    intro i
    show (c.flags ^^^ (((if b then 1 else 0) ^^^ c.flags) &&& 1)).testBit i = _
    rw [Nat.testBit_xor, Nat.testBit_and, Nat.testBit_xor]
    by_cases hi : i = 0
    · subst hi
      cases b <;> cases c.flags.testBit 0 <;> rfl
    · have : (1 : Nat).testBit i = false := by
        obtain ⟨j, rfl⟩ := Nat.exists_eq_succ_of_ne_zero hi
        rw [Nat.testBit_succ]; simp
      rw [if_neg hi, this]
      simp
  refine ⟨?_, rfl, hb, hs c⟩
  rw [hs, hb 0]
  rfl

example : ((⟨1, 0, 1, none, 0xa1⟩ : TraceContext).setSampled false).flags = 0xa0 := by decide

end HT
