import Verif.Spec.Traceparent
import Verif.Props.Trace

/-!
C93: trace contexts and the W3C Trace Context recommendation.
-/

namespace HT
open Spec TraceContext

/-- A lower-case digit with its value. -/
abbrev LowHex (c : Char) (v : Nat) : Prop := (s!!"0123456789abcdef")[v]? = some c

theorem lowHex_lt {c : Char} {v : Nat} (h : LowHex c v) : v < 16 := by
  have := (List.getElem?_eq_some_iff.mp h).1
  simpa using this

theorem fold_lt {s : Str} {vs : List Nat} (h : List.Forall₂ LowHex s vs) (acc : Nat) :
    vs.foldl (fun a d => a * 16 + d) acc < (acc + 1) * 16 ^ s.length := by
  induction h generalizing acc with
  | nil => simp
  | cons h1 h2 ih =>
    rename_i c v s vs
    have h3 := lowHex_lt h1
    refine Nat.lt_of_lt_of_le (ih (acc * 16 + v)) ?_
    rw [List.length_cons, Nat.pow_succ, Nat.mul_comm (16 ^ s.length) 16, ← Nat.mul_assoc]
    exact Nat.mul_le_mul_right _ (by omega)

theorem fixed_numeral {w n : Nat} {s : Str} (hw : 0 < w) (h : FixedHex w s n) :
    HexNumeral s n ∧ n < 16 ^ w ∧ '-' ∉ s := by
  obtain ⟨hl, vs, h1, h2⟩ := h
  refine ⟨⟨s, vs, fun e => ?_, .inl rfl, h1.imp fun c v h => .inl h, h2⟩, ?_, fun hm => ?_⟩
  · rw [e] at hl; simp at hl; omega
  · have := fold_lt h1 0
    rw [hl] at this
    rw [h2]; omega
  · have key : ∀ {s : Str} {vs : List Nat}, List.Forall₂ LowHex s vs → ∀ c ∈ s, c ≠ '-' := by
      intro s vs h
      induction h with
      | nil => intro c hc; cases hc
      | cons h1 h2 ih =>
        intro c hc
        rcases List.mem_cons.mp hc with rfl | hc
        · have : ∀ c ∈ s!!"0123456789abcdef", c ≠ '-' := by decide
          exact this _ (List.mem_of_getElem? h1)
        · exact ih c hc
    exact key h1 _ hm rfl

/-- The printed number of fixed width. -/
theorem fixed_hexPad {w n : Nat} (hw : 0 < w) (h : n < 16 ^ w) : FixedHex w (hexPad w n) n := by
  have h1 := (parseRadix_hex_iff.mp (parseRadix_hexPad (w := w) h)).1
  obtain ⟨ds, vs, -, h2, h3, h4⟩ := h1
  have hp : hexPad w n = ds := by
    rcases h2 with e | e
    · exact e
    · exfalso
      obtain ⟨d, hd, hc⟩ := hexPad_chars w n '+' (by rw [e]; simp)
      have : ∀ d < 16, digitC d ≠ '+' := by decide
      exact this d hd hc.symm
  refine ⟨hexPad_length hw h, vs, ?_, h4⟩
  rw [hp]
  have hd : ∀ c ∈ ds, ∃ d, d < 16 ∧ c = digitC d := fun c hc => hexPad_chars w n c (hp ▸ hc)
  clear h4 h2 hp
  induction h3 with
  | nil => exact .nil
  | cons a b ih =>
    rename_i c v s vs'
    refine .cons ?_ (ih fun c hc => hd c (by simp [hc]))
    obtain ⟨d, hd', rfl⟩ := hd c (by simp)
    rw [← toDigit_hex_iff] at a
    have : ∀ d < 16, toDigit 16 (digitC d) = some d ∧ (s!!"0123456789abcdef")[d]? = some (digitC d) := by decide
    rw [(this d hd').1] at a
    cases a
    exact (this _ hd').2

theorem split_traceparent {a b c d rest : Str} (a3 : '-' ∉ a) (b3 : '-' ∉ b) (c3 : '-' ∉ c) (d3 : '-' ∉ d)
    (hr : rest = [] ∨ ∃ more, rest = '-' :: more) :
    ∃ r, split '-' (a ++ s!!"-" ++ b ++ s!!"-" ++ c ++ s!!"-" ++ d ++ rest) = a :: b :: c :: d :: r := by
  have hs : split '-' (a ++ s!!"-" ++ b ++ s!!"-" ++ c ++ s!!"-" ++ d ++ rest) =
      a :: b :: c :: split '-' (d ++ rest) := by
    have : a ++ s!!"-" ++ b ++ s!!"-" ++ c ++ s!!"-" ++ d ++ rest =
        a ++ '-' :: (b ++ '-' :: (c ++ '-' :: (d ++ rest))) := by simp
    rw [this, split_append_sep a3, split_append_sep b3, split_append_sep c3]
  have hd' : ∃ r, split '-' (d ++ rest) = d :: r := by
    rcases hr with rfl | ⟨more, rfl⟩
    · exact ⟨[], by rw [List.append_nil, split_of_not_mem d3]⟩
    · exact ⟨_, split_append_sep d3 more⟩
  obtain ⟨r, hr'⟩ := hd'
  exact ⟨r, by rw [hs, hr']⟩

theorem valid_traceText {v : Str} {ver t p f : Nat} (h : ValidTraceparent v ver t p f) : TraceText v ver t p f := by
  obtain ⟨a, b, c, d, rest, rfl, hr, ha, hb, hc, hd, -, -, -⟩ := h
  obtain ⟨a1, a2, a3⟩ := fixed_numeral (by decide) ha
  obtain ⟨b1, b2, b3⟩ := fixed_numeral (by decide) hb
  obtain ⟨c1, c2, c3⟩ := fixed_numeral (by decide) hc
  obtain ⟨d1, d2, d3⟩ := fixed_numeral (by decide) hd
  obtain ⟨r, hs⟩ := split_traceparent a3 b3 c3 d3 (hr.imp_right fun h => h.2)
  exact ⟨a, b, c, d, r, hs, a1, a2, b1, by simpa using b2, c1, by simpa using c2, d1, d2⟩

/-- C93: every valid `traceparent` value, of version 0 or a later one with more fields, is read with the meaning the
recommendation gives it. -/
theorem C93_reads_valid {v : Str} {ver t p f : Nat} (hv : ValidTraceparent v ver t p f) (r : Nat) {h : Headers}
    {vs : List Str} (hg : h.get TraceContext.NAME = some (v :: vs)) :
    TraceContext.fromHeaders r h = .ok (some ⟨r, ver, t, some p, f⟩) :=
  (((C56_reads_partial r h).2 v vs hg).1 _).mpr ⟨_, _, _, _, valid_traceText hv, rfl⟩

example : TraceContext.fromHeaders 7 [(TraceContext.NAME, [s!!"00-0af7651916cd43dd8448eb211c80319c-00f067aa0ba902b7-01"])] =
    .ok (some ⟨7, 0, 0x0af7651916cd43dd8448eb211c80319c, some 0x00f067aa0ba902b7, 1⟩) := by decide +kernel

theorem valid_shape {v : Str} {ver t p f : Nat} (h : ValidTraceparent v ver t p f) :
    ((split '-' v).take 4).map List.length = [2, 32, 16, 2] ∧
      ∀ c ∈ ((split '-' v).take 4).flatten, c ∈ s!!"0123456789abcdef" := by
  have hl : ∀ {s : Str} {vs : List Nat}, List.Forall₂ LowHex s vs → ∀ c ∈ s, c ∈ s!!"0123456789abcdef" := by
    intro s vs h
    induction h with
    | nil => intro c hc; cases hc
    | cons h1 h2 ih =>
      intro c hc
      rcases List.mem_cons.mp hc with rfl | hc
      · exact List.mem_of_getElem? h1
      · exact ih c hc
  obtain ⟨a, b, c, d, rest, rfl, hr, ha, hb, hc, hd, -, -, -⟩ := h
  obtain ⟨r, hs⟩ := split_traceparent (fixed_numeral (by decide) ha).2.2 (fixed_numeral (by decide) hb).2.2
    (fixed_numeral (by decide) hc).2.2 (fixed_numeral (by decide) hd).2.2
    (hr.imp_right fun h => h.2)
  rw [hs]
  obtain ⟨a1, va, a2, -⟩ := ha
  obtain ⟨b1, vb, b2, -⟩ := hb
  obtain ⟨c1, vc, c2, -⟩ := hc
  obtain ⟨d1, vd, d2, -⟩ := hd
  refine ⟨by simp [a1, b1, c1, d1], fun x hx => ?_⟩
  simp only [List.take_succ_cons, List.take_zero, List.flatten_cons, List.flatten_nil, List.append_nil, List.mem_append] at hx
  rcases hx with hx | hx | hx | hx
  · exact hl a2 x hx
  · exact hl b2 x hx
  · exact hl c2 x hx
  · exact hl d2 x hx

theorem traceText_unique {v : Str} {a b c d a' b' c' d' : Nat} (h : TraceText v a b c d) (h' : TraceText v a' b' c' d') :
    a = a' ∧ b = b' ∧ c = c' ∧ d = d' := by
  obtain ⟨s1, s2, s3, s4, r, hs, h1, -, h2, -, h3, -, h4, -⟩ := h
  obtain ⟨t1, t2, t3, t4, r', hs', g1, -, g2, -, g3, -, g4, -⟩ := h'
  rw [hs] at hs'
  simp only [List.cons.injEq] at hs'
  obtain ⟨rfl, rfl, rfl, rfl, rfl⟩ := hs'
  exact ⟨hexNumeral_unique h1 g1, hexNumeral_unique h2 g2, hexNumeral_unique h3 g3, hexNumeral_unique h4 g4⟩

/-- C93: what is written is a valid value exactly if neither id is zero and the version is not 255; it then says the
version, the trace id, the id as parent, and the flags. -/
theorem C93_written_partial (c : TraceContext) (hc : TraceWF c) (ver t p f : Nat) :
    ValidTraceparent c.headerValue ver t p f ↔
      (ver = c.version ∧ t = c.traceId ∧ p = c.id ∧ f = c.flags) ∧ c.version ≠ 255 ∧ c.traceId ≠ 0 ∧ c.id ≠ 0 := by
  constructor
  · intro h
    obtain ⟨rfl, rfl, rfl, rfl⟩ := traceText_unique (valid_traceText h) (traceText_headerValue c hc)
    obtain ⟨a, b, c', d, rest, -, -, -, -, -, -, h1, h2, h3⟩ := h
    exact ⟨⟨rfl, rfl, rfl, rfl⟩, h1, h2, h3⟩
  · rintro ⟨⟨rfl, rfl, rfl, rfl⟩, h1, h2, h3⟩
    obtain ⟨w1, w2, w3, -, w5⟩ := hc
    exact ⟨hexPad 2 c.version, hexPad 32 c.traceId, hexPad 16 c.id, hexPad 2 c.flags, [],
      by simp [TraceContext.headerValue], .inl rfl, fixed_hexPad (by decide) w2,
      fixed_hexPad (by decide) (show _ < 16 ^ 32 by simpa using w3),
      fixed_hexPad (by decide) (show _ < 16 ^ 16 by simpa using w1), fixed_hexPad (by decide) w5, h1, h2, h3⟩

example : ValidTraceparent s!!"00-0af7651916cd43dd8448eb211c80319c-00f067aa0ba902b7-01" 0
    0x0af7651916cd43dd8448eb211c80319c 0x00f067aa0ba902b7 1 := by
  have := (C93_written_partial ⟨0x00f067aa0ba902b7, 0, 0x0af7651916cd43dd8448eb211c80319c, none, 1⟩
    ⟨by decide, by decide, by decide, fun p hp => (by cases hp), by decide⟩ _ _ _ _).mpr
    ⟨⟨rfl, rfl, rfl, rfl⟩, by decide, by decide, by decide⟩
  have e : (⟨0x00f067aa0ba902b7, 0, 0x0af7651916cd43dd8448eb211c80319c, none, 1⟩ : TraceContext).headerValue =
      s!!"00-0af7651916cd43dd8448eb211c80319c-00f067aa0ba902b7-01" := by decide +kernel
  rw [e] at this
  exact this

theorem new_wf {r t : Nat} (hr : r < 2 ^ 64) (ht : t < 2 ^ 128) : TraceWF (TraceContext.new r t) :=
  ⟨hr, show 0 < 2 ^ 8 by decide, ht, fun p hp => (by cases hp), show 1 < 2 ^ 8 by decide⟩

/-- C93: a new context is the root of a trace, sampled, of version 0, with the two random numbers as ids; it is written
as a valid value exactly if neither random number is zero. -/
theorem C93_new_partial {r t : Nat} (hr : r < 2 ^ 64) (ht : t < 2 ^ 128) :
    let c := TraceContext.new r t
    c.parentId = none ∧ c.sampled = true ∧ c.version = 0 ∧ c.id = r ∧ c.traceId = t ∧
      (ValidTraceparent c.headerValue 0 t r 1 ↔ t ≠ 0 ∧ r ≠ 0) := by
  refine ⟨rfl, by simp [TraceContext.new, TraceContext.sampled], rfl, rfl, rfl, ?_⟩
  rw [C93_written_partial _ (new_wf hr ht)]
  simp [TraceContext.new]

example : (TraceContext.new 5 9).headerValue = s!!"00-00000000000000000000000000000009-0000000000000005-01" := by decide +kernel

/-- C93: from a valid header on, every context read from it and every descendant is written as a valid value of the same
trace, as long as no random id is zero. -/
theorem C93_passes_on_partial {v : Str} {ver t p f : Nat} (hv : ValidTraceparent v ver t p f) {h : Headers}
    {vs : List Str} (hg : h.get TraceContext.NAME = some (v :: vs)) (rs : List Nat) (r : Nat) (hr : r < 2 ^ 64) :
    ∃ c, TraceContext.fromHeaders ((rs ++ [r]).headD 0) h = .ok (some c) ∧
      (ValidTraceparent (((rs ++ [r]).tail.foldl TraceContext.child c).headerValue) ver t r f ↔ r ≠ 0) := by
  refine ⟨_, C93_reads_valid hv _ hg, ?_⟩
  obtain ⟨_, _, _, _, _, -, -, v1, -, v2, -, v3, -, v4⟩ := valid_traceText hv
  have hn := hv
  obtain ⟨_, _, _, _, _, -, -, -, -, -, -, n1, n2, -⟩ := hn
  have hd : ((rs ++ [r]).tail.foldl TraceContext.child ⟨(rs ++ [r]).headD 0, ver, t, some p, f⟩).id = r ∧
      ((rs ++ [r]).tail.foldl TraceContext.child ⟨(rs ++ [r]).headD 0, ver, t, some p, f⟩).version = ver ∧
      ((rs ++ [r]).tail.foldl TraceContext.child ⟨(rs ++ [r]).headD 0, ver, t, some p, f⟩).traceId = t ∧
      ((rs ++ [r]).tail.foldl TraceContext.child ⟨(rs ++ [r]).headD 0, ver, t, some p, f⟩).flags = f := by
    cases rs with
    | nil => exact ⟨rfl, rfl, rfl, rfl⟩
    | cons a rs =>
      have := C55_descendants ⟨a, ver, t, some p, f⟩ rs r
      exact ⟨this.2.2.2.1, this.2.1, this.1, this.2.2.1⟩
  generalize (rs ++ [r]).tail.foldl TraceContext.child ⟨(rs ++ [r]).headD 0, ver, t, some p, f⟩ = e at hd
  obtain ⟨id, ver', t', p', f'⟩ := e
  obtain ⟨rfl, rfl, rfl, rfl⟩ := hd
  show ValidTraceparent (⟨id, ver', t', none, f'⟩ : TraceContext).headerValue ver' t' id f' ↔ id ≠ 0
  rw [C93_written_partial ⟨id, ver', t', none, f'⟩ ⟨hr, v1, v2, fun p hp => (by cases hp), v4⟩]
  exact ⟨fun h => h.2.2.2, fun h => ⟨⟨rfl, rfl, rfl, rfl⟩, n1, n2, h⟩⟩

example : ((TraceContext.fromHeaders 7 [(TraceContext.NAME, [s!!"00-0af7651916cd43dd8448eb211c80319c-00f067aa0ba902b7-01"])]).map
    fun o => o.map fun c => (c.child 9).headerValue) =
    .ok (some s!!"00-0af7651916cd43dd8448eb211c80319c-0000000000000009-01") := by decide +kernel

/-- Violated: random ids may be zero, and then what is written is no valid value, whatever it is taken to say. -/
theorem C93_violated_zero (r t : Nat) (hr : r < 2 ^ 64) (ht : t < 2 ^ 128) (h0 : r = 0 ∨ t = 0) (ver t' p f : Nat) :
    ¬ ValidTraceparent (TraceContext.new r t).headerValue ver t' p f := by
  rw [C93_written_partial _ (new_wf hr ht)]
  rintro ⟨-, -, h1, h2⟩
  rcases h0 with rfl | rfl
  · exact h2 rfl
  · exact h1 rfl

theorem parse_random (r : Nat) (v : Str) :
    TraceContext.parse r v = (TraceContext.parse 0 v).map fun c => { c with id := r } := by
  have hb : ∀ {α β γ : Type} (x : Res α) (f : α → Res β) (g : β → γ), (x.bind f).map g = x.bind fun a => (f a).map g := by
    intro α β γ x f g; cases x <;> rfl
  unfold TraceContext.parse
  simp only [hb]
  rfl

/-- Violated: values are read that are not valid and must be ignored: with a zero trace id or parent id, with version
255, and with too few digits, capitals or signs. -/
theorem C93_violated_reads (r : Nat) (v : Str)
    (hv : v ∈ [s!!"00-00000000000000000000000000000000-0000000000000001-00",
      s!!"00-00000000000000000000000000000001-0000000000000000-00",
      s!!"ff-00000000000000000000000000000001-0000000000000001-00", s!!"0-1-1-1",
      s!!"00-0000000000000000000000000000000A-0000000000000001-00",
      s!!"00-+0000000000000000000000000000001-0000000000000001-00"]) :
    (∃ c, TraceContext.fromHeaders r [(TraceContext.NAME, [v])] = .ok (some c)) ∧
      ∀ ver t p f, ¬ ValidTraceparent v ver t p f := by
  have h0 : ∀ {v : Str} {vs : List Str}, Headers.get [(TraceContext.NAME, v :: vs)] TraceContext.NAME = some (v :: vs) :=
    rfl
  have key : ∀ {v : Str} {c : TraceContext}, TraceContext.parse r v = .ok c → ∀ {ver t p f : Nat},
      ValidTraceparent v ver t p f → c.version = ver ∧ c.traceId = t ∧ c.parentId = some p := by
    intro v c hc ver t p f h
    have h1 : TraceContext.fromHeaders r [(TraceContext.NAME, [v])] = .ok (some c) := by
      show ((TraceContext.parse r v).map some : Res _) = _
      rw [hc]; rfl
    rw [C93_reads_valid h r h0] at h1
    cases h1
    exact ⟨rfl, rfl, rfl⟩
  have val : ∀ {v : Str} {ver t p f : Nat}, ValidTraceparent v ver t p f → ver ≠ 255 ∧ t ≠ 0 ∧ p ≠ 0 := by
    rintro v ver t p f ⟨_, _, _, _, _, -, -, -, -, -, -, h⟩
    exact h
  have rd : ∀ {v : Str} {c : TraceContext}, TraceContext.parse r v = .ok c →
      ∃ c, TraceContext.fromHeaders r [(TraceContext.NAME, [v])] = .ok (some c) := by
    intro v c hc
    refine ⟨c, ?_⟩
    show ((TraceContext.parse r v).map some : Res _) = _
    rw [hc]; rfl
  simp only [List.mem_cons, List.not_mem_nil, or_false] at hv
  rcases hv with rfl | rfl | rfl | rfl | rfl | rfl
  · have hp : TraceContext.parse r s!!"00-00000000000000000000000000000000-0000000000000001-00" = .ok ⟨r, 0, 0, some 1, 0⟩ := by
      rw [parse_random, show TraceContext.parse 0 s!!"00-00000000000000000000000000000000-0000000000000001-00" = .ok ⟨0, 0, 0, some 1, 0⟩ by decide +kernel]
      rfl
    exact ⟨rd hp, fun ver t p f h => (val h).2.1 (key hp h).2.1.symm⟩
  · have hp : TraceContext.parse r s!!"00-00000000000000000000000000000001-0000000000000000-00" = .ok ⟨r, 0, 1, some 0, 0⟩ := by
      rw [parse_random, show TraceContext.parse 0 s!!"00-00000000000000000000000000000001-0000000000000000-00" = .ok ⟨0, 0, 1, some 0, 0⟩ by decide +kernel]
      rfl
    exact ⟨rd hp, fun ver t p f h => (val h).2.2 (Option.some.inj (key hp h).2.2).symm⟩
  · have hp : TraceContext.parse r s!!"ff-00000000000000000000000000000001-0000000000000001-00" = .ok ⟨r, 255, 1, some 1, 0⟩ := by
      rw [parse_random, show TraceContext.parse 0 s!!"ff-00000000000000000000000000000001-0000000000000001-00" = .ok ⟨0, 255, 1, some 1, 0⟩ by decide +kernel]
      rfl
    exact ⟨rd hp, fun ver t p f h => (val h).1 (key hp h).1.symm⟩
  · have hp : TraceContext.parse r s!!"0-1-1-1" = .ok ⟨r, 0, 1, some 1, 1⟩ := by
      rw [parse_random, show TraceContext.parse 0 s!!"0-1-1-1" = .ok ⟨0, 0, 1, some 1, 1⟩ by decide +kernel]
      rfl
    exact ⟨rd hp, fun ver t p f h => absurd (valid_shape h).1 (by decide +kernel)⟩
  · have hp : TraceContext.parse r s!!"00-0000000000000000000000000000000A-0000000000000001-00" = .ok ⟨r, 0, 10, some 1, 0⟩ := by
      rw [parse_random, show TraceContext.parse 0 s!!"00-0000000000000000000000000000000A-0000000000000001-00" = .ok ⟨0, 0, 10, some 1, 0⟩ by decide +kernel]
      rfl
    exact ⟨rd hp, fun ver t p f h => absurd (valid_shape h).2 (by decide +kernel)⟩
  · have hp : TraceContext.parse r s!!"00-+0000000000000000000000000000001-0000000000000001-00" = .ok ⟨r, 0, 1, some 1, 0⟩ := by
      rw [parse_random, show TraceContext.parse 0 s!!"00-+0000000000000000000000000000001-0000000000000001-00" = .ok ⟨0, 0, 1, some 1, 0⟩ by decide +kernel]
      rfl
    exact ⟨rd hp, fun ver t p f h => absurd (valid_shape h).2 (by decide +kernel)⟩

end HT
