import Verif.Spec.Body
import Verif.Lemmas.Utf8

/-! Lemmas about readers and bodies. -/

namespace HT
open Spec

variable {σ τ : Type}

@[simp] theorem delivered_nil : delivered [] = [] := rfl
@[simp] theorem delivered_cons (p : IoPoll) (ps : List IoPoll) : delivered (p :: ps) = bytesOf p ++ delivered ps := rfl

/-- One step of a reader that holds bytes. -/
def StepOk (P : σ → List Byte → Prop) (d : List Byte) (n : Nat) : IoPoll × σ → Prop
  | (.ok bs, s') => bs.length ≤ n ∧ (n ≠ 0 → bs = [] → d = []) ∧ ∃ d', d = bs ++ d' ∧ P s' d'
  | (.panic, _) => False
  | (_, s') => P s' d

/-- Proof principle: an invariant that every poll keeps. -/
theorem holds_of_invariant {I : ReaderI σ} (P : σ → List Byte → Prop)
    (h : ∀ s d n, P s d → StepOk P d n (I.pollRead s n)) {s : σ} {d : List Byte} (hp : P s d) : Holds I s d := by
  intro ns
  induction ns generalizing s d with
  | nil =>
    refine ⟨by simp [reads], by simp [reads], ?_⟩
    intro n bs s' hr
    have := h s d n hp
    simp only [reads] at hr
    rw [hr] at this
    refine ⟨this.1, fun hn hb => ?_⟩
    simp only [reads, delivered_nil]
    exact (this.2.1 hn hb).symm
  | cons n ns ih =>
    have hs := h s d n hp
    rcases hpr : I.pollRead s n with ⟨p, s'⟩
    rw [hpr] at hs
    simp only [reads, hpr, delivered_cons, List.mem_cons, not_or]
    cases p with
    | panic => exact absurd hs id
    | pending => obtain ⟨a, b, c⟩ := ih hs; exact ⟨⟨by simp, a⟩, by simpa [bytesOf] using b, by simpa [bytesOf] using c⟩
    | err => obtain ⟨a, b, c⟩ := ih hs; exact ⟨⟨by simp, a⟩, by simpa [bytesOf] using b, by simpa [bytesOf] using c⟩
    | ok bs =>
      obtain ⟨h1, h2, d', rfl, h4⟩ := hs
      obtain ⟨a, b, c⟩ := ih h4
      refine ⟨⟨by simp, a⟩, ?_, ?_⟩
      · simpa [bytesOf] using b
      · intro m bs' s'' hr
        obtain ⟨c1, c2⟩ := c m bs' s'' hr
        exact ⟨c1, fun hm hb => by simp [bytesOf, c2 hm hb]⟩

/-- Conversely, holding bytes is kept by every poll. -/
theorem Spec.Holds.step {I : ReaderI σ} {s : σ} {d : List Byte} (h : Holds I s d) (n : Nat) :
    StepOk (Holds I) d n (I.pollRead s n) := by
  rcases hpr : I.pollRead s n with ⟨p, s'⟩
  have h0 := h []
  have hcons : ∀ ns, reads I s (n :: ns) = (p :: (reads I s' ns).1, (reads I s' ns).2) := by
    intro ns; simp only [reads, hpr]
  cases p with
  | panic =>
    have := (h [n]).1
    rw [hcons] at this
    simp at this
  | pending =>
    intro ns
    have := h (n :: ns)
    rw [hcons] at this
    simpa [bytesOf] using this
  | err =>
    intro ns
    have := h (n :: ns)
    rw [hcons] at this
    simpa [bytesOf] using this
  | ok bs =>
    obtain ⟨-, -, h3⟩ := h0
    obtain ⟨h4, h5⟩ := h3 n bs s' (by simpa [reads] using hpr)
    refine ⟨h4, fun hn hb => ?_, ?_⟩
    · have := h5 hn hb
      simpa [reads] using this.symm
    · have h1 := (h [n]).2.1
      rw [hcons] at h1
      obtain ⟨d', hd⟩ := h1
      simp [reads, bytesOf] at hd
      subst hd
      refine ⟨d', rfl, ?_⟩
      intro ns
      have := h (n :: ns)
      rw [hcons] at this
      obtain ⟨a, b, c⟩ := this
      refine ⟨by simpa using a, ?_, ?_⟩
      · simpa [bytesOf] using b
      · intro m bs' s'' hr
        obtain ⟨c1, c2⟩ := c m bs' s'' hr
        refine ⟨c1, fun hm hb => ?_⟩
        have := c2 hm hb
        simpa [bytesOf] using this

/-- After some reads the reader holds the rest. -/
theorem Spec.Holds.after {I : ReaderI σ} {s : σ} {d : List Byte} (h : Holds I s d) (ns : List Nat) :
    ∃ d', d = delivered (reads I s ns).1 ++ d' ∧ Holds I (reads I s ns).2 d' := by
  induction ns generalizing s d with
  | nil => exact ⟨d, by simp [reads], h⟩
  | cons n ns ih =>
    have hs := h.step n
    rcases hpr : I.pollRead s n with ⟨p, s'⟩
    rw [hpr] at hs
    simp only [reads, hpr, delivered_cons]
    cases p with
    | panic => exact absurd hs id
    | pending => obtain ⟨d', h1, h2⟩ := ih hs; exact ⟨d', by simpa [bytesOf] using h1, h2⟩
    | err => obtain ⟨d', h1, h2⟩ := ih hs; exact ⟨d', by simpa [bytesOf] using h1, h2⟩
    | ok bs =>
      obtain ⟨-, -, d1, rfl, h4⟩ := hs
      obtain ⟨d', h1, h2⟩ := ih h4
      exact ⟨d', by rw [h1]; simp [bytesOf], h2⟩

theorem cursor_holds (d : List Byte) : Holds cursorI d d := by
  refine holds_of_invariant (fun s d => s = d) ?_ rfl
  rintro s d n rfl
  refine ⟨by simp; omega, ?_, s.drop n, by simp, rfl⟩
  intro hn hb
  cases s with
  | nil => rfl
  | cons x s =>
    cases n with
    | zero => exact absurd rfl hn
    | succ n => simp at hb

theorem empty_holds : Holds emptyI () [] := by
  refine holds_of_invariant (fun _ d => d = []) ?_ rfl
  rintro s d n rfl
  exact ⟨by simp, fun _ _ => rfl, [], rfl, rfl⟩

/-- The declared length is not behind the count. -/
def Body.Inv (b : Body σ) : Prop := ∀ l, b.length = some l → b.bytesRead ≤ l

theorem body_step {I : ReaderI σ} {b : Body σ} {d : List Byte} (n : Nat) (hi : b.Inv) (h : Holds I b.reader d) :
    StepOk (fun b' r => b'.Inv ∧ b'.length = b.length ∧ ∃ d', Holds I b'.reader d' ∧ r = remaining b' d')
      (remaining b d) n ((Body.readerI I).pollRead b n) := by
  show StepOk _ _ _ (Body.pollRead I b n)
  obtain ⟨r, mime, length, k⟩ := b
  cases length with
  | none =>
    unfold Body.pollRead
    simp only
    have hs := h.step n
    simp only at hs
    rcases hpr : I.pollRead r n with ⟨p, r'⟩
    rw [hpr] at hs
    cases p with
    | panic => exact absurd hs id
    | pending => exact ⟨(by intro l hl; cases hl), rfl, d, hs, rfl⟩
    | err => exact ⟨(by intro l hl; cases hl), rfl, d, hs, rfl⟩
    | ok bs =>
      obtain ⟨h1, h2, d', h3, h4⟩ := hs
      exact ⟨h1, h2, d', h3, (by intro l hl; cases hl), rfl, d', h4, rfl⟩
  | some l =>
    have hk : k ≤ l := hi l rfl
    unfold Body.pollRead
    simp only
    by_cases h0 : l = k
    · rw [if_pos h0]
      subst h0
      refine ⟨by simp, ?_, [], by simp [remaining], hi, rfl, d, h, by simp [remaining]⟩
      intro _ _
      simp [remaining]
    · rw [if_neg h0, if_neg (by omega)]
      have hs := h.step (min (l - k) n)
      simp only at hs
      rcases hpr : I.pollRead r (min (l - k) n) with ⟨p, r'⟩
      rw [hpr] at hs
      cases p with
      | panic => exact absurd hs id
      | pending => exact ⟨hi, rfl, d, hs, rfl⟩
      | err => exact ⟨hi, rfl, d, hs, rfl⟩
      | ok bs =>
        obtain ⟨h1, h2, d', rfl, h4⟩ := hs
        refine ⟨by omega, ?_, d'.take (l - (k + bs.length)), ?_, ?_, rfl, d', h4, rfl⟩
        · intro hn hb
          rw [h2 (by omega) hb]
          simp [remaining]
        · simp only [remaining]
          rw [List.take_append, List.take_of_length_le (by omega)]
          congr 2
          omega
        · intro l' hl'
          simp only [Option.some.injEq] at hl'
          simp only
          omega

theorem body_holds {I : ReaderI σ} {b : Body σ} {d : List Byte} (hi : b.Inv) (h : Holds I b.reader d) :
    Holds (Body.readerI I) b (remaining b d) := by
  refine holds_of_invariant (fun b r => b.Inv ∧ ∃ d, Holds I b.reader d ∧ r = remaining b d) ?_ ⟨hi, d, h, rfl⟩
  rintro b r n ⟨hi, d, h, rfl⟩
  have := body_step n hi h
  revert this
  rcases (Body.readerI I).pollRead b n with ⟨p, b'⟩
  cases p with
  | panic => exact id
  | pending => exact fun ⟨h1, _, h3⟩ => ⟨h1, h3⟩
  | err => exact fun ⟨h1, _, h3⟩ => ⟨h1, h3⟩
  | ok bs => exact fun ⟨h1, h2, d', h3, h4, _, h5⟩ => ⟨h1, h2, d', h3, h4, h5⟩

/-- After reads the body still fits its reader. -/
theorem body_after {I : ReaderI σ} {b : Body σ} {d : List Byte} (hi : b.Inv) (h : Holds I b.reader d) (ns : List Nat) :
    ∃ d', (reads (Body.readerI I) b ns).2.Inv ∧ (reads (Body.readerI I) b ns).2.length = b.length ∧
      Holds I (reads (Body.readerI I) b ns).2.reader d' ∧
      remaining b d = delivered (reads (Body.readerI I) b ns).1 ++ remaining (reads (Body.readerI I) b ns).2 d' := by
  induction ns generalizing b d with
  | nil => exact ⟨d, hi, rfl, h, by simp [reads]⟩
  | cons n ns ih =>
    have hs := body_step n hi h
    rcases hpr : (Body.readerI I).pollRead b n with ⟨p, b'⟩
    rw [hpr] at hs
    simp only [reads, hpr, delivered_cons]
    cases p with
    | panic => exact absurd hs id
    | pending =>
      obtain ⟨h1, h2, d', h3, h4⟩ := hs
      obtain ⟨d'', g1, g2, g3, g4⟩ := ih h1 h3
      exact ⟨d'', g1, by rw [g2, h2], g3, by rw [h4, g4]; rfl⟩
    | err =>
      obtain ⟨h1, h2, d', h3, h4⟩ := hs
      obtain ⟨d'', g1, g2, g3, g4⟩ := ih h1 h3
      exact ⟨d'', g1, by rw [g2, h2], g3, by rw [h4, g4]; rfl⟩
    | ok bs =>
      obtain ⟨-, -, r, h3, h1, h2, d', h4, h5⟩ := hs
      obtain ⟨d'', g1, g2, g3, g4⟩ := ih h1 h4
      exact ⟨d'', g1, by rw [g2, h2], g3, by rw [h3, h5, g4]; simp [bytesOf]⟩

theorem chain_holds {I : ReaderI σ} {J : ReaderI τ} {a : σ} {b : τ} {d e : List Byte} (ha : Holds I a d)
    (hb : Holds J b e) : Holds (chainI I J) (a, b, false) (d ++ e) := by
  refine holds_of_invariant
    (fun x r => (x.2.2 = true ∧ Holds J x.2.1 r) ∨
      (x.2.2 = false ∧ ∃ d e, Holds I x.1 d ∧ Holds J x.2.1 e ∧ r = d ++ e)) ?_ (.inr ⟨rfl, d, e, ha, hb, rfl⟩)
  rintro ⟨a, b, done⟩ r n h
  have second : ∀ a' r, Holds J b r →
      StepOk (fun (x : σ × τ × Bool) r => (x.2.2 = true ∧ Holds J x.2.1 r) ∨
        (x.2.2 = false ∧ ∃ d e, Holds I x.1 d ∧ Holds J x.2.1 e ∧ r = d ++ e)) r n
        (let (p, b) := J.pollRead b n; (p, (a', b, true))) := by
    intro a' r hr
    have hs := hr.step n
    rcases hpr : J.pollRead b n with ⟨p, b'⟩
    rw [hpr] at hs
    cases p with
    | panic => exact absurd hs id
    | pending => exact .inl ⟨rfl, hs⟩
    | err => exact .inl ⟨rfl, hs⟩
    | ok bs =>
      obtain ⟨h1, h2, d', h3, h4⟩ := hs
      exact ⟨h1, h2, d', h3, .inl ⟨rfl, h4⟩⟩
  unfold chainI
  simp only
  rcases h with ⟨hd, hr⟩ | ⟨hd, d, e, ha, hb, rfl⟩
  · simp only at hd hr
    subst hd
    simp only [if_true]
    exact second a r hr
  · simp only at hd ha hb
    subst hd
    simp only [Bool.false_eq_true, if_false]
    have hs := ha.step n
    rcases hpr : I.pollRead a n with ⟨p, a'⟩
    rw [hpr] at hs
    cases p with
    | panic => exact absurd hs id
    | pending => exact .inr ⟨rfl, d, e, hs, hb, rfl⟩
    | err => exact .inr ⟨rfl, d, e, hs, hb, rfl⟩
    | ok bs =>
      obtain ⟨h1, h2, d', h3, h4⟩ := hs
      simp only
      by_cases hc : bs = [] ∧ n ≠ 0
      · rw [if_pos hc, h2 hc.2 hc.1, List.nil_append]
        exact second a' e hb
      · rw [if_neg hc]
        refine ⟨h1, fun hn hb => absurd ⟨hb, hn⟩ hc, d' ++ e, ?_, .inr ⟨rfl, d', e, h4, hb, rfl⟩⟩
        rw [h3, List.append_assoc]

/-! ### read_to_end -/

/-- A completed read to the end of a reader holding `d` returned `d`, or the reader failed. -/
theorem readToEnd_holds {I : ReaderI σ} {s : σ} {d : List Byte} (h : Holds I s d) {ns : List Nat}
    (hns : ∀ n ∈ ns, n ≠ 0) {acc : List Byte} {r : Res (List Byte)} (hr : readToEnd I s ns acc = some r) :
    r = .ok (acc ++ d) ∨ (r = .err 500 ∧ .err ∈ (reads I s ns).1) := by
  induction ns generalizing s d acc with
  | nil => cases hr
  | cons n ns ih =>
    have hs := h.step n
    rw [readToEnd] at hr
    rcases hpr : I.pollRead s n with ⟨p, s'⟩
    rw [hpr] at hs hr
    simp only [reads, hpr, List.mem_cons]
    have hns' : ∀ n ∈ ns, n ≠ 0 := fun n hn => hns n (by simp [hn])
    cases p with
    | panic => exact absurd hs id
    | pending =>
      rcases ih hs hns' hr with h | ⟨h, h'⟩
      · exact .inl h
      · exact .inr ⟨h, .inr h'⟩
    | err =>
      cases hr
      exact .inr ⟨rfl, .inl rfl⟩
    | ok bs =>
      obtain ⟨h1, h2, d', rfl, h4⟩ := hs
      simp only at hr
      by_cases hb : bs = []
      · rw [if_pos hb] at hr
        cases hr
        rw [h2 (hns n (by simp)) hb]
        simp
      · rw [if_neg hb] at hr
        rcases ih h4 hns' hr with h | ⟨h, h'⟩
        · exact .inl (by rw [h]; simp)
        · exact .inr ⟨h, .inr h'⟩

/-- A reader that is always ready finishes. -/
theorem readToEnd_finishes {I : ReaderI σ} (P : σ → Prop)
    (hP : ∀ s n, P s → ∃ bs s', I.pollRead s n = (.ok bs, s') ∧ P s') {s : σ} {d : List Byte} (hs : P s)
    (h : Holds I s d) {ns : List Nat} (hns : ∀ n ∈ ns, n ≠ 0) (hl : d.length < ns.length) (acc : List Byte) :
    readToEnd I s ns acc = some (.ok (acc ++ d)) := by
  induction ns generalizing s d acc with
  | nil => simp at hl
  | cons n ns ih =>
    rw [readToEnd]
    obtain ⟨bs, s', hpr, hs'⟩ := hP s n hs
    have hst := h.step n
    rw [hpr] at hst ⊢
    obtain ⟨h1, h2, d', rfl, h4⟩ := hst
    simp only
    by_cases hb : bs = []
    · rw [if_pos hb, h2 (hns n (by simp)) hb]
      simp
    · rw [if_neg hb, ih hs' h4 (fun n hn => hns n (by simp [hn]))]
      · simp
      · have : 0 < bs.length := List.length_pos_iff.mpr hb
        simp at hl
        omega

/-! ### mixed reads -/

def FillOk (P : σ → List Byte → List Byte → Prop) (d : List Byte) : IoPoll × σ → Prop
  | (.ok bs, s') => (bs = [] → d = []) ∧ P s' bs d
  | (.panic, _) => False
  | (_, s') => P s' [] d

/-- Closure conditions of an invariant for mixed reads; `P s cur d`. -/
structure BufInv (I : ReaderI σ) (P : σ → List Byte → List Byte → Prop) : Prop where
  pre : ∀ s c d, P s c d → c <+: d
  read : ∀ s c d n, P s c d → StepOk (fun s d => P s [] d) d n (I.pollRead s n)
  fill : ∀ s c d, P s c d → FillOk P d (I.fillBuf s)
  consume : ∀ s c d k, P s c d → k ≤ c.length → P (I.consume s k) (c.drop k) (d.drop k)

theorem runOps_cons {I : ReaderI σ} {x : σ × List Byte} {o : ROp} {os : List ROp} {ps : List IoPoll}
    {out : List Byte} {z : σ × List Byte} (h : runOps I x (o :: os) = some (ps, out, z)) :
    ∃ p bs y ps' cs, opStep I x o = some (p, bs, y) ∧ runOps I y os = some (ps', cs, z) ∧
      ps = p :: ps' ∧ out = bs ++ cs := by
  rw [runOps] at h
  split at h
  · cases h
  · rename_i p bs y h1
    split at h
    · cases h
    · rename_i ps' cs z' h2
      cases h
      exact ⟨p, bs, y, ps', cs, h1, h2, rfl, rfl⟩

theorem holdsFrom_of_invariant {I : ReaderI σ} {P : σ → List Byte → List Byte → Prop} (hi : BufInv I P) {s : σ}
    {c d : List Byte} (hp : P s c d) : HoldsFrom I (s, c) d := by
  intro os
  induction os generalizing s c d with
  | nil =>
    intro ps out y h
    rw [runOps] at h
    cases h
    refine ⟨by simp, by simpa using hi.pre s c d hp, ?_, ?_⟩
    · intro n bs s' hr
      have := hi.read s c d n hp
      rw [hr] at this
      exact ⟨this.1, fun hn hb => (this.2.1 hn hb).symm⟩
    · intro s' hf
      have := hi.fill s c d hp
      rw [hf] at this
      exact (this.1 rfl).symm
  | cons o os ih =>
    intro ps out z h
    obtain ⟨p, bs, y, ps', cs, h1, h2, rfl, rfl⟩ := runOps_cons h
    cases o with
    | read n =>
      have hs := hi.read s c d n hp
      simp only [opStep, Option.some.injEq, Prod.mk.injEq] at h1
      obtain ⟨e1, e2, rfl⟩ := h1
      rcases hpr : I.pollRead s n with ⟨p', s'⟩
      rw [hpr] at hs e1 e2 h2
      simp only at e1 e2 h2
      subst e1
      subst e2
      cases p' with
      | panic => exact absurd hs id
      | pending =>
        obtain ⟨a, b⟩ := ih hs ps' cs z h2
        exact ⟨by simpa using a, by simpa [bytesOf] using b⟩
      | err =>
        obtain ⟨a, b⟩ := ih hs ps' cs z h2
        exact ⟨by simpa using a, by simpa [bytesOf] using b⟩
      | ok bs =>
        obtain ⟨-, -, d', rfl, h4⟩ := hs
        obtain ⟨a, b, c1, c2⟩ := ih h4 ps' cs z h2
        refine ⟨by simpa using a, by simpa [bytesOf] using b, ?_, ?_⟩
        · intro m bs' s'' hr
          exact ⟨(c1 m bs' s'' hr).1, fun hm hb => by simp [bytesOf, (c1 m bs' s'' hr).2 hm hb]⟩
        · intro s'' hf
          simp [bytesOf, c2 s'' hf]
    | fill =>
      have hs := hi.fill s c d hp
      simp only [opStep, Option.some.injEq, Prod.mk.injEq] at h1
      obtain ⟨e1, e2, rfl⟩ := h1
      rcases hpr : I.fillBuf s with ⟨p', s'⟩
      rw [hpr] at hs e1 h2
      simp only at e1 e2 h2
      subst e1
      subst e2
      cases p' with
      | panic => exact absurd hs id
      | pending => obtain ⟨a, b⟩ := ih hs ps' cs z h2; exact ⟨by simpa using a, by simpa using b⟩
      | err => obtain ⟨a, b⟩ := ih hs ps' cs z h2; exact ⟨by simpa using a, by simpa using b⟩
      | ok bs => obtain ⟨a, b⟩ := ih hs.2 ps' cs z h2; exact ⟨by simpa using a, by simpa using b⟩
    | consume k =>
      simp only [opStep] at h1
      split at h1
      · rename_i hk
        simp only [Option.some.injEq, Prod.mk.injEq] at h1
        obtain ⟨rfl, rfl, rfl⟩ := h1
        have hs := hi.consume s c d k hp hk
        obtain ⟨a, b, c1, c2⟩ := ih hs ps' cs z h2
        have hpre : c.take k ++ d.drop k = d := by
          obtain ⟨t, ht⟩ := hi.pre s c d hp
          rw [← ht, List.drop_append_of_le_length hk, ← List.append_assoc, List.take_append_drop]
        refine ⟨by simpa using a, ?_, ?_, ?_⟩
        · rw [List.append_assoc, ← hpre]
          exact (List.prefix_append_right_inj _).mpr b
        · intro m bs' s'' hr
          exact ⟨(c1 m bs' s'' hr).1, fun hm hb => by rw [(c1 m bs' s'' hr).2 hm hb, hpre]⟩
        · intro s'' hf
          rw [c2 s'' hf, hpre]
      · cases h1

theorem runOps_cons_of {I : ReaderI σ} {x y z : σ × List Byte} {o : ROp} {os : List ROp} {p : IoPoll}
    {ps : List IoPoll} {bs cs : List Byte} (h1 : opStep I x o = some (p, bs, y))
    (h2 : runOps I y os = some (ps, cs, z)) : runOps I x (o :: os) = some (p :: ps, bs ++ cs, z) := by
  simp only [runOps, h1, h2]

/-- Holding bytes for mixed reads is itself such an invariant. -/
theorem holdsFrom_inv (I : ReaderI σ) : BufInv I (fun s c d => HoldsFrom I (s, c) d) where
  pre := by
    intro s c d h
    have := (h [] [] [] (s, c) rfl).2.1
    simpa using this
  read := by
    intro s c d n h
    rcases hpr : I.pollRead s n with ⟨p, s'⟩
    have hstep : opStep I (s, c) (.read n) = some (p, bytesOf p, (s', [])) := by simp [opStep, hpr]
    have h0 := h [] [] [] (s, c) rfl
    have key : ∀ os ps out y, runOps I (s', []) os = some (ps, out, y) → _ :=
      fun os ps out y hr => h (.read n :: os) _ _ y (runOps_cons_of hstep hr)
    cases p with
    | panic =>
      have := (key [] [] [] (s', []) rfl).1
      simp at this
    | pending =>
      intro os ps out y hr
      have := key os ps out y hr
      simpa [bytesOf] using this
    | err =>
      intro os ps out y hr
      have := key os ps out y hr
      simpa [bytesOf] using this
    | ok bs =>
      obtain ⟨-, -, h3, -⟩ := h0
      obtain ⟨h4, h5⟩ := h3 n bs s' hpr
      refine ⟨h4, fun hn hb => (h5 hn hb).symm, ?_⟩
      have h1 := (key [] [] [] (s', []) rfl).2.1
      obtain ⟨d', hd⟩ := h1
      simp [bytesOf] at hd
      subst hd
      refine ⟨d', rfl, ?_⟩
      intro os ps out y hr
      obtain ⟨a, b, c1, c2⟩ := key os ps out y hr
      refine ⟨by simpa using a, by simpa [bytesOf] using b, ?_, ?_⟩
      · intro m bs' s'' hr'
        obtain ⟨e1, e2⟩ := c1 m bs' s'' hr'
        exact ⟨e1, fun hm hb => by simpa [bytesOf] using e2 hm hb⟩
      · intro s'' hf
        simpa [bytesOf] using c2 s'' hf
  fill := by
    intro s c d h
    rcases hpr : I.fillBuf s with ⟨p, s'⟩
    have hstep : opStep I (s, c) .fill = some (p, [], (s', bytesOf p)) := by simp [opStep, hpr]
    have h0 := h [] [] [] (s, c) rfl
    have key : ∀ os ps out y, runOps I (s', bytesOf p) os = some (ps, out, y) → _ :=
      fun os ps out y hr => h (.fill :: os) _ _ y (runOps_cons_of hstep hr)
    cases p with
    | panic =>
      have := (key [] [] [] (s', []) rfl).1
      simp at this
    | pending =>
      intro os ps out y hr
      have := key os ps out y hr
      simpa using this
    | err =>
      intro os ps out y hr
      have := key os ps out y hr
      simpa using this
    | ok bs =>
      obtain ⟨-, -, -, h3⟩ := h0
      refine ⟨?_, ?_⟩
      · rintro rfl
        exact (h3 s' hpr).symm
      · intro os ps out y hr
        have := key os ps out y hr
        simpa using this
  consume := by
    intro s c d k h hk
    have hstep : opStep I (s, c) (.consume k) = some (.ok [], c.take k, (I.consume s k, c.drop k)) := by
      simp [opStep, hk]
    have hpre : c.take k ++ d.drop k = d := by
      have := (h [] [] [] (s, c) rfl).2.1
      simp only [List.nil_append] at this
      obtain ⟨t, ht⟩ := this
      rw [← ht, List.drop_append_of_le_length hk, ← List.append_assoc, List.take_append_drop]
    intro os ps out y hr
    obtain ⟨a, b, c1, c2⟩ := h (.consume k :: os) _ _ y (runOps_cons_of hstep hr)
    refine ⟨by simpa using a, ?_, ?_, ?_⟩
    · rw [List.append_assoc] at b
      conv at b => rhs; rw [← hpre]
      exact (List.prefix_append_right_inj _).mp b
    · intro m bs' s'' hr'
      obtain ⟨e1, e2⟩ := c1 m bs' s'' hr'
      refine ⟨e1, fun hm hb => ?_⟩
      have := e2 hm hb
      rw [← hpre] at this
      exact List.append_cancel_left this
    · intro s'' hf
      have := c2 s'' hf
      rw [← hpre] at this
      exact List.append_cancel_left this

end HT
