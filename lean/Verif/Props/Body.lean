import Verif.Lemmas.Body

/-! Bodies: C08–C11, C63, C64. -/

namespace HT
open Spec

variable {σ τ : Type}

/-! ### C08: the declared length -/

/-- A body with declared length over a reader holding `d`, in any partially read state, holds exactly the first
bytes of `d` up to what is left of the length; without length all of `d`. -/
theorem C08_any_state {I : ReaderI σ} {b : Body σ} {d : List Byte}
    (hi : ∀ l, b.length = some l → b.bytesRead ≤ l) (h : Holds I b.reader d) :
    Holds (Body.readerI I) b (remaining b d) := body_holds hi h

example : Holds (Body.readerI cursorI) ⟨[2, 3, 4], none, some 3, 1⟩ [2, 3] :=
  C08_any_state (d := [2, 3, 4]) (by rintro l ⟨⟩; decide) (cursor_holds _)

/-- A new body with declared length `l` holds exactly the first `l` bytes of its reader. -/
theorem C08_exact {I : ReaderI σ} {s : σ} {d : List Byte} (h : Holds I s d) (l : Nat) :
    Holds (Body.readerI I) (Body.fromReader s (some l)) (d.take l) := by
  have := body_holds (b := Body.fromReader s (some l)) (by intro l' hl'; exact Nat.zero_le _) h
  simpa [remaining, Body.fromReader] using this

example : Holds (Body.readerI cursorI) (Body.fromReader [1, 2, 3, 4, 5] (some 3)) [1, 2, 3] :=
  C08_exact (cursor_holds [1, 2, 3, 4, 5]) 3

/-- A new body without declared length holds exactly the bytes of its reader. -/
theorem C08_no_length {I : ReaderI σ} {s : σ} {d : List Byte} (h : Holds I s d) :
    Holds (Body.readerI I) (Body.fromReader s none) d := by
  have := body_holds (b := Body.fromReader s none) (by intro l' hl'; exact Nat.zero_le _) h
  simpa [remaining, Body.fromReader] using this

example : Holds (Body.readerI cursorI) (Body.fromReader [1, 2, 3] none) [1, 2, 3] := C08_no_length (cursor_holds _)

theorem body_reads_bound {I : ReaderI σ} (hI : Fits I) (b : Body σ)
    (hi : b.Inv) (ns : List Nat) :
    (∀ l, b.length = some l → b.bytesRead + (delivered (reads (Body.readerI I) b ns).1).length ≤ l) ∧
    ∃ ms, delivered (reads (Body.readerI I) b ns).1 = delivered (reads I b.reader ms).1 ∧
      ms.length ≤ ns.length ∧
      (reads (Body.readerI I) b ns).2.reader = (reads I b.reader ms).2 ∧
      (.panic ∈ (reads (Body.readerI I) b ns).1 → .panic ∈ (reads I b.reader ms).1) := by
  induction ns generalizing b with
  | nil =>
    exact ⟨fun l hl => by simpa [reads] using hi l hl, [], by simp [reads]⟩
  | cons n ns ih =>
    -- one poll
    have step : (∃ m, (Body.readerI I).pollRead b n = b.counted (I.pollRead b.reader m) ∧
          ∀ l, b.length = some l → m ≤ l - b.bytesRead) ∨
        (Body.readerI I).pollRead b n = (.ok [], b) := by
      show (∃ m, Body.pollRead I b n = _ ∧ _) ∨ Body.pollRead I b n = _
      unfold Body.pollRead
      cases hl : b.length with
      | none => exact .inl ⟨n, rfl, by intro l h; cases h⟩
      | some l =>
        simp only
        by_cases h0 : l = b.bytesRead
        · rw [if_pos h0]; exact .inr rfl
        · have := hi l hl
          rw [if_neg h0, if_neg (by omega)]
          refine .inl ⟨_, rfl, ?_⟩
          intro l' h'
          cases h'
          omega
    rcases step with ⟨m, hs, hm⟩ | hs
    · rcases hpr : I.pollRead b.reader m with ⟨p, r'⟩
      have hb' : ∃ b', b.counted (p, r') = (p, b') ∧ b'.reader = r' ∧ b'.length = b.length ∧
          b'.bytesRead = b.bytesRead + (bytesOf p).length := by
        cases p <;> exact ⟨_, rfl, rfl, rfl, rfl⟩
      obtain ⟨b', e1, e2, e3, e4⟩ := hb'
      rw [hpr, e1] at hs
      have hlen : ∀ l, b.length = some l → (bytesOf p).length ≤ l - b.bytesRead := by
        intro l hl
        cases p with
        | ok bs => exact Nat.le_trans (hI _ _ _ _ hpr) (hm l hl)
        | pending => simp [bytesOf]
        | err => simp [bytesOf]
        | panic => simp [bytesOf]
      have hi' : b'.Inv := by
        intro l hl
        rw [e3] at hl
        have := hlen l hl
        have := hi l hl
        omega
      obtain ⟨g1, ms, g2, g3, g4, g5⟩ := ih b' hi'
      rw [e2] at g2 g4 g5
      simp only [reads, hs, delivered_cons]
      refine ⟨?_, m :: ms, ?_, by simpa using g3, ?_, ?_⟩
      · intro l hl
        have := g1 l (by rw [e3, hl])
        rw [List.length_append]
        omega
      · simp only [reads, hpr, delivered_cons, g2]
      · simp only [reads, hpr, g4]
      · simp only [reads, hpr, List.mem_cons]
        rintro (h | h)
        · exact .inl h
        · exact .inr (g5 h)
    · obtain ⟨g1, ms, g2, g3, g4, g5⟩ := ih b hi
      simp only [reads, hs, delivered_cons]
      refine ⟨?_, ms, ?_, ?_, g4, ?_⟩
      · intro l hl
        simpa [bytesOf] using g1 l hl
      · simpa [bytesOf] using g2
      · simp; omega
      · rw [List.mem_cons]
        rintro (h | h)
        · cases h
        · exact g5 h

/-- For any reader at all that respects buffer sizes (endless ones, ones that go on after an end included): a
body never delivers more than its declared length, what it delivers is what the reader delivered, in order, it
does not panic unless the reader does, and `into_reader` gives back the reader right after the bytes delivered. -/
theorem C08_bound {I : ReaderI σ} (hI : Fits I) (s : σ) (len : Option Nat) (ns : List Nat) :
    (∀ l, len = some l → (delivered (reads (Body.readerI I) (Body.fromReader s len) ns).1).length ≤ l) ∧
    ∃ ms, delivered (reads (Body.readerI I) (Body.fromReader s len) ns).1 = delivered (reads I s ms).1 ∧
      (reads (Body.readerI I) (Body.fromReader s len) ns).2.intoReader = (reads I s ms).2 ∧
      (.panic ∈ (reads (Body.readerI I) (Body.fromReader s len) ns).1 → .panic ∈ (reads I s ms).1) := by
  obtain ⟨h1, ms, h2, -, h3, h4⟩ := body_reads_bound hI (Body.fromReader s len) (fun l _ => Nat.zero_le _) ns
  refine ⟨fun l hl => ?_, ms, h2, h3, h4⟩
  have := h1 l hl
  simpa [Body.fromReader] using this

example : (delivered (reads (Body.readerI cursorI) (Body.fromReader [1, 2, 3, 4, 5] (some 3)) [2, 2, 2]).1).length ≤ 3 :=
  (C08_bound (fun s n bs s' h => by cases h; exact List.length_take_le n s) [1, 2, 3, 4, 5] (some 3) [2, 2, 2]).1 3 rfl

theorem reads_append (I : ReaderI σ) (s : σ) (ns ms : List Nat) :
    reads I s (ns ++ ms) = ((reads I s ns).1 ++ (reads I (reads I s ns).2 ms).1, (reads I (reads I s ns).2 ms).2) := by
  induction ns generalizing s with
  | nil => rfl
  | cons n ns ih => simp only [List.cons_append, reads, ih]

/-- A reader that holds `d` holds, after any reads, what was not delivered yet. -/
theorem holds_after {I : ReaderI σ} {s : σ} {d : List Byte} (h : Holds I s d) (ns : List Nat) :
    ∃ d', d = delivered (reads I s ns).1 ++ d' ∧ Holds I (reads I s ns).2 d' := by
  obtain ⟨d', hd⟩ := (h ns).2.1
  refine ⟨d', hd.symm, fun ms => ?_⟩
  obtain ⟨h1, h2, h3⟩ := h (ns ++ ms)
  rw [reads_append] at h1 h2 h3
  simp only [delivered, List.flatMap_append] at h1 h2 h3
  refine ⟨fun hp => h1 (List.mem_append_right _ hp), ?_, fun n bs s' hr => ?_⟩
  · rw [← hd] at h2
    exact (List.prefix_append_right_inj _).mp h2
  · obtain ⟨h4, h5⟩ := h3 n bs s' hr
    refine ⟨h4, fun hn hb => ?_⟩
    have := h5 hn hb
    rw [← hd] at this
    exact List.append_cancel_left this

/-- The reader taken out of a body in any state of reading holds exactly the bytes not delivered yet, those beyond the
declared length included: the length no longer limits it. -/
theorem C08_into_reader {I : ReaderI σ} (hI : Fits I) {s : σ} {d : List Byte} (h : Holds I s d) (len : Option Nat)
    (ns : List Nat) :
    let r := reads (Body.readerI I) (Body.fromReader s len) ns
    ∃ d', d = delivered r.1 ++ d' ∧ Holds I r.2.intoReader d' := by
  obtain ⟨-, ms, h1, h2, -⟩ := C08_bound hI s len ns
  obtain ⟨d', h3, h4⟩ := holds_after h ms
  exact ⟨d', by rw [h1]; exact h3, by rw [h2]; exact h4⟩

example : (reads (Body.readerI cursorI) (Body.fromReader [1, 2, 3, 4, 5] (some 3)) [2, 2]).1 = [.ok [1, 2], .ok [3]] ∧
    (reads (Body.readerI cursorI) (Body.fromReader [1, 2, 3, 4, 5] (some 3)) [2, 2]).2.intoReader = [4, 5] := by decide

/-- Changing the media type of a body, at any time, changes neither its length nor what any reads return. -/
theorem C08_set_mime (I : ReaderI σ) (b : Body σ) (m : Option Mime) (ns : List Nat) :
    (b.setMime m).mime = m ∧ (b.setMime m).len = b.len ∧
      (reads (Body.readerI I) (b.setMime m) ns).1 = (reads (Body.readerI I) b ns).1 ∧
      (reads (Body.readerI I) (b.setMime m) ns).2 = (reads (Body.readerI I) b ns).2.setMime m := by
  refine ⟨rfl, rfl, ?_⟩
  have key : ∀ (b : Body σ) n, (Body.readerI I).pollRead (b.setMime m) n =
      (((Body.readerI I).pollRead b n).1, ((Body.readerI I).pollRead b n).2.setMime m) := by
    intro b n
    have hc : ∀ x : IoPoll × σ, (b.setMime m).counted x = ((b.counted x).1, (b.counted x).2.setMime m) := by
      rintro ⟨p, r⟩; cases p <;> rfl
    show Body.pollRead I _ n = ((Body.pollRead I b n).1, (Body.pollRead I b n).2.setMime m)
    unfold Body.pollRead
    simp only [show (b.setMime m).length = b.length from rfl, show (b.setMime m).bytesRead = b.bytesRead from rfl,
      show (b.setMime m).reader = b.reader from rfl, hc]
    cases b.length with
    | none => rfl
    | some l =>
      simp only
      split
      · rfl
      · split <;> rfl
  induction ns generalizing b with
  | nil => exact ⟨rfl, rfl⟩
  | cons n ns ih => simp only [reads, key, ih, and_self]

example : (reads (Body.readerI cursorI) ((Body.fromBytes [1, 2, 3]).setMime none) [2, 2]).1 = [.ok [1, 2], .ok [3]] := by
  decide

/-- A reader that is pending every other time and gives one byte at a time, with an error in between. -/
def slowI : ReaderI (List (Option Byte) × Bool) where
  pollRead x n :=
    if x.2 then
      match x.1 with
      | [] => (.ok [], ([], false))
      | none :: r => (.err, (r, false))
      | some c :: r => if n = 0 then (.ok [], (x.1, false)) else (.ok [c], (r, false))
    else (.pending, (x.1, true))
  fillBuf x := (.ok [], x)
  consume x _ := x

theorem slow_holds (x : List (Option Byte)) (t : Bool) : Holds slowI (x, t) (x.filterMap id) := by
  refine holds_of_invariant (fun s d => d = s.1.filterMap id) ?_ rfl
  rintro ⟨x, t⟩ d n rfl
  unfold slowI
  simp only
  cases t with
  | false => exact rfl
  | true =>
    cases x with
    | nil => exact ⟨by simp, by simp, [], by simp, by simp⟩
    | cons c r =>
      cases c with
      | none => exact rfl
      | some c =>
        simp only [if_true]
        by_cases hn : n = 0
        · rw [if_pos hn]
          exact ⟨by simp, fun h => absurd hn h, _, by simp, rfl⟩
        · rw [if_neg hn]
          exact ⟨by simp; omega, by simp, _, by simp, rfl⟩

example : Holds slowI ([some 1, none, some 2, some 3], false) [1, 2, 3] := slow_holds _ _

example : (reads (Body.readerI slowI) (Body.fromReader ([some 1, none, some 2, some 3], false) (some 2))
    [5, 5, 5, 5, 5, 5, 5]).1 = [.pending, .ok [1], .pending, .err, .pending, .ok [2], .ok []] := by decide

example : Fits slowI := by
  rintro ⟨x, t⟩ n bs s' h
  unfold slowI at h
  cases t with
  | false => cases h
  | true =>
    cases x with
    | nil => cases h; simp
    | cons c r =>
      cases c with
      | none => cases h
      | some c =>
        simp only [if_true] at h
        by_cases hn : n = 0
        · rw [if_pos hn] at h; cases h; simp
        · rw [if_neg hn] at h; cases h; simp; omega

/-! ### C09: chaining -/

/-- The length of a chained body. -/
def chainLength (a : Body σ) (b : Body τ) : Option Nat :=
  match a.length, b.length with
  | some l1, some l2 =>
    if (l1 - a.bytesRead) + (l2 - b.bytesRead) < 2 ^ 64 then some ((l1 - a.bytesRead) + (l2 - b.bytesRead)) else none
  | _, _ => none

theorem chain_ok {a : Body σ} {b : Body τ} (ha : a.Inv) (hb : b.Inv) :
    a.chain b = .ok ⟨(a, b, false), if a.mime = b.mime then a.mime else some Mime.BYTE_STREAM, chainLength a b, 0⟩ := by
  unfold Body.chain chainLength
  cases h1 : a.length with
  | none => simp
  | some l1 =>
    cases h2 : b.length with
    | none => simp
    | some l2 =>
      have := ha l1 h1
      have := hb l2 h2
      simp only
      rw [if_neg (show ¬ l1 < a.bytesRead by omega), if_neg (show ¬ l2 < b.bytesRead by omega)]
      rfl

theorem remaining_length {b : Body σ} {l : Nat} (d : List Byte) (h : b.length = some l) :
    (remaining b d).length ≤ l - b.bytesRead := by
  unfold remaining
  rw [h]
  simp
  omega

/-- Chaining two bodies in any state reached by plain reads: no panic; the media type is the common one or
`application/octet-stream`; the length is the sum of what is left when both are known and the sum is below
2^64; and the result holds what is left of the first followed by what is left of the second. -/
theorem C09_chain {I : ReaderI σ} {J : ReaderI τ} {a0 : Body σ} {b0 : Body τ} {d e : List Byte}
    (ha0 : a0.bytesRead = 0) (hb0 : b0.bytesRead = 0) (hd : Holds I a0.reader d) (he : Holds J b0.reader e)
    (ns ms : List Nat) :
    let a := (reads (Body.readerI I) a0 ns).2
    let b := (reads (Body.readerI J) b0 ms).2
    ∃ c d' e', a.chain b = .ok c ∧
      c.mime = (if a.mime = b.mime then a.mime else some Mime.BYTE_STREAM) ∧
      c.length = chainLength a b ∧
      remaining a0 d = delivered (reads (Body.readerI I) a0 ns).1 ++ d' ∧
      remaining b0 e = delivered (reads (Body.readerI J) b0 ms).1 ++ e' ∧
      Holds (Body.readerI (Body.chainReaderI I J)) c (d' ++ e') := by
  intro a b
  obtain ⟨d', h1, h2, h3, h4⟩ := body_after (b := a0) (fun l _ => by omega) hd ns
  obtain ⟨e', g1, g2, g3, g4⟩ := body_after (b := b0) (fun l _ => by omega) he ms
  refine ⟨_, remaining a d', remaining b e', chain_ok h1 g1, rfl, rfl, h4, g4, ?_⟩
  have hh := chain_holds (body_holds h1 h3) (body_holds g1 g3)
  have hb := body_holds (I := Body.chainReaderI I J)
    (b := ⟨(a, b, false), if a.mime = b.mime then a.mime else some Mime.BYTE_STREAM, chainLength a b, 0⟩)
    (fun l _ => Nat.zero_le _) hh
  have hrem : remaining (σ := Body σ × Body τ × Bool)
      ⟨(a, b, false), if a.mime = b.mime then a.mime else some Mime.BYTE_STREAM, chainLength a b, 0⟩
      (remaining a d' ++ remaining b e') = remaining a d' ++ remaining b e' := by
    cases hc : chainLength a b with
    | none => rfl
    | some l =>
      show List.take (l - 0) _ = _
      apply List.take_of_length_le
      unfold chainLength at hc
      cases hla : a.length with
      | none => rw [hla] at hc; cases hc
      | some l1 =>
        cases hlb : b.length with
        | none => rw [hla, hlb] at hc; cases hc
        | some l2 =>
          rw [hla, hlb] at hc
          simp only at hc
          split at hc
          · cases hc
            have := remaining_length d' hla
            have := remaining_length e' hlb
            rw [List.length_append]
            omega
          · cases hc
  rw [hrem] at hb
  exact hb

example : ∃ c d' e', ((reads (Body.readerI cursorI) (Body.fromBytes [1, 2, 3]) [2]).2).chain (Body.fromReader [4, 5, 6] (some 2)) = .ok c ∧
    [1, 2, 3] = [1, 2] ++ d' ∧ [4, 5] = ([] : List Byte) ++ e' ∧ Holds (Body.readerI (Body.chainReaderI cursorI cursorI)) c (d' ++ e') := by
  obtain ⟨c, d', e', h1, -, -, h4, h5, h6⟩ := C09_chain (a0 := Body.fromBytes [1, 2, 3]) (b0 := Body.fromReader [4, 5, 6] (some 2)) rfl rfl
    (cursor_holds _) (cursor_holds _) [2] []
  exact ⟨c, d', e', h1, h4, h5, h6⟩

/-- The length of a chain by cases. -/
theorem C09_length (a : Body σ) (b : Body τ) (c : Body (Body σ × Body τ × Bool)) (ha : a.Inv) (hb : b.Inv)
    (h : a.chain b = .ok c) (l : Nat) : c.len = some l ↔ ∃ l1 l2, a.len = some l1 ∧ b.len = some l2 ∧
      l = (l1 - a.bytesRead) + (l2 - b.bytesRead) ∧ l < 2 ^ 64 := by
  rw [chain_ok ha hb] at h
  cases h
  show chainLength a b = some l ↔ ∃ l1 l2, a.length = some l1 ∧ b.length = some l2 ∧ _
  unfold chainLength
  cases h1 : a.length with
  | none => simp
  | some l1 =>
    cases h2 : b.length with
    | none => simp
    | some l2 =>
      simp only [Option.some.injEq, exists_and_left, exists_eq_left', Option.ite_none_right_eq_some]
      constructor
      · rintro ⟨h, rfl⟩; exact ⟨rfl, h⟩
      · rintro ⟨rfl, h⟩; exact ⟨h, rfl⟩

/-- Chaining after plain reads: three bytes of four are left from the first body, and the second is cut to its
declared length. -/
example : ∃ c, ((reads (Body.readerI cursorI) (Body.fromBytes [1, 2, 3, 4]) [1]).2).chain
      (Body.fromReader [5, 6, 7] (some 2)) = .ok c ∧ c.length = some 5 ∧
    (reads (Body.readerI (Body.chainReaderI cursorI cursorI)) c [2, 2, 2, 2, 2]).1 =
      [.ok [2, 3], .ok [4], .ok [5, 6], .ok [], .ok []] := by
  refine ⟨_, rfl, by decide, by decide⟩

/-! ### C10: the buffered interface -/

theorem body_bufInv (I : ReaderI σ) : BufInv (Body.readerI I)
    (fun b c d => HoldsFrom I (b.reader, c) d ∧ ∀ l, b.length = some l → b.bytesRead + d.length ≤ l) where
  pre := fun b c d h => (holdsFrom_inv I).pre _ _ _ h.1
  read := by
    rintro b c d n ⟨h, hl⟩
    show StepOk _ _ _ (Body.pollRead I b n)
    have go : ∀ m, m ≤ n → (n ≠ 0 → m ≠ 0) → (∀ l, b.length = some l → b.bytesRead + m ≤ l) →
        StepOk (fun b d => HoldsFrom I (b.reader, []) d ∧ ∀ l, b.length = some l → b.bytesRead + d.length ≤ l) d n
          (b.counted (I.pollRead b.reader m)) := by
      intro m hm hm0 hml
      have hs := (holdsFrom_inv I).read _ _ _ m h
      rcases hpr : I.pollRead b.reader m with ⟨p, r'⟩
      rw [hpr] at hs
      cases p with
      | panic => exact absurd hs id
      | pending => exact ⟨hs, hl⟩
      | err => exact ⟨hs, hl⟩
      | ok bs =>
        obtain ⟨h1, h2, d', rfl, h4⟩ := hs
        refine ⟨by omega, fun hn hb => h2 (hm0 hn) hb, d', rfl, h4, ?_⟩
        intro l hl'
        have := hl l hl'
        rw [List.length_append] at this
        simp only
        omega
    unfold Body.pollRead
    cases hlen : b.length with
    | none =>
      exact go n (Nat.le_refl _) id (by intro l h; rw [hlen] at h; cases h)
    | some l =>
      simp only
      have := hl l hlen
      by_cases h0 : l = b.bytesRead
      · rw [if_pos h0]
        have hd : d = [] := List.length_eq_zero_iff.mp (by omega)
        have hc : c = [] := by
          have := (holdsFrom_inv I).pre _ _ _ h
          rw [hd] at this
          exact List.prefix_nil.mp this
        subst hd hc
        exact ⟨by simp, fun _ _ => rfl, [], rfl, h, hl⟩
      · rw [if_neg h0, if_neg (by omega)]
        refine go _ (by omega) (by omega) ?_
        intro l' hl'
        rw [hlen] at hl'
        cases hl'
        omega
  fill := by
    rintro b c d ⟨h, hl⟩
    have hs := (holdsFrom_inv I).fill _ _ _ h
    have he : (Body.readerI I).fillBuf b = ((I.fillBuf b.reader).1, { b with reader := (I.fillBuf b.reader).2 }) := rfl
    rw [he]
    rcases hpr : I.fillBuf b.reader with ⟨p, r'⟩
    rw [hpr] at hs
    cases p with
    | panic => exact absurd hs id
    | pending => exact ⟨hs, hl⟩
    | err => exact ⟨hs, hl⟩
    | ok bs => exact ⟨hs.1, hs.2, hl⟩
  consume := by
    rintro b c d k ⟨h, hl⟩ hk
    refine ⟨(holdsFrom_inv I).consume _ _ _ k h hk, ?_⟩
    intro l hl'
    have := hl l hl'
    rw [List.length_drop]
    show b.bytesRead + _ ≤ _
    omega

/-- Any mixture of plain and buffered reads on a body delivers exactly the bytes of the reader, and so no more than
the declared length, provided the reader holds no more than the declared length, or no length was declared.
(Missing: readers that hold more, where the claim is false, see `C10_violated`.) -/
theorem C10_mixed_reads_partial {I : ReaderI σ} {s : σ} {d : List Byte} (h : HoldsBuf I s d) (len : Option Nat)
    (hl : ∀ l, len = some l → d.length ≤ l) : HoldsBuf (Body.readerI I) (Body.fromReader s len) d :=
  holdsFrom_of_invariant (body_bufInv I) ⟨h, fun l hl' => by simpa [Body.fromReader] using hl l hl'⟩

theorem cursor_holdsBuf (d : List Byte) : HoldsBuf cursorI d d := by
  refine holdsFrom_of_invariant (P := fun s c d => s = d ∧ c <+: d) ⟨?_, ?_, ?_, ?_⟩ ⟨rfl, List.nil_prefix⟩
  · exact fun _ _ _ h => h.2
  · rintro s c d n ⟨rfl, -⟩
    refine ⟨by simp; omega, ?_, s.drop n, by simp, rfl, List.nil_prefix⟩
    intro hn hb
    cases s with
    | nil => rfl
    | cons x s =>
      cases n with
      | zero => exact absurd rfl hn
      | succ n => simp at hb
  · rintro s c d ⟨rfl, -⟩
    exact ⟨id, rfl, List.prefix_rfl⟩
  · rintro s c d k ⟨rfl, hc⟩ hk
    refine ⟨rfl, ?_⟩
    obtain ⟨t, rfl⟩ := hc
    rw [List.drop_append_of_le_length hk]
    exact List.prefix_append _ _

example : ∃ ps out y, runOps (Body.readerI cursorI) (Body.fromReader [1, 2, 3] (some 3), [])
    [.fill, .consume 2, .read 5, .read 5] = some (ps, out, y) ∧ out = [1, 2, 3] ∧ .ok [] ∈ ps :=
  ⟨_, _, _, rfl, by decide, by decide⟩

/-- The buffered interface shows and delivers bytes beyond the declared length, and plain reads after it too. -/
theorem C10_violated : ∃ (s : List Byte), HoldsBuf cursorI s s ∧
    (∃ ps out y, runOps (Body.readerI cursorI) (Body.fromReader s (some 1), []) [.fill, .consume 2] =
      some (ps, out, y) ∧ out = [1, 2]) ∧
    (∃ ps out y, runOps (Body.readerI cursorI) (Body.fromReader s (some 1), []) [.fill, .consume 1, .read 1] =
      some (ps, out, y) ∧ out = [1, 2]) :=
  ⟨[1, 2], cursor_holdsBuf _, ⟨_, _, _, rfl, by decide⟩, ⟨_, _, _, rfl, by decide⟩⟩

/-- Whatever the declared length, and however much the reader holds: the buffered interface shows everything. -/
theorem C10_violated_any (d : List Byte) (l : Nat) :
    ∃ ps y, runOps (Body.readerI cursorI) (Body.fromReader d (some l), []) [.fill, .consume d.length] =
      some (ps, d, y) := by
  refine ⟨[.ok d, .ok []], ({ Body.fromReader d (some l) with reader := d.drop d.length }, d.drop d.length), ?_⟩
  simp [runOps, opStep, Body.readerI, cursorI, Body.fromReader, bytesOf]

example : ∃ ps y, runOps (Body.readerI cursorI) (Body.fromReader [1, 2, 3] (some 0), []) [.fill, .consume 3] =
    some (ps, [1, 2, 3], y) := C10_violated_any [1, 2, 3] 0

theorem runOps_shorter {I : ReaderI σ} (os : List ROp) : ∀ {s : σ} {c1 c : List Byte}, c1 <+: c →
    ∀ ps out y, runOps I (s, c1) os = some (ps, out, y) →
      ∃ c', y.2 <+: c' ∧ runOps I (s, c) os = some (ps, out, (y.1, c')) := by
  induction os with
  | nil =>
    intro s c1 c hc ps out y hr
    cases hr
    exact ⟨c, hc, rfl⟩
  | cons o os ih =>
    intro s c1 c hc ps out y hr
    obtain ⟨p, bs, x, ps', cs, h1, h2, rfl, rfl⟩ := runOps_cons hr
    cases o with
    | read n =>
      have h1' : opStep I (s, c) (.read n) = some (p, bs, x) := h1
      exact ⟨y.2, List.prefix_rfl, runOps_cons_of h1' h2⟩
    | fill =>
      have h1' : opStep I (s, c) .fill = some (p, bs, x) := h1
      exact ⟨y.2, List.prefix_rfl, runOps_cons_of h1' h2⟩
    | consume k =>
      have he : ∀ c, opStep I (s, c) (.consume k) = if k ≤ c.length then
        some (.ok [], c.take k, (I.consume s k, c.drop k)) else none := fun _ => rfl
      obtain ⟨t, rfl⟩ := hc
      rw [he] at h1
      split at h1
      · rename_i hk
        simp only [Option.some.injEq, Prod.mk.injEq] at h1
        obtain ⟨rfl, rfl, rfl⟩ := h1
        obtain ⟨c', g1, g2⟩ := ih (c := c1.drop k ++ t) (List.prefix_append _ _) _ _ _ h2
        refine ⟨c', g1, runOps_cons_of ?_ g2⟩
        rw [he, if_pos (by rw [List.length_append]; omega), List.take_append_of_le_length hk,
          List.drop_append_of_le_length hk]
      · cases h1

theorem holdsFrom_drop_cur {I : ReaderI σ} {s : σ} {c d : List Byte} (h : HoldsFrom I (s, c) d) : HoldsFrom I (s, []) d := by
  intro os ps out y hr
  obtain ⟨c', h1, h2⟩ := runOps_shorter os List.nil_prefix ps out y hr
  obtain ⟨g1, g2, g3, g4⟩ := h os ps out _ h2
  exact ⟨g1, ((List.prefix_append_right_inj _).mpr h1).trans g2, g3, g4⟩

theorem body_mixed {I : ReaderI σ} {l : Nat} (os : List ROp) : ∀ {b : Body σ} {c d : List Byte},
    HoldsFrom I (b.reader, c) d → b.length = some l → b.bytesRead ≤ l →
    ∀ ps out y, runOps (Body.readerI I) (b, c) os = some (ps, out, y) →
      .panic ∉ ps ∧ ∃ d', d = out ++ d' ∧ HoldsFrom I (y.1.reader, y.2) d' ∧ y.1.length = some l ∧
        y.1.bytesRead = b.bytesRead + (plainBytes os ps).length ∧ y.1.bytesRead ≤ l := by
  induction os with
  | nil =>
    intro b c d h hl hb ps out y hr
    cases hr
    exact ⟨by simp, d, rfl, h, hl, rfl, hb⟩
  | cons o os ih =>
    intro b c d h hl hb ps out y hr
    obtain ⟨p, bs, x, ps', cs, h1, h2, rfl, rfl⟩ := runOps_cons hr
    cases o with
    | read n =>
      have he : opStep (Body.readerI I) (b, c) (.read n) = some ((Body.pollRead I b n).1, bytesOf (Body.pollRead I b n).1,
        ((Body.pollRead I b n).2, [])) := rfl
      rw [he] at h1
      simp only [Option.some.injEq, Prod.mk.injEq] at h1
      obtain ⟨rfl, rfl, rfl⟩ := h1
      have key : (Body.pollRead I b n).1 ≠ .panic ∧ ∃ d1, d = bytesOf (Body.pollRead I b n).1 ++ d1 ∧
          HoldsFrom I ((Body.pollRead I b n).2.reader, []) d1 ∧ (Body.pollRead I b n).2.length = some l ∧
          (Body.pollRead I b n).2.bytesRead = b.bytesRead + (bytesOf (Body.pollRead I b n).1).length ∧
          (Body.pollRead I b n).2.bytesRead ≤ l := by
        unfold Body.pollRead
        rw [hl]
        simp only
        by_cases h0 : l = b.bytesRead
        · rw [if_pos h0]
          refine ⟨by simp, d, rfl, ?_, hl, rfl, hb⟩
          have := holdsFrom_drop_cur h
          exact this
        · rw [if_neg h0, if_neg (by omega)]
          have hs := (holdsFrom_inv I).read _ _ _ (min (l - b.bytesRead) n) h
          rcases hpr : I.pollRead b.reader (min (l - b.bytesRead) n) with ⟨p, r'⟩
          rw [hpr] at hs
          cases p with
          | panic => exact absurd hs id
          | pending => exact ⟨by simp [Body.counted], d, rfl, hs, hl, rfl, hb⟩
          | err => exact ⟨by simp [Body.counted], d, rfl, hs, hl, rfl, hb⟩
          | ok bs =>
            obtain ⟨g1, -, d', g3, g4⟩ := hs
            refine ⟨by simp [Body.counted], d', g3, g4, hl, rfl, ?_⟩
            show b.bytesRead + bs.length ≤ l
            omega
      obtain ⟨k1, d1, k2, k3, k4, k5, k6⟩ := key
      obtain ⟨i1, d2, i2, i3, i4, i5, i6⟩ := ih k3 k4 k6 _ _ _ h2
      refine ⟨by simp only [List.mem_cons, not_or]; exact ⟨Ne.symm k1, i1⟩, d2, by rw [k2, i2, List.append_assoc], i3, i4, ?_, i6⟩
      rw [i5, k5, plainBytes, List.length_append]
      omega
    | fill =>
      have he : opStep (Body.readerI I) (b, c) .fill = some ((I.fillBuf b.reader).1, [],
        ({ b with reader := (I.fillBuf b.reader).2 }, bytesOf (I.fillBuf b.reader).1)) := rfl
      rw [he] at h1
      simp only [Option.some.injEq, Prod.mk.injEq] at h1
      obtain ⟨rfl, rfl, rfl⟩ := h1
      have hs := (holdsFrom_inv I).fill _ _ _ h
      have key : (I.fillBuf b.reader).1 ≠ .panic ∧ HoldsFrom I ((I.fillBuf b.reader).2, bytesOf (I.fillBuf b.reader).1) d := by
        rcases hpr : I.fillBuf b.reader with ⟨p, r'⟩
        rw [hpr] at hs
        cases p with
        | panic => exact absurd hs id
        | pending => exact ⟨by simp, hs⟩
        | err => exact ⟨by simp, hs⟩
        | ok bs => exact ⟨by simp, hs.2⟩
      obtain ⟨i1, d2, i2, i3, i4, i5, i6⟩ := ih (b := { b with reader := (I.fillBuf b.reader).2 }) key.2 hl hb _ _ _ h2
      exact ⟨by simp only [List.mem_cons, not_or]; exact ⟨Ne.symm key.1, i1⟩, d2, by simpa using i2, i3, i4,
        by simpa [plainBytes] using i5, i6⟩
    | consume k =>
      have he : opStep (Body.readerI I) (b, c) (.consume k) = if k ≤ c.length then
        some (.ok [], c.take k, ({ b with reader := I.consume b.reader k }, c.drop k)) else none := rfl
      rw [he] at h1
      split at h1
      · rename_i hk
        simp only [Option.some.injEq, Prod.mk.injEq] at h1
        obtain ⟨rfl, rfl, rfl⟩ := h1
        have hc := (holdsFrom_inv I).consume _ _ _ k h hk
        obtain ⟨t, ht⟩ := (holdsFrom_inv I).pre _ _ _ h
        obtain ⟨i1, d2, i2, i3, i4, i5, i6⟩ := ih (b := { b with reader := I.consume b.reader k }) hc hl hb _ _ _ h2
        refine ⟨by simpa using i1, d2, ?_, i3, i4, by simpa [plainBytes] using i5, i6⟩
        rw [List.append_assoc, ← i2, ← ht, List.drop_append_of_le_length hk, ← List.append_assoc, List.take_append_drop]
      · cases h1

/-- What any mixture of plain and buffered reads does on a body with declared length `l`, however much the reader
holds: the bytes arrive in order and none is lost or repeated; nothing panics; plain reads are limited to `l` bytes
of their own, not counting what was consumed; a plain read of nothing means the end or that limit; an empty buffer
means the end. -/
theorem C10_any_mixture {I : ReaderI σ} {s : σ} {d : List Byte} (h : HoldsBuf I s d) (l : Nat) (os : List ROp)
    (ps : List IoPoll) (out : List Byte) (y : Body σ × List Byte)
    (hr : runOps (Body.readerI I) (Body.fromReader s (some l), []) os = some (ps, out, y)) :
    .panic ∉ ps ∧ out ++ y.2 <+: d ∧ (plainBytes os ps).length ≤ l ∧
    (∀ n bs b', (Body.readerI I).pollRead y.1 n = (.ok bs, b') →
      bs.length ≤ n ∧ (n ≠ 0 → (bs = [] ↔ out = d ∨ (plainBytes os ps).length = l))) ∧
    (∀ b', (Body.readerI I).fillBuf y.1 = (.ok [], b') → out = d) := by
  obtain ⟨h1, d', rfl, h3, h4, h5, h6⟩ := body_mixed (b := Body.fromReader s (some l)) os h rfl (Nat.zero_le _) ps out y hr
  have h5 : y.1.bytesRead = (plainBytes os ps).length := by rw [h5]; simp [Body.fromReader]
  refine ⟨h1, List.prefix_append_right_inj _ |>.mpr ((holdsFrom_inv I).pre _ _ _ h3), by omega, ?_, ?_⟩
  · intro n bs b' hb
    have he : (Body.readerI I).pollRead y.1 n = Body.pollRead I y.1 n := rfl
    rw [he, Body.pollRead, h4] at hb
    simp only at hb
    by_cases h0 : l = y.1.bytesRead
    · rw [if_pos h0] at hb
      cases hb
      exact ⟨by simp, fun _ => ⟨fun _ => .inr (by omega), fun _ => rfl⟩⟩
    · rw [if_neg h0, if_neg (by omega)] at hb
      have hs := (holdsFrom_inv I).read _ _ _ (min (l - y.1.bytesRead) n) h3
      rcases hpr : I.pollRead y.1.reader (min (l - y.1.bytesRead) n) with ⟨p, r'⟩
      rw [hpr] at hs hb
      cases p with
      | panic => exact absurd hs id
      | pending => simp [Body.counted] at hb
      | err => simp [Body.counted] at hb
      | ok bs' =>
        simp only [Body.counted, Prod.mk.injEq, IoPoll.ok.injEq] at hb
        obtain ⟨rfl, -⟩ := hb
        obtain ⟨g1, g2, d2, g3, -⟩ := hs
        refine ⟨by omega, fun hn => ⟨fun e => .inl ?_, ?_⟩⟩
        · rw [g2 (by omega) e]
          simp
        · rintro (e | e)
          · have : d' = [] := by
              have := congrArg List.length e
              simp at this
              exact this
            rw [this] at g3
            exact (List.append_eq_nil_iff.mp g3.symm).1
          · omega
  · intro b' hb
    have hs := (holdsFrom_inv I).fill _ _ _ h3
    have he : (Body.readerI I).fillBuf y.1 = ((I.fillBuf y.1.reader).1, { y.1 with reader := (I.fillBuf y.1.reader).2 }) := rfl
    rw [he] at hb
    rcases hpr : I.fillBuf y.1.reader with ⟨p, r'⟩
    rw [hpr] at hs hb
    simp only [Prod.mk.injEq] at hb
    obtain ⟨rfl, -⟩ := hb
    rw [hs.1 rfl]
    simp

example : ∃ ps out y, runOps (Body.readerI cursorI) (Body.fromReader [1, 2, 3, 4] (some 1), [])
    [.fill, .consume 2, .read 5, .read 5] = some (ps, out, y) ∧ out = [1, 2, 3] ∧
    plainBytes [.fill, .consume 2, .read 5, .read 5] ps = [3] :=
  ⟨_, _, _, rfl, by decide, by decide⟩

/-- Buffered and plain reads on chained readers. -/
theorem C10_chained_readers {I : ReaderI σ} {J : ReaderI τ} {a : σ} {b : τ} {d e : List Byte}
    (ha : HoldsBuf I a d) (hb : HoldsBuf J b e) : HoldsBuf (chainI I J) (a, b, false) (d ++ e) := by
  refine holdsFrom_of_invariant (P := fun (x : σ × τ × Bool) c r => (x.2.2 = true ∧ HoldsFrom J (x.2.1, c) r) ∨
      (x.2.2 = false ∧ ∃ d e, HoldsFrom I (x.1, c) d ∧ HoldsFrom J (x.2.1, []) e ∧ r = d ++ e))
    ⟨?_, ?_, ?_, ?_⟩ (.inr ⟨rfl, d, e, ha, hb, rfl⟩)
  · rintro ⟨a, b, done⟩ c r (⟨-, h⟩ | ⟨-, d, e, h1, h2, rfl⟩)
    · exact (holdsFrom_inv J).pre _ _ _ h
    · exact ((holdsFrom_inv I).pre _ _ _ h1).trans (List.prefix_append _ _)
  · rintro ⟨a, b, done⟩ c r n h
    have second : ∀ c a' r, HoldsFrom J (b, c) r →
        StepOk (fun (x : σ × τ × Bool) r => (x.2.2 = true ∧ HoldsFrom J (x.2.1, []) r) ∨
          (x.2.2 = false ∧ ∃ d e, HoldsFrom I (x.1, []) d ∧ HoldsFrom J (x.2.1, []) e ∧ r = d ++ e)) r n
          (let (p, b) := J.pollRead b n; (p, (a', b, true))) := by
      intro c a' r hr
      have hs := (holdsFrom_inv J).read _ _ _ n hr
      rcases hpr : J.pollRead b n with ⟨p, b'⟩
      rw [hpr] at hs
      cases p with
      | panic => exact absurd hs id
      | pending => exact .inl ⟨rfl, hs⟩
      | err => exact .inl ⟨rfl, hs⟩
      | ok bs =>
        obtain ⟨h1, h2, d', h3, h4⟩ := hs
        exact ⟨h1, h2, d', h3, .inl ⟨rfl, h4⟩⟩
    unfold chainI
    simp only
    rcases h with ⟨hd, hr⟩ | ⟨hd, d, e, ha, hb, rfl⟩
    · simp only at hd hr
      subst hd
      simp only [if_true]
      exact second c a r hr
    · simp only at hd ha hb
      subst hd
      simp only [Bool.false_eq_true, if_false]
      have hs := (holdsFrom_inv I).read _ _ _ n ha
      rcases hpr : I.pollRead a n with ⟨p, a'⟩
      rw [hpr] at hs
      cases p with
      | panic => exact absurd hs id
      | pending => exact .inr ⟨rfl, d, e, hs, hb, rfl⟩
      | err => exact .inr ⟨rfl, d, e, hs, hb, rfl⟩
      | ok bs =>
        obtain ⟨h1, h2, d', h3, h4⟩ := hs
        simp only
        by_cases hc : bs = [] ∧ n ≠ 0
        · rw [if_pos hc, h2 hc.2 hc.1, List.nil_append]
          exact second [] a' e hb
        · rw [if_neg hc]
          refine ⟨h1, fun hn hb => absurd ⟨hb, hn⟩ hc, d' ++ e, ?_, .inr ⟨rfl, d', e, h4, hb, rfl⟩⟩
          rw [h3, List.append_assoc]
  · rintro ⟨a, b, done⟩ c r h
    have second : ∀ c a' r, HoldsFrom J (b, c) r →
        FillOk (fun (x : σ × τ × Bool) c r => (x.2.2 = true ∧ HoldsFrom J (x.2.1, c) r) ∨
          (x.2.2 = false ∧ ∃ d e, HoldsFrom I (x.1, c) d ∧ HoldsFrom J (x.2.1, []) e ∧ r = d ++ e)) r
          (let (p, b) := J.fillBuf b; (p, (a', b, true))) := by
      intro c a' r hr
      have hs := (holdsFrom_inv J).fill _ _ _ hr
      rcases hpr : J.fillBuf b with ⟨p, b'⟩
      rw [hpr] at hs
      cases p with
      | panic => exact absurd hs id
      | pending => exact .inl ⟨rfl, hs⟩
      | err => exact .inl ⟨rfl, hs⟩
      | ok bs => exact ⟨hs.1, .inl ⟨rfl, hs.2⟩⟩
    unfold chainI
    simp only
    rcases h with ⟨hd, hr⟩ | ⟨hd, d, e, ha, hb, rfl⟩
    · simp only at hd hr
      subst hd
      simp only [if_true]
      exact second c a r hr
    · simp only at hd ha hb
      subst hd
      simp only [Bool.false_eq_true, if_false]
      have hs := (holdsFrom_inv I).fill _ _ _ ha
      rcases hpr : I.fillBuf a with ⟨p, a'⟩
      rw [hpr] at hs
      cases p with
      | panic => exact absurd hs id
      | pending => exact .inr ⟨rfl, d, e, hs, hb, rfl⟩
      | err => exact .inr ⟨rfl, d, e, hs, hb, rfl⟩
      | ok bs =>
        obtain ⟨h1, h2⟩ := hs
        simp only
        by_cases hc : bs = []
        · rw [if_pos hc, h1 hc, List.nil_append]
          exact second [] a' e hb
        · rw [if_neg hc]
          exact ⟨fun hb => absurd hb hc, .inr ⟨rfl, d, e, h2, hb, rfl⟩⟩
  · rintro ⟨a, b, done⟩ c r k h hk
    rcases h with ⟨hd, hr⟩ | ⟨hd, d, e, ha, hb, rfl⟩
    · simp only at hd hr
      subst hd
      exact .inl ⟨rfl, (holdsFrom_inv J).consume _ _ _ k hr hk⟩
    · simp only at hd ha hb
      subst hd
      have hp := (holdsFrom_inv I).pre _ _ _ ha
      refine .inr ⟨rfl, d.drop k, e, (holdsFrom_inv I).consume _ _ _ k ha hk, hb, ?_⟩
      rw [List.drop_append_of_le_length (Nat.le_trans hk hp.length_le)]

example : HoldsBuf (chainI cursorI cursorI) ([1, 2], [3], false) [1, 2, 3] :=
  C10_chained_readers (cursor_holdsBuf _) (cursor_holdsBuf _)

/-! ### C11: bytes and strings -/

/-- Bodies made from bytes or text report the exact length in bytes and hold exactly those bytes. -/
theorem C11_from_bytes (d : List Byte) :
    (Body.fromBytes d).len = some d.length ∧ ((Body.fromBytes d).isEmpty = some true ↔ d = []) ∧
      (Body.fromBytes d).mime = some Mime.BYTE_STREAM ∧ Holds (Body.readerI cursorI) (Body.fromBytes d) d := by
  refine ⟨rfl, ?_, rfl, ?_⟩
  · simp [Body.isEmpty, Body.fromBytes]
  · have := body_holds (I := cursorI) (b := Body.fromBytes d) (fun l _ => Nat.zero_le _) (cursor_holds d)
    simpa [remaining, Body.fromBytes] using this

example : (Body.fromBytes [1, 2, 3]).len = some 3 ∧ (Body.fromBytes [1, 2, 3]).isEmpty = some false := by decide

theorem C11_from_string (s : Str) :
    (Body.fromString s).len = some (utf8Encode s).length ∧
      (Body.fromString s).mime = some Mime.PLAIN ∧
      Holds (Body.readerI cursorI) (Body.fromString s) (utf8Encode s) := by
  refine ⟨rfl, rfl, ?_⟩
  have := body_holds (I := cursorI) (b := Body.fromString s) (fun l _ => Nat.zero_le _) (cursor_holds _)
  simpa [remaining, Body.fromString] using this

example : (Body.fromString s!!"né").len = some 3 ∧
    Holds (Body.readerI cursorI) (Body.fromString s!!"né") [0x6E, 0xC3, 0xA9] :=
  ⟨by decide, (C11_from_string s!!"né").2.2⟩

/-- The empty body has length zero and holds nothing. -/
theorem C11_empty : Body.empty.len = some 0 ∧ Body.empty.isEmpty = some true ∧
    Holds (Body.readerI emptyI) Body.empty [] := by
  refine ⟨rfl, rfl, ?_⟩
  have := body_holds (I := emptyI) (b := Body.empty) (fun l _ => Nat.zero_le _) empty_holds
  simpa [remaining, Body.empty] using this

example : ((Body.readerI emptyI).pollRead Body.empty 10).1 = .ok [] := rfl

theorem cursor_body_ready (b : Body (List Byte)) (hi : b.Inv) (n : Nat) :
    ∃ bs b', (Body.readerI cursorI).pollRead b n = (.ok bs, b') ∧ b'.Inv := by
  show ∃ bs b', Body.pollRead cursorI b n = (.ok bs, b') ∧ b'.Inv
  unfold Body.pollRead
  cases hl : b.length with
  | none => exact ⟨_, _, rfl, by intro l h; simp only [hl] at h; cases h⟩
  | some l =>
    have := hi l hl
    simp only
    by_cases h0 : l = b.bytesRead
    · rw [if_pos h0]; exact ⟨_, _, rfl, hi⟩
    · rw [if_neg h0, if_neg (by omega)]
      refine ⟨_, _, rfl, ?_⟩
      intro l' hl'
      simp only [hl, Option.some.injEq] at hl'
      subst hl'
      simp
      omega

/-- Reading any body to the end: what completes is what is left of the declared part of the reader, or an
error 422 when a poll failed. -/
theorem C11_into_bytes {I : ReaderI σ} {b : Body σ} {d : List Byte}
    (hi : ∀ l, b.length = some l → b.bytesRead ≤ l) (h : Holds I b.reader d) {ns : List Nat}
    (hns : ∀ n ∈ ns, n ≠ 0) {r : Res (List Byte)} (hr : b.intoBytes I ns = some r) :
    r = .ok (remaining b d) ∨ (r = .err 422 ∧ .err ∈ (reads (Body.readerI I) b ns).1) := by
  unfold Body.intoBytes at hr
  rw [Option.map_eq_some_iff] at hr
  obtain ⟨r', h1, rfl⟩ := hr
  rcases readToEnd_holds (body_holds hi h) hns h1 with rfl | ⟨rfl, h2⟩
  · exact .inl (by simp)
  · exact .inr ⟨rfl, h2⟩

example : (∀ l, (⟨[2, 3, 4], none, some 3, 1⟩ : Body (List Byte)).length = some l → 1 ≤ l) ∧
    (⟨[2, 3, 4], none, some 3, 1⟩ : Body (List Byte)).intoBytes cursorI [1, 4, 4] = some (.ok [2, 3]) :=
  ⟨by rintro l ⟨⟩; decide, by decide⟩

/-- Bytes put in come out, whatever (positive) buffer sizes are used; enough polls finish it. -/
theorem C11_bytes_round_trip (d : List Byte) (ns : List Nat) (hns : ∀ n ∈ ns, n ≠ 0) (hl : d.length < ns.length) :
    (Body.fromBytes d).intoBytes cursorI ns = some (.ok d) := by
  unfold Body.intoBytes
  rw [readToEnd_finishes Body.Inv (fun b n hb => cursor_body_ready b hb n) (fun l _ => Nat.zero_le _)
    (C11_from_bytes d).2.2.2 hns hl]
  rfl

example : (Body.fromBytes [1, 2, 3]).intoBytes cursorI [1, 1, 1, 1] = some (.ok [1, 2, 3]) :=
  C11_bytes_round_trip _ _ (by decide) (by decide)

/-- Converting any body to a string: success exactly for valid UTF-8, otherwise 422; 422 also for a failed poll. -/
theorem C11_into_string {I : ReaderI σ} {b : Body σ} {d : List Byte}
    (hi : ∀ l, b.length = some l → b.bytesRead ≤ l) (h : Holds I b.reader d) {ns : List Nat}
    (hns : ∀ n ∈ ns, n ≠ 0) (hl : b.len.getD 0 < 2 ^ 63) {r : Res Str} (hr : b.intoString I ns = some r) :
    (∃ s, r = .ok s ∧ utf8Encode s = remaining b d) ∨
      (r = .err 422 ∧ ((¬ ∃ s, utf8Encode s = remaining b d) ∨ .err ∈ (reads (Body.readerI I) b ns).1)) := by
  unfold Body.intoString at hr
  rw [if_neg (by unfold Body.capLimit; omega), Option.map_eq_some_iff] at hr
  obtain ⟨r', h1, rfl⟩ := hr
  rcases readToEnd_holds (body_holds hi h) hns h1 with rfl | ⟨rfl, h2⟩
  · simp only [List.nil_append, Res.bind_ok]
    cases hd : utf8Decode (remaining b d) with
    | none =>
      refine .inr ⟨rfl, .inl ?_⟩
      rintro ⟨s, hs⟩
      rw [← hs, utf8Decode_encode] at hd
      cases hd
    | some s => exact .inl ⟨s, rfl, utf8Encode_decode hd⟩
  · exact .inr ⟨rfl, .inr h2⟩

example : (Body.fromString s!!"hé").intoString cursorI [1, 9, 9] = some (.ok s!!"hé") ∧
    (Body.fromBytes [255]).intoString cursorI [1, 9, 9] = some (.err 422) := by decide +kernel

/-- A string put in comes out. -/
theorem C11_string_round_trip (s : Str) (ns : List Nat) (hns : ∀ n ∈ ns, n ≠ 0)
    (hl : (utf8Encode s).length < ns.length) (hm : (utf8Encode s).length < 2 ^ 63) :
    (Body.fromString s).intoString cursorI ns = some (.ok s) := by
  unfold Body.intoString
  rw [if_neg (by show ¬ (Body.capLimit ≤ (utf8Encode s).length); unfold Body.capLimit; omega),
    readToEnd_finishes Body.Inv (fun b n hb => cursor_body_ready b hb n) (fun l _ => Nat.zero_le _)
      (C11_from_string s).2.2 hns hl]
  simp [utf8Decode_encode]

example : (Body.fromString s!!"né").intoString cursorI [1, 2, 3, 4] = some (.ok s!!"né") := by decide +kernel
example : (Body.fromReader [0xC3, 0xA9, 0x41] (some 1)).intoString cursorI [4, 4] = some (.err 422) := by
  decide +kernel
example : (Body.fromReader [0xC3, 0xA9, 0x41] (some 2)).intoString cursorI [4, 4] = some (.ok s!!"é") := by
  decide +kernel

/-! ### C63: converting to a string does not panic -/

/-- A declared length of 2^63 or more makes the conversion panic, whatever the reader holds. -/
theorem C63_violated : ∃ (b : Body (List Byte)), b.Inv ∧ Holds cursorI b.reader [] ∧
    ∀ ns, b.intoString cursorI ns = some .panic :=
  ⟨Body.fromReader [] (some (2 ^ 63)), fun l _ => Nat.zero_le _, cursor_holds [], fun ns => by
    unfold Body.intoString; rw [if_pos (by decide)]⟩

/-- Exactly then: below 2^63 it never panics. (Missing: longer declared lengths, where it does panic.) -/
theorem C63_panics_iff_partial {I : ReaderI σ} {b : Body σ} {d : List Byte}
    (hi : ∀ l, b.length = some l → b.bytesRead ≤ l) (h : Holds I b.reader d) {ns : List Nat}
    (hns : ∀ n ∈ ns, n ≠ 0) {r : Res Str} (hr : b.intoString I ns = some r) :
    r = .panic ↔ 2 ^ 63 ≤ b.len.getD 0 := by
  by_cases hc : 2 ^ 63 ≤ b.len.getD 0
  · unfold Body.intoString at hr
    rw [if_pos (show Body.capLimit ≤ _ from hc)] at hr
    cases hr
    simp [hc]
  · have := C11_into_string hi h hns (by omega) hr
    constructor
    · rintro rfl
      rcases this with ⟨s, h1, -⟩ | ⟨h1, -⟩ <;> cases h1
    · exact fun h => absurd h hc

example : (Body.fromReader [0x41] (some (2 ^ 63))).intoString cursorI [4, 4] = some .panic ∧
    (Body.fromReader [0x41] (some (2 ^ 63 - 1))).intoString cursorI [4, 4] = some (.ok s!!"A") := by decide +kernel

/-! ### C64: JSON and form bodies -/

/-- A body made from JSON has the JSON media type and the exact length of the text, and reading it back decodes that
text; a decoding failure is 422 and a failed serialisation 500. -/
theorem C64_json {α : Type} (decode : List Byte → Option α) (json : Option (List Byte)) :
    (json = none → Body.fromJson json = .err 500) ∧
    ∀ d, json = some d → ∃ b, Body.fromJson json = .ok b ∧ b.len = some d.length ∧ b.mime = some Mime.JSON ∧
      ∀ ns, (∀ n ∈ ns, n ≠ 0) → d.length < ns.length →
        b.intoJson decode cursorI ns = some (match decode d with | some a => .ok a | none => .err 422) := by
  refine ⟨by rintro rfl; rfl, ?_⟩
  rintro d rfl
  refine ⟨_, rfl, rfl, rfl, ?_⟩
  intro ns hns hl
  unfold Body.intoJson
  have hh := body_holds (I := cursorI) (b := (⟨d, some Mime.JSON, some d.length, 0⟩ : Body (List Byte)))
    (fun l _ => Nat.zero_le _) (cursor_holds d)
  simp only [remaining, Nat.sub_zero, List.take_length] at hh
  rw [readToEnd_finishes Body.Inv (fun b n hb => cursor_body_ready b hb n) (fun l _ => Nat.zero_le _) hh hns hl]
  simp only [List.nil_append, Option.map_some, Res.bind_ok]
  cases decode d <;> rfl

example : ∃ b, Body.fromJson (some [0x31]) = .ok b ∧ b.intoJson (fun d => if d = [0x31] then some 1 else none) cursorI [2, 2] =
    some (.ok 1) := ⟨_, rfl, by decide⟩

/-- The same for forms; the text is at most 2^63 - 1 bytes long. -/
theorem C64_form {α : Type} (decode : Str → Option α) (form : Option Str) :
    (form = none → Body.fromForm form = .err 500) ∧
    ∀ s, form = some s → ∃ b, Body.fromForm form = .ok b ∧ b.len = some (utf8Encode s).length ∧
      b.mime = some Mime.FORM ∧
      ∀ ns, (∀ n ∈ ns, n ≠ 0) → (utf8Encode s).length < ns.length → (utf8Encode s).length < 2 ^ 63 →
        b.intoForm decode cursorI ns = some (match decode s with | some a => .ok a | none => .err 422) := by
  refine ⟨by rintro rfl; rfl, ?_⟩
  rintro s rfl
  refine ⟨_, rfl, rfl, rfl, ?_⟩
  intro ns hns hl hm
  unfold Body.intoForm Body.intoString
  have hh := body_holds (I := cursorI)
    (b := (⟨utf8Encode s, some Mime.FORM, some (utf8Encode s).length, 0⟩ : Body (List Byte)))
    (fun l _ => Nat.zero_le _) (cursor_holds _)
  simp only [remaining, Nat.sub_zero, List.take_length] at hh
  rw [if_neg (by show ¬ (Body.capLimit ≤ (utf8Encode s).length); unfold Body.capLimit; omega),
    readToEnd_finishes Body.Inv (fun b n hb => cursor_body_ready b hb n) (fun l _ => Nat.zero_le _) hh hns hl]
  simp only [List.nil_append, Option.map_some, Res.bind_ok, utf8Decode_encode, Res.ofOption_some, Res.status_ok]
  cases decode s <;> rfl

example : (Body.fromForm (some s!!"a=b")).map (fun b => (b.len, b.mime)) = .ok (some 3, some Mime.FORM) := by decide +kernel

/-- Any body as JSON: what was read is decoded; a failed poll keeps status 500, a failed decoding gives 422. -/
theorem C64_into_json {α : Type} (decode : List Byte → Option α) {I : ReaderI σ} {b : Body σ} {d : List Byte}
    (hi : ∀ l, b.length = some l → b.bytesRead ≤ l) (h : Holds I b.reader d) {ns : List Nat}
    (hns : ∀ n ∈ ns, n ≠ 0) {r : Res α} (hr : b.intoJson decode I ns = some r) :
    r = Res.ofOption 422 (decode (remaining b d)) ∨
      (r = .err 500 ∧ .err ∈ (reads (Body.readerI I) b ns).1) := by
  unfold Body.intoJson at hr
  rw [Option.map_eq_some_iff] at hr
  obtain ⟨r', h1, rfl⟩ := hr
  rcases readToEnd_holds (body_holds hi h) hns h1 with rfl | ⟨rfl, h2⟩
  · exact .inl (by simp)
  · exact .inr ⟨rfl, h2⟩

example : ∃ b, Body.fromJson (some (utf8Encode s!!"[1]")) = .ok b ∧
    b.intoJson (fun d => if d = [] then none else some d.length) cursorI [2, 2, 2, 2] = some (.ok 3) :=
  ⟨_, rfl, by decide +kernel⟩

end HT
