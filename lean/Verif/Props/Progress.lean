import Verif.Spec.Progress
import Verif.Props.Body

/-! C123: reading a body ends when the body does. -/

namespace HT
open Spec

variable {σ τ : Type}

theorem reads_snoc (I : ReaderI σ) (s : σ) (ns : List Nat) (n : Nat) :
    reads I s (ns ++ [n]) = ((reads I s ns).1 ++ [(I.pollRead (reads I s ns).2 n).1], (I.pollRead (reads I s ns).2 n).2) := by
  induction ns generalizing s with
  | nil => rfl
  | cons m ns ih => simp only [List.cons_append, reads, ih]

/-- What is known of a body over a recorded reader. -/
structure Quiet (I : ReaderI σ) (s : σ) (l : Nat) (b : Body (σ × List Nat)) : Prop where
  length : b.length = some l
  state : b.reader.1 = (reads I s b.reader.2).2
  count : b.bytesRead = (delivered (reads I s b.reader.2).1).length
  bound : b.bytesRead ≤ l
  only : OnlyNeeded I s l b.reader.2

theorem onlyNeeded_snoc {I : ReaderI σ} {s : σ} {l n : Nat} {asked : List Nat} (h : OnlyNeeded I s l asked)
    (h1 : (delivered (reads I s asked).1).length < l) (h2 : n ≤ l - (delivered (reads I s asked).1).length) :
    OnlyNeeded I s l (asked ++ [n]) := by
  intro before m after e
  rcases List.eq_nil_or_concat after with rfl | ⟨after', x, rfl⟩
  · obtain ⟨rfl, hx⟩ := List.append_inj' e rfl
    cases hx
    exact ⟨h1, h2⟩
  · rw [List.concat_eq_append, ← List.cons_append, ← List.append_assoc] at e
    obtain ⟨e, -⟩ := List.append_inj' e rfl
    exact h before m after' e

theorem quiet_poll {I : ReaderI σ} (hI : Fits I) {s : σ} {l : Nat} {b : Body (σ × List Nat)} (h : Quiet I s l b) (n : Nat) :
    Quiet I s l ((Body.readerI (recorded I)).pollRead b n).2 ∧
    ((((Body.readerI (recorded I)).pollRead b n) = (.ok [], b) ∧ b.bytesRead = l) ∨
      (b.bytesRead < l ∧ ((Body.readerI (recorded I)).pollRead b n).2.reader.2 = b.reader.2 ++ [min (l - b.bytesRead) n] ∧
        ((Body.readerI (recorded I)).pollRead b n).1 = (I.pollRead b.reader.1 (min (l - b.bytesRead) n)).1)) := by
  change Quiet I s l (Body.pollRead _ b n).2 ∧ (Body.pollRead _ b n = _ ∧ _ ∨ _ ∧ (Body.pollRead _ b n).2.reader.2 = _ ∧ (Body.pollRead _ b n).1 = _)
  have hb := h.bound
  unfold Body.pollRead
  rw [h.length]
  simp only
  by_cases h0 : l = b.bytesRead
  · rw [if_pos h0]
    exact ⟨h, .inl ⟨rfl, h0.symm⟩⟩
  · rw [if_neg h0, if_neg (by omega)]
    set m := min (l - b.bytesRead) n with hm
    rcases hp : I.pollRead b.reader.1 m with ⟨p, r⟩
    have hr : (recorded I).pollRead b.reader m = (p, (r, b.reader.2 ++ [m])) := by
      show ((I.pollRead _ _).1, ((I.pollRead _ _).2, _)) = _
      rw [hp]
    rw [hr]
    have hq : ∀ k, k = b.bytesRead + (bytesOf p).length →
        Quiet I s l { b with reader := (r, b.reader.2 ++ [m]), bytesRead := k } := by
      intro k hk
      have e := reads_snoc I s b.reader.2 m
      rw [← h.state, hp] at e
      refine ⟨h.length, ?_, ?_, ?_, ?_⟩
      · simp only [e]
      · simp only [e]
        rw [hk, h.count]
        simp [delivered]
      · have : (bytesOf p).length ≤ m := by
          cases p with
          | ok bs => exact hI _ _ _ _ hp
          | _ => exact Nat.zero_le _
        show k ≤ l
        omega
      · have hc := h.count
        exact onlyNeeded_snoc h.only (by omega) (by omega)
    cases p with
    | ok bs => exact ⟨hq _ rfl, .inr ⟨by omega, rfl, rfl⟩⟩
    | pending => exact ⟨hq _ rfl, .inr ⟨by omega, rfl, rfl⟩⟩
    | err => exact ⟨hq _ rfl, .inr ⟨by omega, rfl, rfl⟩⟩
    | panic => exact ⟨hq _ rfl, .inr ⟨by omega, rfl, rfl⟩⟩

theorem quiet_new (I : ReaderI σ) (s : σ) (l : Nat) : Quiet I s l (Body.fromReader (s, []) (some l)) :=
  ⟨rfl, rfl, rfl, Nat.zero_le _, fun before n after e => by simp [Body.fromReader] at e⟩

theorem poll_count (I : ReaderI σ) (b : Body σ) (n : Nat) :
    ((Body.readerI I).pollRead b n).2.bytesRead = b.bytesRead + (bytesOf ((Body.readerI I).pollRead b n).1).length ∧
    ((Body.readerI I).pollRead b n).2.length = b.length := by
  change (Body.pollRead _ b n).2.bytesRead = _ + (bytesOf (Body.pollRead _ b n).1).length ∧ (Body.pollRead _ b n).2.length = _
  have : ∀ x : IoPoll × σ, (b.counted x).2.bytesRead = b.bytesRead + (bytesOf (b.counted x).1).length ∧
      (b.counted x).2.length = b.length := by
    rintro ⟨p, r⟩; cases p <;> exact ⟨rfl, rfl⟩
  unfold Body.pollRead
  split
  · exact this _
  · split
    · exact ⟨rfl, rfl⟩
    · split
      · exact ⟨rfl, rfl⟩
      · exact this _

theorem reads_count (I : ReaderI σ) (b : Body σ) (ns : List Nat) :
    (reads (Body.readerI I) b ns).2.bytesRead = b.bytesRead + (delivered (reads (Body.readerI I) b ns).1).length ∧
    (reads (Body.readerI I) b ns).2.length = b.length := by
  induction ns generalizing b with
  | nil => exact ⟨by simp [reads, delivered], rfl⟩
  | cons n ns ih =>
    obtain ⟨h1, h2⟩ := ih ((Body.readerI I).pollRead b n).2
    obtain ⟨h3, h4⟩ := poll_count I b n
    simp only [reads]
    refine ⟨?_, by rw [h2, h4]⟩
    rw [h1, h3, delivered_cons, List.length_append]; omega

theorem quiet_reads {I : ReaderI σ} (hI : Fits I) {s : σ} {l : Nat} {b : Body (σ × List Nat)} (h : Quiet I s l b) (ns : List Nat) :
    Quiet I s l (reads (Body.readerI (recorded I)) b ns).2 ∧
    (reads (Body.readerI (recorded I)) b ns).2.reader.2.length ≤ b.reader.2.length + ns.length ∧
    ((∀ n ∈ ns, 1 ≤ n) → (∀ n ∈ b.reader.2, 1 ≤ n) → ∀ n ∈ (reads (Body.readerI (recorded I)) b ns).2.reader.2, 1 ≤ n) ∧
    delivered (reads I s (reads (Body.readerI (recorded I)) b ns).2.reader.2).1 =
      delivered (reads I s b.reader.2).1 ++ delivered (reads (Body.readerI (recorded I)) b ns).1 := by
  induction ns generalizing b with
  | nil => exact ⟨h, by simp [reads], fun _ hb => hb, by simp [reads, delivered]⟩
  | cons n ns ih =>
    obtain ⟨q, hc⟩ := quiet_poll hI h n
    obtain ⟨i1, i2, i3, i4⟩ := ih q
    simp only [reads]
    refine ⟨i1, ?_, fun hn hb => i3 (fun m hm => hn m (by simp [hm])) ?_, ?_⟩
    · rcases hc with ⟨e, -⟩ | ⟨-, e, -⟩
      · rw [e] at i2 ⊢; simp at i2 ⊢; omega
      · rw [e] at i2; simp at i2 ⊢; omega
    · rcases hc with ⟨e, -⟩ | ⟨hlt, e, -⟩
      · rw [e]; exact hb
      · rw [e]
        intro m hm
        rcases List.mem_append.mp hm with hm | hm
        · exact hb m hm
        · have := hn n (by simp)
          simp at hm
          omega
    · rw [i4, delivered_cons, ← List.append_assoc]
      congr 1
      rcases hc with ⟨e, -⟩ | ⟨-, e, e'⟩
      · rw [e]; simp [bytesOf]
      · rw [e, e', reads_snoc, h.state]
        simp [delivered]

/-- Keeping the record changes nothing. -/
theorem recorded_reads (I : ReaderI σ) (b : Body (σ × List Nat)) (ns : List Nat) :
    (reads (Body.readerI (recorded I)) b ns).1 = (reads (Body.readerI I) ⟨b.reader.1, b.mime, b.length, b.bytesRead⟩ ns).1 := by
  induction ns generalizing b with
  | nil => rfl
  | cons n ns ih =>
    have key : ∃ p b' , (Body.readerI (recorded I)).pollRead b n = (p, b') ∧
        (Body.readerI I).pollRead ⟨b.reader.1, b.mime, b.length, b.bytesRead⟩ n = (p, ⟨b'.reader.1, b'.mime, b'.length, b'.bytesRead⟩) := by
      change ∃ p b', Body.pollRead _ b n = _ ∧ Body.pollRead _ _ n = _
      have : ∀ m, ∃ p b', b.counted ((recorded I).pollRead b.reader m) = (p, b') ∧
          Body.counted ⟨b.reader.1, b.mime, b.length, b.bytesRead⟩ (I.pollRead b.reader.1 m) =
            (p, ⟨b'.reader.1, b'.mime, b'.length, b'.bytesRead⟩) := by
        intro m
        change ∃ p b', b.counted ((I.pollRead b.reader.1 m).1, ((I.pollRead b.reader.1 m).2, _)) = _ ∧ _
        rcases I.pollRead b.reader.1 m with ⟨p, r⟩
        cases p <;> exact ⟨_, _, rfl, rfl⟩
      unfold Body.pollRead
      cases hl : b.length with
      | none => simp only; rw [← hl]; exact this _
      | some l =>
        simp only
        split
        · exact ⟨_, _, rfl, by rw [← hl]⟩
        · split
          · exact ⟨_, _, rfl, by rw [← hl]⟩
          · rw [← hl]; exact this _
    obtain ⟨p, b', h1, h2⟩ := key
    simp only [reads, h1, h2, ih]

/-- A body of a declared length makes of its reader only the polls it needs: none once the declared number of bytes has been
delivered, none for more than is left, none with an empty buffer of its own making; and what it delivers is what these polls
delivered. So it never waits for anything behind the body. -/
theorem C123_only_needed {I : ReaderI σ} (hI : Fits I) (s : σ) (l : Nat) (ns : List Nat) :
    let r := reads (Body.readerI (recorded I)) (Body.fromReader (s, []) (some l)) ns
    let asked := r.2.intoReader.2
    r.1 = (reads (Body.readerI I) (Body.fromReader s (some l)) ns).1 ∧
      OnlyNeeded I s l asked ∧ asked.length ≤ ns.length ∧ ((∀ n ∈ ns, 1 ≤ n) → ∀ n ∈ asked, 1 ≤ n) ∧
      delivered r.1 = delivered (reads I s asked).1 ∧ r.2.intoReader.1 = (reads I s asked).2 := by
  obtain ⟨q, h1, h2, h3⟩ := quiet_reads hI (quiet_new I s l) ns
  have h1 : (reads (Body.readerI (recorded I)) (Body.fromReader (s, []) (some l)) ns).2.reader.2.length ≤ 0 + ns.length := h1
  exact ⟨recorded_reads I _ ns, q.only, by rw [Nat.zero_add] at h1; exact h1, fun hn => h2 hn (by simp [Body.fromReader]), h3.symm,
    q.state⟩

example : (reads (Body.readerI (recorded cursorI)) (Body.fromReader ([1, 2, 3, 4, 5], []) (some 3)) [2, 2, 2, 2]).2.intoReader =
    ([4, 5], [2, 1]) := by decide

/-- The same for two bodies of declared lengths one after another: neither reader is polled for anything behind its body. -/
theorem C123_chain_only_needed {I : ReaderI σ} {J : ReaderI τ} (hI : Fits I) (hJ : Fits J) (s : σ) (t : τ) (l m : Nat) (ns : List Nat)
    (c : Body (Body (σ × List Nat) × Body (τ × List Nat) × Bool))
    (hc : (Body.fromReader (s, []) (some l)).chain (Body.fromReader (t, []) (some m)) = .ok c) :
    let r := (reads (Body.readerI (Body.chainReaderI (recorded I) (recorded J))) c ns).2.intoReader
    OnlyNeeded I s l r.1.reader.2 ∧ OnlyNeeded J t m r.2.1.reader.2 ∧
      (r.2.2 = false → r.2.1.reader.2 = []) := by
  let P : Body (σ × List Nat) × Body (τ × List Nat) × Bool → Prop := fun x =>
    Quiet I s l x.1 ∧ Quiet J t m x.2.1 ∧ (x.2.2 = false → x.2.1.reader.2 = [])
  have inner : ∀ x n, P x → P ((Body.chainReaderI (recorded I) (recorded J)).pollRead x n).2 := by
    rintro ⟨a, b, done⟩ n ⟨h1, h2, h3⟩
    have q1 := (quiet_poll hI h1 n).1
    have q2 := (quiet_poll hJ h2 n).1
    simp only at h1 h2 h3 q1 q2
    unfold Body.chainReaderI chainI
    simp only
    cases done with
    | true => exact ⟨h1, q2, fun h => by cases h⟩
    | false =>
      simp only [Bool.false_eq_true, if_false]
      generalize (Body.readerI (recorded I)).pollRead a n = x at q1
      obtain ⟨p, a'⟩ := x
      cases p with
      | ok bs =>
        simp only
        split
        · exact ⟨q1, q2, fun h => by cases h⟩
        · exact ⟨q1, h2, h3⟩
      | pending => exact ⟨q1, h2, h3⟩
      | err => exact ⟨q1, h2, h3⟩
      | panic => exact ⟨q1, h2, h3⟩
  have outer : ∀ (ns : List Nat) (b : Body (Body (σ × List Nat) × Body (τ × List Nat) × Bool)), P b.reader →
      P (reads (Body.readerI (Body.chainReaderI (recorded I) (recorded J))) b ns).2.reader := by
    intro ns
    induction ns with
    | nil => exact fun b h => h
    | cons n ns ih =>
      intro b h
      simp only [reads]
      apply ih
      change P (Body.pollRead _ b n).2.reader
      have hcnt : ∀ x, P x.2 → P (b.counted x).2.reader := by
        rintro ⟨p, x⟩ hx; cases p <;> exact hx
      unfold Body.pollRead
      split
      · exact hcnt _ (inner _ _ h)
      · split
        · exact h
        · split
          · exact h
          · exact hcnt _ (inner _ _ h)
  have h0 : P c.reader := by
    have : c.reader = (Body.fromReader (s, []) (some l), Body.fromReader (t, []) (some m), false) := by
      rw [chain_ok (fun _ _ => Nat.zero_le _) (fun _ _ => Nat.zero_le _)] at hc
      cases hc
      rfl
    rw [this]
    exact ⟨quiet_new I s l, quiet_new J t m, fun _ => rfl⟩
  obtain ⟨q1, q2, q3⟩ := outer ns c h0
  exact ⟨q1.only, q2.only, q3⟩

example : ∃ c, (Body.fromReader (([1, 2, 3] : List Byte), []) (some 2)).chain (Body.fromReader (([4, 5, 6] : List Byte), []) (some 1)) = .ok c ∧
    (reads (Body.readerI (Body.chainReaderI (recorded cursorI) (recorded cursorI))) c [4, 4, 4]).2.intoReader.1.reader = ([3], [2]) ∧
    (reads (Body.readerI (Body.chainReaderI (recorded cursorI) (recorded cursorI))) c [4, 4, 4]).2.intoReader.2.1.reader = ([5, 6], [1]) :=
  ⟨_, rfl, by decide, by decide⟩

/-- Once the declared number of bytes has been delivered every poll is ready with nothing, and changes nothing. -/
theorem C123_end_is_ready {I : ReaderI σ} (s : σ) (l : Nat) (ns : List Nat)
    (hd : (delivered (reads (Body.readerI I) (Body.fromReader s (some l)) ns).1).length = l) (n : Nat) :
    (Body.readerI I).pollRead (reads (Body.readerI I) (Body.fromReader s (some l)) ns).2 n =
      (.ok [], (reads (Body.readerI I) (Body.fromReader s (some l)) ns).2) := by
  obtain ⟨h1, h2⟩ := reads_count I (Body.fromReader s (some l)) ns
  generalize reads (Body.readerI I) (Body.fromReader s (some l)) ns = r at *
  change Body.pollRead I r.2 n = _
  have h2 : r.2.length = some l := h2
  have h1 : r.2.bytesRead = 0 + _ := h1
  unfold Body.pollRead
  rw [h2]
  simp only
  rw [if_pos (by omega)]

example : (Body.readerI cursorI).pollRead (reads (Body.readerI cursorI) (Body.fromReader [1, 2, 3] (some 2)) [1, 7]).2 9 =
    (.ok [], (reads (Body.readerI cursorI) (Body.fromReader [1, 2, 3] (some 2)) [1, 7]).2) :=
  C123_end_is_ready [1, 2, 3] 2 [1, 7] (by decide) 9

theorem readToEnd_ready {I : ReaderI σ} (K : Nat) {s : σ} {ns : List Nat} (hK : (delivered (reads I s ns).1).length ≤ K)
    (hr : K < readyPolls (reads I s ns).1) (acc : List Byte) : ∃ r, readToEnd I s ns acc = some r := by
  induction ns generalizing s K acc with
  | nil => simp [reads, readyPolls] at hr
  | cons n ns ih =>
    rw [readToEnd]
    simp only [reads] at hK hr
    generalize I.pollRead s n = x at *
    obtain ⟨p, s'⟩ := x
    rw [delivered_cons, List.length_append] at hK
    cases p with
    | pending => exact ih K (by simpa [bytesOf] using hK) hr acc
    | err => exact ⟨_, rfl⟩
    | panic => exact ⟨_, rfl⟩
    | ok bs =>
      simp only
      by_cases hb : bs = []
      · rw [if_pos hb]; exact ⟨_, rfl⟩
      · rw [if_neg hb]
        have h1 : 1 ≤ bs.length := List.length_pos_of_ne_nil hb
        simp only [readyPolls, bytesOf] at hr hK
        exact ih (K - bs.length) (by omega) (by omega) _

/-- Reading a body of a declared length to its end takes at most as many ready polls as there are bytes left, and one more,
whatever its reader does (even if that never ends). -/
theorem C123_declared_ends {I : ReaderI σ} (hI : Fits I) (b : Body σ) (l : Nat) (hl : b.length = some l) (hb : b.bytesRead ≤ l)
    (ns : List Nat) (hr : l - b.bytesRead < readyPolls (reads (Body.readerI I) b ns).1) :
    (∃ r, b.intoBytes I ns = some r) ∧ ∃ r, b.intoString I ns = some r := by
  have hi : b.Inv := by intro l' hl'; rw [hl] at hl'; cases hl'; exact hb
  have h1 := (body_reads_bound hI b hi ns).1 l hl
  obtain ⟨r, h⟩ := readToEnd_ready (l - b.bytesRead) (by omega) hr []
  unfold Body.intoBytes Body.intoString
  rw [h]
  refine ⟨⟨_, rfl⟩, ?_⟩
  split <;> exact ⟨_, rfl⟩

/-- A reader that has more and more. -/
def endlessI : ReaderI Unit where
  pollRead _ n := (.ok (List.replicate n 7), ())
  fillBuf _ := (.ok [7], ())
  consume _ _ := ()

example : (Body.fromReader () (some 5)).intoBytes endlessI [2, 2, 2, 2, 2, 2] = some (.ok [7, 7, 7, 7, 7]) := by decide
example : Fits endlessI ∧ 5 < readyPolls (reads (Body.readerI endlessI) (Body.fromReader () (some 5)) [2, 2, 2, 2, 2, 2]).1 :=
  ⟨fun s n bs s' h => by cases h; simp, by decide⟩

/-- Reading any body to its end takes at most as many ready polls as it has bytes left, and one more, and gives these bytes
unless a poll fails. -/
theorem C123_ends {I : ReaderI σ} {b : Body σ} {d : List Byte} (hi : ∀ l, b.length = some l → b.bytesRead ≤ l)
    (h : Holds I b.reader d) {ns : List Nat} (hns : ∀ n ∈ ns, n ≠ 0)
    (hr : (remaining b d).length < readyPolls (reads (Body.readerI I) b ns).1) :
    b.intoBytes I ns = some (.ok (remaining b d)) ∨
      (b.intoBytes I ns = some (.err 422) ∧ .err ∈ (reads (Body.readerI I) b ns).1) := by
  have h1 := (C08_any_state hi h ns).2.1.length_le
  obtain ⟨r, h2⟩ := readToEnd_ready _ h1 hr []
  have h3 : b.intoBytes I ns = some (r.status 422) := by
    unfold Body.intoBytes; rw [h2]; rfl
  rcases C11_into_bytes hi h hns h3 with e | ⟨e, he⟩
  · rw [h3, e]; exact .inl rfl
  · rw [h3, e]; exact .inr ⟨rfl, he⟩

/-- A reader that is pending at every other poll. -/
def halfI : ReaderI (Bool × List Byte) where
  pollRead x n := if x.1 then (.ok (x.2.take n), (false, x.2.drop n)) else (.pending, (true, x.2))
  fillBuf x := (.ok x.2, x)
  consume x k := (x.1, x.2.drop k)

example : readyPolls (reads (Body.readerI halfI) (Body.fromReader (false, [1, 2]) none) [1, 1, 1, 1, 1, 1]).1 = 3 ∧
    (Body.fromReader (false, [1, 2]) none).intoBytes halfI [1, 1, 1, 1, 1, 1] = some (.ok [1, 2]) := by decide

/-- Not held: a body that ends before its declared length is not reported. Whatever is there counts as all of it. -/
theorem C123_violated_truncated (d : List Byte) (l : Nat) (hl : d.length < l) (ns : List Nat) (hns : ∀ n ∈ ns, n ≠ 0)
    (hlen : d.length < ns.length) : (Body.fromReader d (some l)).intoBytes cursorI ns = some (.ok d) := by
  have hd : remaining (Body.fromReader d (some l)) d = d := by
    simp [remaining, Body.fromReader, List.take_of_length_le (Nat.le_of_lt hl)]
  unfold Body.intoBytes
  rw [readToEnd_finishes Body.Inv (fun b n hb => cursor_body_ready b hb n) (fun l _ => Nat.zero_le _)
    (body_holds (I := cursorI) (b := Body.fromReader d (some l)) (fun _ _ => Nat.zero_le _) (cursor_holds d)) hns
    (by rw [hd]; exact hlen), hd]
  rfl

example : (Body.fromReader [1, 2] (some 1000)).intoBytes cursorI [8, 8, 8] = some (.ok [1, 2]) :=
  C123_violated_truncated _ _ (by decide) _ (by decide) (by decide)

/-- What is read is the declared length exactly if the reader had that much; then it is the beginning of what the reader had. So
a receiver that compares the two notices. -/
theorem C123_complete_partial {I : ReaderI σ} {s : σ} {d x : List Byte} (h : Holds I s d) (l : Nat) {ns : List Nat}
    (hns : ∀ n ∈ ns, n ≠ 0) (hr : (Body.fromReader s (some l)).intoBytes I ns = some (.ok x)) :
    (x.length = l ↔ l ≤ d.length) ∧ (x.length = l → x = d.take l) := by
  have : x = d.take l := by
    rcases C11_into_bytes (b := Body.fromReader s (some l)) (fun _ _ => Nat.zero_le _) h hns hr with e | ⟨e, -⟩
    · cases e; rfl
    · cases e
  rw [this, List.length_take]
  exact ⟨by omega, fun _ => rfl⟩

example : (Body.fromReader [1, 2, 3] (some 2)).intoBytes cursorI [8, 8, 8] = some (.ok [1, 2]) := by decide

end HT
