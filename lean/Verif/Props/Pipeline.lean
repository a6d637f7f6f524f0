import Verif.Spec.Pipeline
import Verif.Props.Body
import Verif.Props.Simple

/-! C120: several messages on one connection. -/

namespace HT
open Spec

variable {σ τ : Type}

/-- After reads that ended, everything was delivered. -/
theorem holds_ended {I : ReaderI σ} {s : σ} {d : List Byte} (h : Holds I s d) {ns : List Nat}
    (he : Ended (reads I s ns).1 ns) : delivered (reads I s ns).1 = d := by
  obtain ⟨h1, h2⟩ := he
  rcases nil_or_snoc ns with rfl | ⟨ms, n, rfl⟩
  · cases h1
  · rw [reads_append] at h1 ⊢
    simp only [reads, List.getLast?_append, List.getLast?_singleton] at h1
    simp only [List.getLast?_append, List.getLast?_singleton] at h2
    rcases hp : I.pollRead (reads I s ms).2 n with ⟨p, s'⟩
    rw [hp] at h1
    simp only [Option.some_or, Option.some.injEq] at h1 h2
    subst h1
    have := ((h ms).2.2 n [] s' hp).2 (fun e => h2 (by rw [e])) rfl
    simp only [reads, hp, delivered, List.flatMap_append] at this ⊢
    simp only [List.flatMap_cons, bytesOf, List.flatMap_nil, List.append_nil]
    exact this

/-- A receiver that reads a body to its end gets exactly the stated number of bytes, or what there is if there are
fewer, and leaves the connection right behind them; without a stated length it gets everything. -/
theorem C120_take {I : ReaderI σ} (hI : Fits I) {s t : σ} {w d : List Byte} (hw : Holds I s w) {h : Headers} {ns : List Nat}
    (ht : Takes I s h ns d t) : ∃ n, ContentLength.fromHeaders h = .ok n ∧
      d = w.take (n.getD w.length) ∧ Holds I t (w.drop (n.getD w.length)) := by
  obtain ⟨hn, he⟩ := ht
  rename_i n
  refine ⟨n, hn, ?_⟩
  have hd : delivered (reads (Body.readerI I) (Body.fromReader s n) ns).1 = w.take (n.getD w.length) := by
    cases n with
    | none => rw [holds_ended (C08_no_length hw) he]; simp
    | some l => exact holds_ended (C08_exact hw l) he
  refine ⟨hd, ?_⟩
  obtain ⟨d', h1, h2⟩ := C08_into_reader hI hw n ns
  have : d' = w.drop (n.getD w.length) := by
    rw [hd] at h1
    exact List.append_cancel_left (h1.symm.trans (List.take_append_drop _ w).symm)
  rw [← this]
  exact h2

example : Takes cursorI [1, 2, 3, 9] [(s!!"content-length", [s!!"2"])] [1, 7, 7] [1, 2] [3, 9] :=
  .mk (n := some 2) (by decide +kernel) ⟨by decide, by decide⟩

/-- What an honest body sends has the stated length. -/
theorem C120_send {J : ReaderI τ} {h h' : Headers} {b : Body τ} {d : List Byte} (hb : Honest J b)
    (hs : Sends J h b h' d) : ContentLength.fromHeaders h' = .ok (some d.length) := by
  obtain ⟨l, e, h1, h2, h3, h4, h5⟩ := hb
  obtain ⟨ha, ns, he, rfl⟩ := hs
  have hd := holds_ended (C08_any_state (fun l _ => by rw [h2]; exact Nat.zero_le _) h3) he
  rw [hd]
  have hl : (remaining b e).length = l := by
    unfold remaining
    rw [h1, h2]
    simp [Nat.min_eq_left h4]
  rw [hl]
  obtain ⟨h'', v, e1, -, -, e2⟩ := C42_roundtrip l h5 h
  unfold announce Body.len at ha
  rw [h1] at ha
  simp only at ha
  rw [e1] at ha
  cases ha
  exact e2

example : ContentLength.fromHeaders [(s!!"content-length", [s!!"2"])] = .ok (some [1, 2].length) := by decide +kernel

/-- Any number of messages with honest bodies on one connection, in front of anything else: a receiver that reads every
body to its end, however, gets exactly the bytes that were sent, message by message, and then the rest. -/
theorem C120_pipeline {I : ReaderI σ} (hI : Fits I) {J : ReaderI τ} {msgs : List (Headers × Body τ)}
    (hm : ∀ m ∈ msgs, Honest J m.2) {sent : List (Headers × List Byte)}
    (hs : List.Forall₂ (fun m x => Sends J m.1 m.2 x.1 x.2) msgs sent) {s t : σ} {x : List Byte}
    (hw : Holds I s ((sent.map Prod.snd).flatten ++ x)) {ds : List (List Byte)}
    (ht : TakesAll I s (sent.map Prod.fst) ds t) : ds = sent.map Prod.snd ∧ Holds I t x := by
  induction hs generalizing s ds with
  | nil => cases ht; exact ⟨rfl, hw⟩
  | @cons m y ms ys h1 h2 ih =>
    cases ht with
    | cons ht hts =>
      obtain ⟨n, hn, hd, ht'⟩ := C120_take hI hw ht
      rw [C120_send (hm m (by simp)) h1] at hn
      cases hn
      simp only [List.map_cons, List.flatten_cons, List.append_assoc, Option.getD_some, List.take_left, List.drop_left] at hd ht'
      obtain ⟨e1, e2⟩ := ih (fun m' h => hm m' (by simp [h])) ht' hts
      refine ⟨?_, e2⟩
      rw [e1, hd]
      rfl

/-- Two bodies, read with buffers of different sizes, and one byte more. -/
example : TakesAll cursorI [1, 2, 3, 9] [[(s!!"content-length", [s!!"2"])], [(s!!"content-length", [s!!"1"])]]
    [[1, 2], [3]] [9] :=
  .cons (.mk (n := some 2) (ns := [1, 7, 7]) (by decide +kernel) ⟨by decide, by decide⟩)
    (.cons (.mk (n := some 1) (ns := [4, 4]) (by decide +kernel) ⟨by decide, by decide⟩) .nil)

example : Fits cursorI := by
  intro s n bs s' h
  cases h
  exact List.length_take_le n s

/-- Bodies made from bytes are honest. -/
theorem C120_bytes (d : List Byte) (h : d.length < 2 ^ 64) : Honest cursorI (Body.fromBytes d) :=
  ⟨d.length, d, rfl, rfl, cursor_holds d, Nat.le_refl _, h⟩

example : Sends cursorI [] (Body.fromBytes [1, 2]) [(s!!"content-length", [s!!"2"])] [1, 2] :=
  ⟨by decide +kernel, [1, 7, 7], ⟨by decide, by decide⟩, by decide⟩

/-- If a body states more than its reader has, the receiver takes the beginning of the next message for its end. -/
theorem C120_short {I : ReaderI σ} (hI : Fits I) {J : ReaderI τ} {h h' : Headers} {b : Body τ} {l : Nat} {e : List Byte}
    (h1 : b.length = some l) (h2 : b.bytesRead = 0) (h3 : Holds J b.reader e) (h4 : e.length < l) (h5 : l < 2 ^ 64)
    {d : List Byte} (hs : Sends J h b h' d) {s t : σ} {x : List Byte} (hw : Holds I s (d ++ x)) {ns : List Nat}
    {got : List Byte} (ht : Takes I s h' ns got t) :
    d = e ∧ got = e ++ x.take (l - e.length) ∧ Holds I t (x.drop (l - e.length)) := by
  obtain ⟨ha, ms, he, rfl⟩ := hs
  have hd : delivered (reads (Body.readerI J) b ms).1 = e := by
    rw [holds_ended (C08_any_state (fun l _ => by rw [h2]; exact Nat.zero_le _) h3) he]
    unfold remaining
    rw [h1, h2]
    exact List.take_of_length_le (by simp; omega)
  rw [hd] at hw ⊢
  obtain ⟨h'', v, e1, -, -, e2⟩ := C42_roundtrip l h5 h
  unfold announce Body.len at ha
  rw [h1] at ha
  simp only at ha
  rw [e1] at ha
  cases ha
  obtain ⟨n, hn, g1, g2⟩ := C120_take hI hw ht
  rw [e2] at hn
  cases hn
  simp only [Option.getD_some] at g1 g2
  rw [List.take_append, List.take_of_length_le (by omega)] at g1
  rw [List.drop_append, List.drop_of_length_le (by omega), List.nil_append] at g2
  exact ⟨rfl, g1, g2⟩

example : Sends cursorI [] (Body.fromReader [1, 2] (some 3)) [(s!!"content-length", [s!!"3"])] [1, 2] ∧
    Takes cursorI [1, 2, 8, 9] [(s!!"content-length", [s!!"3"])] [4, 4] [1, 2, 8] [9] :=
  ⟨⟨by decide +kernel, [1, 7, 7], ⟨by decide, by decide⟩, by decide⟩,
    .mk (n := some 3) (by decide +kernel) ⟨by decide, by decide⟩⟩

end HT
