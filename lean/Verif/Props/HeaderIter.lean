import Verif.Model.HeaderIter
import Verif.Props.Headers
import Verif.Lemmas.Mime

/-! Iterating over headers, and pairs of strings as headers: C80, C81. -/

namespace HT
open Spec

theorem MapIter.take_eq {α : Type} (n : Nat) (it : MapIter α) :
    it.take n = (it.left.take n, ⟨it.left.drop n⟩) := by
  induction n generalizing it with
  | zero => simp [MapIter.take]
  | succ n ih =>
    obtain ⟨l⟩ := it
    cases l with
    | nil => simp [MapIter.take, MapIter.next]
    | cons a l => simp [MapIter.take, MapIter.next, ih]

/-- Names are stored in lower case, whatever the history. -/
theorem HOp.keys_run (h : List HOp) : ∀ k vs, (k, vs) ∈ HOp.run h → isAscii k = true ∧ lower k = k := by
  have hl : ∀ n, isAscii n = true → isAscii (lower n) = true ∧ lower (lower n) = lower n := fun n hn =>
    ⟨by simpa using hn, by simp⟩
  induction h using List.reverseRecOn with
  | nil => intro k vs hm; simp [HOp.run, Headers.new] at hm
  | append_singleton h op ih =>
    rw [HOp.run_append]
    exact HOp.forall_step (P := fun k _ => isAscii k = true ∧ lower k = k) op ih (fun n a vs _ hn _ => hl n hn)
      (fun n a vs vs' _ _ _ h => h) (fun n vs vs' _ h => h) (fun n i v vs' _ h => h) (fun n o vs' _ h => h)

/-- However many items have been taken, the size hint says exactly how many are still to come, and after the last one
there is none, ever. (The iterator over names keeps the default hint, which says nothing.) -/
theorem C80_size_hint {α : Type} (it : MapIter α) (n : Nat) :
    (it.take n).2.sizeHint = (it.left.length - n, some (it.left.length - n)) ∧
      (it.take n).2.sizeHintNames = (0, none) ∧
      (∀ k, ((it.take n).2.take k).1.length = min k (it.left.length - n)) ∧
      (it.left.length ≤ n → (it.take n).1 = it.left ∧ ∀ k, ((it.take n).2.take k).2.next.1 = none) := by
  simp only [MapIter.take_eq, MapIter.sizeHint, List.length_drop, List.length_take]
  refine ⟨trivial, rfl, fun k => trivial, fun h => ⟨List.take_of_length_le h, fun k => ?_⟩⟩
  rw [List.drop_of_length_le h, List.drop_nil]
  rfl

example : ((MapIter.mk [1, 2, 3]).take 2).2.sizeHint = (1, some 1) ∧ ((MapIter.mk [1, 2, 3]).take 2).2.next.1 = some 3 := by
  decide

/-- Whatever the history and the visiting order: iterating visits each header that the history leaves present exactly
once, under its lower-case name and with its whole list of values, and nothing else. Iterating over names visits
the same names in the same order. -/
theorem C80_iter (h : List HOp) (m : Headers) (hp : (HOp.run h).Perm m) (k : Nat) (hk : m.length ≤ k) :
    (∀ n vs, (n, vs) ∈ ((Headers.iter m).take k).1 ↔ Ascii n ∧ NoUpper n ∧ lookup h.reverse n = some vs) ∧
      (((Headers.iter m).take k).1.map Prod.fst).Nodup ∧
      ((Headers.names m).take k).1 = ((Headers.iter m).take k).1.map Prod.fst ∧
      (Headers.iter m).sizeHint = (((Headers.iter m).take k).1.length, some ((Headers.iter m).take k).1.length) := by
  have hwf := (HOp.wf_run h).perm hp
  simp only [MapIter.take_eq, Headers.iter, Headers.names, MapIter.sizeHint]
  rw [List.take_of_length_le hk, List.take_of_length_le (by simpa [FMap.keys] using hk)]
  refine ⟨fun n vs => ?_, hwf, rfl, rfl⟩
  rw [← hp.mem_iff, spec_ascii_iff]
  constructor
  · intro hm
    obtain ⟨h1, h2⟩ := HOp.keys_run h n vs hm
    refine ⟨h1, h2 ▸ Mime.noUpper_lower n, ?_⟩
    rw [← HOp.get_run h h1, h2]
    exact (FMap.get_eq_some_iff (HOp.wf_run h) n vs).mpr hm
  · rintro ⟨h1, h2, h3⟩
    rw [← HOp.get_run h h1, Mime.lower_of_noUpper h2] at h3
    exact (FMap.get_eq_some_iff (HOp.wf_run h) n vs).mp h3

example : ((Headers.iter (HOp.run [.insert s!!"Host" (.str s!!"a"), .append s!!"X" (.str s!!"b"),
    .append s!!"HOST" (.str s!!"c")])).take 5).1 = [(s!!"host", [s!!"a", s!!"c"]), (s!!"x", [s!!"b"])] := by decide

/-- Inserting everything that was visited, in any order, into an empty collection gives a collection in which every
lookup answers as in the one visited. -/
theorem C80_rebuild (h : List HOp) (l : List (HeaderName × HeaderValues)) (hp : (HOp.run h).Perm l) (s : Str) :
    (l.foldl (fun acc e => (acc.insert e.1 (.values e.2)).1) Headers.new).getStr s =
      if Ascii s then .ok (lookup h.reverse s) else .panic := by
  have key : ∀ (l : List (HeaderName × HeaderValues)) (acc : Headers), (l.map Prod.fst).Nodup →
      ∀ n, (l.foldl (fun acc e => (acc.insert e.1 (.values e.2)).1) acc).get n = (FMap.get l n).or (acc.get n) := by
    intro l
    induction l with
    | nil => intro acc _ n; simp
    | cons e l ih =>
      intro acc hnd n
      rw [List.map_cons, List.nodup_cons] at hnd
      rw [List.foldl_cons, ih _ hnd.2]
      have hset : ∀ x, ((acc.insert e.1 (.values e.2)).1).get x = if e.1 = x then some e.2 else acc.get x := by
        intro x
        simp only [Headers.insert, writeValues_eq, writeValues]
        exact FMap.get_set acc e.1 x e.2
      rw [hset]
      simp only [FMap.get]
      by_cases he : e.1 = n
      · rw [if_pos he, if_pos he]
        have : FMap.get l n = none := by
          rw [FMap.get_eq_none_iff, ← he]; exact hnd.1
        rw [this]; rfl
      · rw [if_neg he, if_neg he]
  have hwf := (HOp.wf_run h).perm hp
  have hg : ∀ n, (l.foldl (fun acc e => (acc.insert e.1 (.values e.2)).1) Headers.new).get n =
      (HOp.run h).get n := by
    intro n
    rw [key l Headers.new hwf n]
    have h2 : Headers.get Headers.new n = none := rfl
    rw [h2, Option.or_none]
    exact FMap.get_perm (HOp.wf_run h) hp n
  rw [← C02_get_run]
  unfold Headers.getStr
  congr 1
  funext n
  exact hg n

example : ([(s!!"x", [s!!"b"]), (s!!"host", [s!!"a", s!!"c"])].foldl
    (fun acc e => (acc.insert e.1 (.values e.2)).1) Headers.new).getStr s!!"Host" = .ok (some [s!!"a", s!!"c"]) := by decide +kernel

/-- Changing values through the mutable iterator: every present list is replaced once by what the loop body makes of
its name and old content; names, their order and absent headers stay. -/
theorem C80_iter_mut (h : List HOp) (m : Headers) (hp : (HOp.run h).Perm m)
    (f : HeaderName → HeaderValues → HeaderValues) :
    ((m.iterMut f).names).left = m.names.left ∧
      ∀ s, Ascii s → NoUpper s → (m.iterMut f).getStr s = .ok ((lookup h.reverse s).map (f s)) := by
  constructor
  · simp [Headers.iterMut, Headers.names, FMap.keys, Function.comp_def]
  · intro s hs hu
    have key : ∀ (m : Headers) n, Headers.get (m.iterMut f) n = (Headers.get m n).map (f n) := by
      intro m n
      induction m with
      | nil => rfl
      | cons e m ih =>
        simp only [Headers.iterMut, Headers.get, List.map_cons, FMap.get] at ih ⊢
        by_cases he : e.1 = n
        · rw [if_pos he, if_pos he, he]; rfl
        · rw [if_neg he, if_neg he]; exact ih
    have hs' := (spec_ascii_iff s).mp hs
    unfold Headers.getStr
    rw [HeaderName.ofStr_ascii hs', Res.map_ok, Mime.lower_of_noUpper hu, key]
    have : Headers.get m s = Headers.get (HOp.run h) s := FMap.get_perm (HOp.wf_run h) hp s
    rw [this, ← HOp.get_run h hs', Mime.lower_of_noUpper hu]

example : (Headers.iterMut (HOp.run [.insert s!!"A" (.str s!!"1")]) fun _ vs => vs ++ vs).getStr s!!"a" =
    .ok (some [s!!"1", s!!"1"]) := by decide

/-- A pair of strings is a header: applying it panics exactly if one of the two has a non-ASCII character; otherwise it
does what inserting the value under the name does, which then cannot fail. -/
theorem C81_pair (h : Headers) (n v : Str) :
    applyPair h (n, v) =
      if Ascii n ∧ Ascii v then .ok (h.insertStr n (.str v)).1 else .panic := by
  simp only [spec_ascii_iff]
  unfold applyPair pairName
  by_cases hn : isAscii n = true
  · rw [HeaderName.ofStr_ascii hn]
    simp only [Res.bind, Headers.insertStr, HeaderName.ofStr_ascii hn]
    unfold applyHeader pairValue HeaderValue.fromBytes
    rw [all_utf8Encode]
    by_cases hv : isAscii v = true
    · rw [if_pos hv, if_pos ⟨hn, hv⟩]
      have hb : ((utf8Encode v).map fun b => Char.ofNat b.val) = v := by
        rw [utf8Encode_ascii hv, List.map_map]
        conv_rhs => rw [← List.map_id v]
        apply List.map_congr_left
        intro c hc
        have := List.all_eq_true.mp hv c hc
        simp only [isAsciiC, decide_eq_true_eq] at this
        simp only [Function.comp, id]
        rw [byte_val (by omega), ofNat_toNat]
      simp only [hb, Res.bind, Headers.insert, HvArg.toValues, HeaderValue.fromStr, if_pos hv]
      rfl
    · rw [if_neg hv, if_neg (fun h => hv h.2)]
      rfl
  · rw [HeaderName.ofStr_not_ascii (by simpa using hn), if_neg (fun h => hn h.1)]
    rfl

example : applyPair Headers.new (s!!"Content-Length", s!!"12") = .ok [(s!!"content-length", [s!!"12"])] ∧
    applyPair Headers.new (s!!"a", s!!"é") = .panic := by decide

/-- Afterwards the name, however it is written, has that one value, and every other header is as before. -/
theorem C81_effect (h : List HOp) (n v : Str) (hn : Ascii n) (hv : Ascii v) :
    ∃ h', applyPair (HOp.run h) (n, v) = .ok h' ∧ ∀ s, Ascii s →
      h'.getStr s = .ok (if sameName n s then some [v] else lookup h.reverse s) := by
  rw [C81_pair, if_pos ⟨hn, hv⟩]
  refine ⟨_, rfl, fun s hs => ?_⟩
  have := C02_get_run (h ++ [.insert n (.str v)]) s
  rw [HOp.run_append, if_pos hs, List.reverse_append] at this
  simp only [HOp.step] at this
  rw [this]
  have hv' : (v.all fun c => decide (c.toNat < 128)) = true := (spec_ascii_iff v).mp hv
  simp only [List.reverse_cons, List.reverse_nil, List.nil_append, List.cons_append, lookup, writeValues, hv']
  cases sameName n s <;> rfl

example : (applyPair (HOp.run [.insert s!!"Host" (.str s!!"a"), .append s!!"X" (.str s!!"b")]) (s!!"HOST", s!!"z")).bind
    (fun h => h.getStr s!!"host") = .ok (some [s!!"z"]) := by decide

end HT
