import Verif.Spec.JsonGrammar
import Verif.Props.JsonValue
import Verif.Props.Json

/-! C141: which texts are read as JSON, by the grammar. -/

namespace HT
open Spec

theorem fourHex_iff {u : Str} {n : Nat} : FourHex u n ↔ ∃ a b c d, u = [a, b, c, d] ∧ hexUnit a b c d = some n := by
  constructor
  · rintro ⟨a, b, c, d, w, x, y, z, rfl, h1, h2, h3, h4, rfl⟩
    refine ⟨a, b, c, d, rfl, ?_⟩
    simp only [hexUnit, h1, h2, h3, h4]
    congr 1
    omega
  · rintro ⟨a, b, c, d, rfl, h⟩
    unfold hexUnit at h
    split at h
    · rename_i w x y z h1 h2 h3 h4
      cases h
      exact ⟨a, b, c, d, w, x, y, z, rfl, h1, h2, h3, h4, by omega⟩
    · cases h

theorem scalar_range (c : Char) : c.toNat < 0xD800 ∨ 0xDFFF < c.toNat ∧ c.toNat < 0x110000 := c.valid

theorem toNat_of {n : Nat} (h : n < 0xD800 ∨ 0xDFFF < n ∧ n < 0x110000) : (Char.ofNat n).toNat = n := by
  have : n.isValidChar := h
  simp [Char.ofNat, this, Char.toNat, Char.ofNatAux]

theorem hexValue_lt {c : Char} {n : Nat} (h : hexValue c = some n) : n < 16 := by
  unfold hexValue at h
  split at h
  · rename_i hc
    cases h
    have : c.toNat ≤ '9'.toNat := hc.2
    have e : '9'.toNat = 57 := rfl
    omega
  · split at h
    · rename_i hc
      cases h
      have : c.toNat ≤ 'f'.toNat := hc.2
      have e : 'f'.toNat = 102 := rfl
      omega
    · split at h
      · rename_i hc
        cases h
        have : c.toNat ≤ 'F'.toNat := hc.2
        have e : 'F'.toNat = 70 := rfl
        omega
      · cases h

theorem hexUnit_lt {a b c d : Char} {n : Nat} (h : hexUnit a b c d = some n) : n < 0x10000 := by
  unfold hexUnit at h
  split at h
  · rename_i w x y z h1 h2 h3 h4
    cases h
    have := hexValue_lt h1
    have := hexValue_lt h2
    have := hexValue_lt h3
    have := hexValue_lt h4
    omega
  · cases h

theorem readString_halves {a b c d a' b' c' d' x : Char} (h1 : hexChar a b c d = none)
    (h2 : pairChar (hexUnit a b c d) (hexUnit a' b' c' d') = some x) (t : Str) :
    readString ('\\' :: 'u' :: a :: b :: c :: d :: '\\' :: 'u' :: a' :: b' :: c' :: d' :: t) =
      (readString t).map fun y => (x :: y.1, y.2) := by
  conv_lhs => unfold readString
  rw [if_neg (by decide), if_pos rfl]
  simp only [if_true, h1, h2, Option.bind_some]

theorem spells_read {c : Char} {u : Str} (h : Spells c u) (t : Str) :
    readString (u ++ t) = (readString t).map fun y => (c :: y.1, y.2) := by
  cases h with
  | plain c h1 h2 h3 =>
    rw [List.singleton_append]
    conv_lhs => unfold readString
    rw [if_neg h1, if_neg h2, if_neg (by omega)]
  | number c u hu =>
    obtain ⟨w, x, y, z, rfl, h1⟩ := fourHex_iff.mp hu
    refine readString_hex (x := c) ?_ t
    rw [hexChar, h1, Option.bind_some, if_pos (by have := scalar_range c; omega)]
    simp
  | halves c u v m n hu hv hm hn hc =>
    obtain ⟨w, x, y, z, rfl, h1⟩ := fourHex_iff.mp hu
    obtain ⟨w', x', y', z', rfl, h2⟩ := fourHex_iff.mp hv
    refine readString_halves (x := c) ?_ ?_ t
    · rw [hexChar, h1, Option.bind_some, if_neg (by omega)]
    · simp only [pairChar, h1, h2]
      rw [if_pos (by omega), show 0x10000 + (0xD800 + m - 0xD800) * 0x400 + (0xDC00 + n - 0xDC00) = c.toNat by omega]
      simp
  | _ => exact readString_esc (by decide) rfl t

theorem spelled_read {s u : Str} (h : Spelled s u) (r : Str) : readString (u ++ '"' :: r) = some (s, r) := by
  induction h with
  | nil => rw [List.nil_append]; unfold readString; rfl
  | cons h _ ih => rw [List.append_assoc, spells_read h, ih]; rfl

theorem unescape_spells {e x : Char} (h : unescape e = some x) : Spells x ['\\', e] := by
  unfold unescape at h
  split at h
  · rename_i he
    cases h
    rcases he with rfl | rfl | rfl
    · exact .quote
    · exact .backslash
    · exact .slash
  split at h
  · rename_i he; subst he; cases h; exact .b
  split at h
  · rename_i he; subst he; cases h; exact .f
  split at h
  · rename_i he; subst he; cases h; exact .n
  split at h
  · rename_i he; subst he; cases h; exact .r
  split at h
  · rename_i he; subst he; cases h; exact .t
  · cases h

theorem hexChar_spells {a b c d x : Char} (h : hexChar a b c d = some x) : Spells x ['\\', 'u', a, b, c, d] := by
  unfold hexChar at h
  cases hu : hexUnit a b c d with
  | none => rw [hu] at h; cases h
  | some n =>
    rw [hu, Option.bind_some] at h
    split at h
    · rename_i hn
      cases h
      have := hexUnit_lt hu
      exact .number _ [a, b, c, d] (fourHex_iff.mpr ⟨a, b, c, d, rfl, by rw [toNat_of (by omega), hu]⟩)
    · cases h

theorem pairChar_spells {a b c d a' b' c' d' x : Char} (h : pairChar (hexUnit a b c d) (hexUnit a' b' c' d') = some x) :
    Spells x ['\\', 'u', a, b, c, d, '\\', 'u', a', b', c', d'] := by
  unfold pairChar at h
  split at h
  · rename_i m n h1 h2
    split at h
    · rename_i hn
      obtain rfl := Option.some.inj h
      refine .halves _ [a, b, c, d] [a', b', c', d'] (m - 0xD800) (n - 0xDC00) (fourHex_iff.mpr ⟨a, b, c, d, rfl, ?_⟩)
        (fourHex_iff.mpr ⟨a', b', c', d', rfl, ?_⟩) (by omega) (by omega) (toNat_of (by omega))
      · exact h1.trans (congrArg some (by omega))
      · exact h2.trans (congrArg some (by omega))
    · cases h
  · cases h

theorem read_spelled : ∀ (t : Str) {s r : Str}, readString t = some (s, r) → ∃ u, t = u ++ '"' :: r ∧ Spelled s u := by
  have go : ∀ (n : Nat) (t : Str), t.length < n → ∀ {s r : Str}, readString t = some (s, r) → ∃ u, t = u ++ '"' :: r ∧ Spelled s u := by
    intro n
    induction n with
    | zero => intro t h; omega
    | succ n ih =>
      intro t ht s r h
      have step : ∀ (x : Char) (u t' : Str), Spells x u → t = u ++ t' → t'.length < n →
          ((readString t').map fun y => (x :: y.1, y.2)) = some (s, r) → ∃ u, t = u ++ '"' :: r ∧ Spelled s u := by
        intro x u t' hx e hl h
        obtain ⟨⟨s', r'⟩, h1, h2⟩ := Option.map_eq_some_iff.mp h
        cases h2
        obtain ⟨v, rfl, hv⟩ := ih t' hl h1
        exact ⟨u ++ v, by rw [e, List.append_assoc], .cons hx hv⟩
      cases t with
      | nil => cases h
      | cons c t =>
        rw [readString.eq_def] at h
        simp only at h
        split at h
        · rename_i hc
          cases h
          exact ⟨[], by rw [hc]; rfl, .nil⟩
        · rename_i hq
          split at h
          · rename_i hb
            subst hb
            split at h
            · cases h
            · rename_i e t
              split at h
              · rename_i he
                subst he
                split at h
                · rename_i a b c d t
                  split at h
                  · rename_i x hx
                    exact step x _ t (hexChar_spells hx) rfl (by simp at ht; omega) h
                  · split at h
                    · rename_i t
                      obtain ⟨x, hx, h⟩ := Option.bind_eq_some_iff.mp h
                      exact step x _ t (pairChar_spells hx) rfl (by simp at ht; omega) h
                    · cases h
                · cases h
              · obtain ⟨x, hx, h⟩ := Option.bind_eq_some_iff.mp h
                exact step x _ t (unescape_spells hx) rfl (by simp at ht; omega) h
          · rename_i hb
            split at h
            · cases h
            · rename_i hl
              exact step c [c] t (.plain c hq hb (by omega)) rfl (by simp at ht; omega) h
  exact fun t => go _ t (Nat.lt_succ_self _)

/-- What follows a number that is at its end. -/
def NumberEnds (r : Str) : Prop := ∀ c, r.head? = some c → isDigit c = false ∧ c ≠ '.' ∧ c ≠ 'e' ∧ c ≠ 'E'

theorem digit_range (c : Char) : isDigit c = true ↔ '0' ≤ c ∧ c ≤ '9' := by
  simp only [isDigit, Bool.and_eq_true, decide_eq_true_eq]
  exact Iff.rfl

theorem readDigits_iff {t r : Str} {n : Nat} : readDigits t = some (n, r) ↔ ∃ u, t = u ++ r ∧ JsonDigits u n ∧ NumberEnds r := by
  constructor
  · intro h
    unfold readDigits at h
    simp only at h
    split at h
    · cases h
    · rename_i hd
      have hd1 : t.takeWhile isDigit ≠ [] := fun e => hd (.inl e)
      have hd2 : (t.takeWhile isDigit).head? = some '0' → t.takeWhile isDigit = ['0'] := by
        intro e
        cases hu : t.takeWhile isDigit with
        | nil => exact absurd hu hd1
        | cons c u =>
          rw [hu] at e hd
          cases e
          cases u with
          | nil => rfl
          | cons d u => exact absurd (.inr ⟨rfl, by simp⟩) hd
      have hds : JsonDigits (t.takeWhile isDigit) (decValue (t.takeWhile isDigit)) :=
        ⟨hd1, fun c hc => (digit_range c).mp (List.mem_takeWhile_imp hc), hd2, rfl⟩
      have hst : ∀ c, (t.dropWhile isDigit).head? = some c → isDigit c = false := by
        intro c hc
        have := List.head?_dropWhile_not isDigit t
        rw [hc] at this
        simpa using this
      have key : t.takeWhile isDigit ++ t.dropWhile isDigit = t := List.takeWhile_append_dropWhile
      split at h
      · rename_i c r' he
        split at h
        · cases h
        · rename_i hc
          cases h
          rw [he] at hst key ⊢
          refine ⟨_, key.symm, hds, fun x hx => ?_⟩
          have := hst x hx
          cases hx
          exact ⟨this, fun e => hc (.inl e), fun e => hc (.inr (.inl e)), fun e => hc (.inr (.inr e))⟩
      · rename_i he
        cases h
        rw [he] at key ⊢
        exact ⟨_, key.symm, hds, fun x hx => by cases hx⟩
  · rintro ⟨u, rfl, ⟨h1, h2, h3, rfl⟩, hr⟩
    have hu : ∀ c ∈ u, isDigit c = true := fun c hc => (digit_range c).mpr (h2 c hc)
    have hr' : r.takeWhile isDigit = [] ∧ r.dropWhile isDigit = r := by
      cases r with
      | nil => exact ⟨rfl, rfl⟩
      | cons c r => simp [(hr c rfl).1]
    have e1 : (u ++ r).takeWhile isDigit = u := by rw [List.takeWhile_append_of_pos hu, hr'.1, List.append_nil]
    have e2 : (u ++ r).dropWhile isDigit = r := by rw [List.dropWhile_append_of_pos hu, hr'.2]
    unfold readDigits
    simp only [e1, e2]
    rw [if_neg]
    · cases r with
      | nil => rfl
      | cons c r =>
        obtain ⟨-, a1, a2, a3⟩ := hr c rfl
        simp only
        rw [if_neg (by simp [a1, a2, a3])]
    · rintro (e | ⟨e1, e2⟩)
      · exact h1 e
      · rw [h3 e1] at e2
        simp at e2

theorem blank_iff {c : Char} : (c = ' ' || c = '\t' || c = '\n' || c = '\r') = true ↔ c = ' ' ∨ c = '\t' ∨ c = '\n' ∨ c = '\r' := by
  simp [or_assoc]

theorem skip_blank {a : Str} (h : JsonBlank a) (t : Str) : skipWs (a ++ t) = skipWs t := by
  unfold skipWs
  exact List.dropWhile_append_of_pos fun c hc => blank_iff.mpr (h c hc)

theorem skip_split (t : Str) : ∃ a, t = a ++ skipWs t ∧ JsonBlank a :=
  ⟨_, List.takeWhile_append_dropWhile.symm, fun _ hc => blank_iff.mp
    (List.mem_takeWhile_imp (p := fun c => c = ' ' || c = '\t' || c = '\n' || c = '\r') hc)⟩

theorem skip_skip (t : Str) : skipWs (skipWs t) = skipWs t := by
  obtain ⟨a, h1, h2⟩ := skip_split t
  conv_rhs => rw [h1, skip_blank h2]

theorem readValue_skip (n : Nat) {s t : Str} (h : skipWs s = skipWs t) : readValue n s = readValue n t := by
  cases n with
  | zero => rfl
  | succ n => rw [readValue, readValue, h]

theorem readElems_skip (n : Nat) {s t : Str} (h : skipWs s = skipWs t) : readElems n s = readElems n t := by
  cases n with
  | zero => rfl
  | succ n => rw [readElems, readElems, readValue_skip n h]

theorem readMembers_skip (n : Nat) {s t : Str} (h : skipWs s = skipWs t) : readMembers n s = readMembers n t := by
  cases n with
  | zero => rfl
  | succ n => rw [readMembers, readMembers, h]

theorem readWord_sound {t r : Str} {j : Json} (h : readWord t = some (j, r)) : ∃ u, t = u ++ r ∧ Means u (.value j) := by
  unfold readWord at h
  split at h
  · obtain ⟨⟨n, r'⟩, h1, h2⟩ := Option.bind_eq_some_iff.mp h
    simp only at h2
    split at h2
    · cases h2
    · rename_i hn
      cases h2
      obtain ⟨u, rfl, hu, -⟩ := readDigits_iff.mp h1
      exact ⟨'-' :: u, rfl, .neg hu hn⟩
  · cases h; exact ⟨_, rfl, .true⟩
  · cases h; exact ⟨_, rfl, .false⟩
  · cases h; exact ⟨_, rfl, .null⟩
  · obtain ⟨⟨n, r'⟩, h1, h2⟩ := Option.map_eq_some_iff.mp h
    cases h2
    obtain ⟨u, rfl, hu, -⟩ := readDigits_iff.mp h1
    exact ⟨u, rfl, .nat hu⟩

theorem read_sound (n : Nat) :
    (∀ t j r, readValue n t = some (j, r) → ∃ a u, t = a ++ u ++ r ∧ JsonBlank a ∧ Means u (.value j)) ∧
    (∀ t l r, readElems n t = some (l, r) → ∃ u, t = u ++ ']' :: r ∧ Means u (.elems l)) ∧
    (∀ t l r, readMembers n t = some (l, r) → ∃ u, t = u ++ '}' :: r ∧ Means u (.members l)) := by
  induction n with
  | zero => exact ⟨fun t j r h => (by cases h), fun t j r h => (by cases h), fun t j r h => (by cases h)⟩
  | succ n ih =>
    obtain ⟨ihv, ihe, ihm⟩ := ih
    refine ⟨fun t j r h => ?_, fun t l r h => ?_, fun t l r h => ?_⟩
    · obtain ⟨a, ha, hb⟩ := skip_split t
      rw [readValue] at h
      suffices hs : ∃ u, skipWs t = u ++ r ∧ Means u (.value j) by
        obtain ⟨u, h1, h2⟩ := hs
        exact ⟨a, u, by rw [ha, h1, List.append_assoc], hb, h2⟩
      split at h
      · rename_i t' he
        obtain ⟨⟨s, r'⟩, h1, h2⟩ := Option.map_eq_some_iff.mp h
        cases h2
        obtain ⟨u, rfl, hu⟩ := read_spelled _ h1
        exact ⟨_, by rw [he]; simp, .str hu⟩
      · rename_i t' he
        obtain ⟨b, hb1, hb2⟩ := skip_split t'
        split at h
        · rename_i t'' he2
          cases h
          exact ⟨_, by rw [he, hb1, he2]; simp, .arr0 hb2⟩
        · obtain ⟨⟨l, r'⟩, h1, h2⟩ := Option.map_eq_some_iff.mp h
          cases h2
          rw [readElems_skip n (skip_skip t')] at h1
          obtain ⟨u, rfl, hu⟩ := ihe _ _ _ h1
          exact ⟨_, by rw [he]; simp, .arr hu⟩
      · rename_i t' he
        obtain ⟨b, hb1, hb2⟩ := skip_split t'
        split at h
        · rename_i t'' he2
          cases h
          exact ⟨_, by rw [he, hb1, he2]; simp, .obj0 hb2⟩
        · obtain ⟨⟨l, r'⟩, h1, h2⟩ := Option.map_eq_some_iff.mp h
          cases h2
          rw [readMembers_skip n (skip_skip t')] at h1
          obtain ⟨u, rfl, hu⟩ := ihm _ _ _ h1
          exact ⟨_, by rw [he]; simp, .obj hu⟩
      · exact readWord_sound h
    · rw [readElems] at h
      obtain ⟨⟨j, t'⟩, h1, h2⟩ := Option.bind_eq_some_iff.mp h
      obtain ⟨a, u, rfl, ha, hu⟩ := ihv _ _ _ h1
      simp only at h2
      obtain ⟨b, hb1, hb2⟩ := skip_split t'
      split at h2
      · rename_i t'' he
        obtain ⟨⟨l', r'⟩, h3, h4⟩ := Option.map_eq_some_iff.mp h2
        cases h4
        obtain ⟨v, rfl, hv⟩ := ihe _ _ _ h3
        exact ⟨_, by rw [hb1, he]; simp, .elems ha hu hb2 hv⟩
      · rename_i t'' he
        cases h2
        exact ⟨_, by rw [hb1, he]; simp, .elem ha hu hb2⟩
      · cases h2
    · rw [readMembers] at h
      obtain ⟨a, ha1, ha2⟩ := skip_split t
      split at h
      · rename_i t1 he1
        obtain ⟨⟨s, t2⟩, h1, h2⟩ := Option.bind_eq_some_iff.mp h
        obtain ⟨k, rfl, hk⟩ := read_spelled _ h1
        obtain ⟨b, hb1, hb2⟩ := skip_split t2
        simp only at h2
        split at h2
        · rename_i t3 he3
          obtain ⟨⟨j, t4⟩, h3, h4⟩ := Option.bind_eq_some_iff.mp h2
          obtain ⟨c, u, rfl, hc, hu⟩ := ihv _ _ _ h3
          obtain ⟨d, hd1, hd2⟩ := skip_split t4
          simp only at h4
          split at h4
          · rename_i t5 he5
            obtain ⟨⟨l', r'⟩, h5, h6⟩ := Option.map_eq_some_iff.mp h4
            cases h6
            obtain ⟨v, rfl, hv⟩ := ihm _ _ _ h5
            exact ⟨_, by rw [ha1, he1, hb1, he3, hd1, he5]; simp, .members ha2 hk hb2 hc hu hd2 hv⟩
          · rename_i t5 he5
            cases h4
            exact ⟨_, by rw [ha1, he1, hb1, he3, hd1, he5]; simp, .member ha2 hk hb2 hc hu hd2⟩
          · cases h4
        · cases h2
      · cases h

/-- What a reader makes of a text by the grammar. -/
def Reads (u : Str) : JsonPart → Prop
  | .value j => (∃ c u', u = c :: u' ∧ (c = ' ' || c = '\t' || c = '\n' || c = '\r') = false ∧ c ≠ ']' ∧ c ≠ '}') ∧
      ∀ n r, u.length ≤ n → NumberEnds r → readValue n (u ++ r) = some (j, r)
  | .elems l => (∀ y, ∃ c x, skipWs (u ++ y) = c :: x ∧ c ≠ ']') ∧ ∀ n r, u.length < n → readElems n (u ++ ']' :: r) = some (l, r)
  | .members l => (∀ y, ∃ c x, skipWs (u ++ y) = c :: x ∧ c ≠ '}') ∧ ∀ n r, u.length < n → readMembers n (u ++ '}' :: r) = some (l, r)

theorem numberEnds_cons {c : Char} (h : (isDigit c = false ∧ c ≠ '.' ∧ c ≠ 'e' ∧ c ≠ 'E')) (r : Str) : NumberEnds (c :: r) := by
  intro d hd
  cases hd
  exact h

theorem numberEnds_blank {b : Str} (hb : JsonBlank b) {r : Str} (h : NumberEnds r) : NumberEnds (b ++ r) := by
  cases b with
  | nil => exact h
  | cons c b =>
    apply numberEnds_cons
    rcases hb c (by simp) with rfl | rfl | rfl | rfl <;> decide

theorem pos_succ {n k : Nat} (h : k < n) : ∃ m, n = m + 1 := ⟨n - 1, by omega⟩

theorem means_reads {u : Str} {p : JsonPart} (h : Means u p) : Reads u p := by
  induction h with
  | null =>
    refine ⟨⟨'n', _, rfl, by decide, by decide, by decide⟩, fun n r hn _ => ?_⟩
    obtain ⟨n, rfl⟩ := pos_succ (n := n) (k := 0) (by simp at hn; omega)
    simp only [List.cons_append, List.nil_append]
    rw [readValue, skip_cons (by decide)]
    simp [readWord]
  | true =>
    refine ⟨⟨'t', _, rfl, by decide, by decide, by decide⟩, fun n r hn _ => ?_⟩
    obtain ⟨n, rfl⟩ := pos_succ (n := n) (k := 0) (by simp at hn; omega)
    simp only [List.cons_append, List.nil_append]
    rw [readValue, skip_cons (by decide)]
    simp [readWord]
  | false =>
    refine ⟨⟨'f', _, rfl, by decide, by decide, by decide⟩, fun n r hn _ => ?_⟩
    obtain ⟨n, rfl⟩ := pos_succ (n := n) (k := 0) (by simp at hn; omega)
    simp only [List.cons_append, List.nil_append]
    rw [readValue, skip_cons (by decide)]
    simp [readWord]
  | @nat u k hu =>
    obtain ⟨c, u, rfl⟩ := List.exists_cons_of_ne_nil hu.1
    have hdig : isDigit c = true := (digit_range c).mpr (hu.2.1 c (by simp))
    refine ⟨⟨c, u, rfl, ?_, isDigit_ne hdig (by decide), isDigit_ne hdig (by decide)⟩, fun n r hn hr => ?_⟩
    · simp [isDigit_ne hdig (d := ' ') (by decide), isDigit_ne hdig (d := '\t') (by decide), isDigit_ne hdig (d := '\n') (by decide),
        isDigit_ne hdig (d := '\r') (by decide)]
    · obtain ⟨n, rfl⟩ := pos_succ (n := n) (k := 0) (by simp at hn; omega)
      have h1 := readDigits_iff.mpr ⟨c :: u, rfl, hu, hr⟩
      rw [List.cons_append] at h1 ⊢
      rw [readValue_word _ _ ⟨isDigit_ne hdig (by decide), isDigit_ne hdig (by decide), isDigit_ne hdig (by decide)⟩
        (digit_skip hdig _), readWord_digit hdig, h1]
      rfl
  | @neg u k hu hk =>
    refine ⟨⟨'-', _, rfl, by decide, by decide, by decide⟩, fun n r hn hr => ?_⟩
    obtain ⟨n, rfl⟩ := pos_succ (n := n) (k := 0) (by simp at hn; omega)
    rw [List.cons_append, readValue_word _ _ (by decide) (skip_cons (by decide) _)]
    simp only [readWord, readDigits_iff.mpr ⟨u, rfl, hu, hr⟩, Option.bind_some]
    rw [if_neg hk]
  | str hu =>
    refine ⟨⟨'"', _, rfl, by decide, by decide, by decide⟩, fun n r hn hr => ?_⟩
    obtain ⟨n, rfl⟩ := pos_succ (n := n) (k := 0) (by simp at hn; omega)
    rw [List.cons_append, List.append_assoc, readValue, skip_cons (by decide)]
    simp only [List.singleton_append, spelled_read hu]
    rfl
  | arr0 ha =>
    refine ⟨⟨'[', _, rfl, by decide, by decide, by decide⟩, fun n r hn hr => ?_⟩
    obtain ⟨n, rfl⟩ := pos_succ (n := n) (k := 0) (by simp at hn; omega)
    rw [List.cons_append, List.append_assoc, readValue, skip_cons (by decide)]
    simp only [List.singleton_append, skip_blank ha, skip_cons (c := ']') (by decide)]
  | obj0 ha =>
    refine ⟨⟨'{', _, rfl, by decide, by decide, by decide⟩, fun n r hn hr => ?_⟩
    obtain ⟨n, rfl⟩ := pos_succ (n := n) (k := 0) (by simp at hn; omega)
    rw [List.cons_append, List.append_assoc, readValue, skip_cons (by decide)]
    simp only [List.singleton_append, skip_blank ha, skip_cons (c := '}') (by decide)]
  | arr _ ih =>
    refine ⟨⟨'[', _, rfl, by decide, by decide, by decide⟩, fun n r hn hr => ?_⟩
    obtain ⟨n, rfl⟩ := pos_succ (n := n) (k := 0) (by simp at hn; omega)
    rw [List.cons_append, List.append_assoc, readValue, skip_cons (by decide)]
    simp only [List.singleton_append]
    have h1 := ih.2 n r (by simp at hn; omega)
    rw [← readElems_skip n (skip_skip _)] at h1
    obtain ⟨c, x, h2, h3⟩ := ih.1 (']' :: r)
    rw [h2] at h1 ⊢
    split
    · rename_i heq; cases heq; exact absurd rfl h3
    · rw [h1]; rfl
  | obj _ ih =>
    refine ⟨⟨'{', _, rfl, by decide, by decide, by decide⟩, fun n r hn hr => ?_⟩
    obtain ⟨n, rfl⟩ := pos_succ (n := n) (k := 0) (by simp at hn; omega)
    rw [List.cons_append, List.append_assoc, readValue, skip_cons (by decide)]
    simp only [List.singleton_append]
    have h1 := ih.2 n r (by simp at hn; omega)
    rw [← readMembers_skip n (skip_skip _)] at h1
    obtain ⟨c, x, h2, h3⟩ := ih.1 ('}' :: r)
    rw [h2] at h1 ⊢
    split
    · rename_i heq; cases heq; exact absurd rfl h3
    · rw [h1]; rfl
  | elem ha _ hb ih =>
    obtain ⟨⟨c, u', rfl, h1, h2, -⟩, h3⟩ := ih
    refine ⟨fun y => ⟨c, _, by rw [List.append_assoc, List.append_assoc, skip_blank ha, List.cons_append, skip_cons h1], h2⟩,
      fun n r hn => ?_⟩
    obtain ⟨n, rfl⟩ := pos_succ hn
    rw [readElems, List.append_assoc, List.append_assoc, readValue_skip n (skip_blank ha _),
      h3 n _ (by simp at hn ⊢; omega) (numberEnds_blank hb (numberEnds_cons (by decide) _))]
    simp only [Option.bind_some, skip_blank hb, skip_cons (c := ']') (by decide)]
  | elems ha _ hb _ ih ih2 =>
    obtain ⟨⟨c, u', rfl, h1, h2, -⟩, h3⟩ := ih
    refine ⟨fun y => ⟨c, _, by
      rw [List.append_assoc, List.append_assoc, List.append_assoc, skip_blank ha, List.cons_append, skip_cons h1], h2⟩,
      fun n r hn => ?_⟩
    obtain ⟨n, rfl⟩ := pos_succ hn
    rw [readElems, List.append_assoc, List.append_assoc, List.append_assoc, readValue_skip n (skip_blank ha _), List.cons_append (a := ','),
      h3 n _ (by simp at hn ⊢; omega) (numberEnds_blank hb (numberEnds_cons (by decide) _))]
    simp only [Option.bind_some, skip_blank hb, skip_cons (c := ',') (by decide), ih2.2 n r (by simp at hn; omega)]
    rfl
  | member ha hk hb hc _ hd ih =>
    refine ⟨fun y => ⟨'"', _, by rw [List.append_assoc, skip_blank ha, List.cons_append, skip_cons (by decide)], by decide⟩,
      fun n r hn => ?_⟩
    obtain ⟨n, rfl⟩ := pos_succ hn
    rw [readMembers, List.append_assoc, skip_blank ha, List.cons_append, skip_cons (by decide)]
    simp only [List.append_assoc, List.cons_append, spelled_read hk, Option.bind_some, skip_blank hb, skip_cons (c := ':') (by decide)]
    rw [readValue_skip n (skip_blank hc _), ih.2 n _ (by simp at hn; omega) (numberEnds_blank hd (numberEnds_cons (by decide) _))]
    simp only [Option.bind_some, skip_blank hd, skip_cons (c := '}') (by decide)]
  | members ha hk hb hc _ hd _ ih ih2 =>
    refine ⟨fun y => ⟨'"', _, by rw [List.append_assoc, skip_blank ha, List.cons_append, skip_cons (by decide)], by decide⟩,
      fun n r hn => ?_⟩
    obtain ⟨n, rfl⟩ := pos_succ hn
    rw [readMembers, List.append_assoc, skip_blank ha, List.cons_append, skip_cons (by decide)]
    simp only [List.append_assoc, List.cons_append, spelled_read hk, Option.bind_some, skip_blank hb, skip_cons (c := ':') (by decide)]
    rw [readValue_skip n (skip_blank hc _), ih.2 n _ (by simp at hn; omega) (numberEnds_blank hd (numberEnds_cons (by decide) _))]
    simp only [Option.bind_some, skip_blank hd, skip_cons (c := ',') (by decide), ih2.2 n r (by simp at hn; omega)]
    rfl

/-- The texts that are read are those of the grammar, and each is read as what it means. -/
theorem C141_grammar_iff (t : Str) (j : Json) : parseJson t = some j ↔ IsJsonText t j := by
  constructor
  · intro h
    obtain ⟨⟨j', r⟩, h1, h2⟩ := Option.bind_eq_some_iff.mp h
    obtain ⟨a, u, rfl, ha, hu⟩ := (read_sound _).1 _ _ _ h1
    simp only at h2
    split at h2
    · rename_i hr
      cases h2
      obtain ⟨b, hb1, hb2⟩ := skip_split r
      rw [hr, List.append_nil] at hb1
      exact ⟨a, u, r, rfl, ha, hu, hb1 ▸ hb2⟩
    · cases h2
  · rintro ⟨a, u, b, rfl, ha, hu, hb⟩
    have hr : NumberEnds b := by
      have := numberEnds_blank hb (r := []) fun c hc => by cases hc
      rwa [List.append_nil] at this
    unfold parseJson
    rw [List.append_assoc, readValue_skip _ (skip_blank ha _), (means_reads hu).2 _ _ (by simp; omega) hr]
    have := skip_blank hb []
    rw [List.append_nil] at this
    simp only [Option.bind_some]
    rw [if_pos (by rw [this]; rfl)]

example : IsJsonText s!!" [\"\\uD83D\\uDE00\\\\\\u00e9\" , -12]\n" (.arr [.str [Char.ofNat 0x1F600, '\\', Char.ofNat 0xE9], .int (-12)]) := by
  have h : parseJson s!!" [\"\\uD83D\\uDE00\\\\\\u00e9\" , -12]\n" =
      some (.arr [.str [Char.ofNat 0x1F600, '\\', Char.ofNat 0xE9], .int (-12)]) := by rfl
  exact (C141_grammar_iff _ _).mp h

example (j : Json) : ¬ IsJsonText s!!"\"\\uD83D\"" j ∧ ¬ IsJsonText s!!"[1,]" j ∧ ¬ IsJsonText s!!"01" j := by
  refine ⟨fun h => ?_, fun h => ?_, fun h => ?_⟩ <;> cases (C141_grammar_iff _ _).mpr h

/-- No text has two meanings. -/
theorem C141_one_meaning (t : Str) (i j : Json) (hi : IsJsonText t i) (hj : IsJsonText t j) : i = j := by
  have := ((C141_grammar_iff t i).mpr hi).symm.trans ((C141_grammar_iff t j).mpr hj)
  exact Option.some.inj this

example : IsJsonText s!!"[ ]" (.arr []) := (C141_grammar_iff _ _).mp (by rfl)

/-- A value is written by the grammar. -/
theorem C141_written (j : Json) : IsJsonText (jsonText j) j := (C141_grammar_iff _ _).mp (C141_text j)

example : jsonText (.obj [(s!!"a\"", .arr [.null, .bool true])]) = s!!"{\"a\\\"\":[null,true]}" := by decide +kernel

/-- A report group is written by the grammar as the object that it is meant to be. -/
theorem C137_grammar (r : ReportTo) : IsJsonText r.toJson (reportObject r) := (C141_grammar_iff _ _).mp (C137_json r)

example : (ReportTo.mk (some s!!"g") 5 [s!!"https://a/"] none).toJson =
    s!!"{\"group\":\"g\",\"max_age\":5,\"endpoints\":[{\"url\":\"https://a/\"}]}" := by decide +kernel

theorem fromSlice_of {t : Str} {j : Json} (h : IsJsonText t j) :
    jsonFromSlice (utf8Encode t) = if jsonDepth j < 128 then jsonKeep j else none := by
  unfold jsonFromSlice
  rw [utf8Decode_encode, Option.bind_some, (C141_grammar_iff t j).mpr h, Option.bind_some]

theorem keepL_some (l : List Json) : (∃ m, jsonKeepL l = some m) ↔ ∀ v ∈ l, ∃ w, jsonKeep v = some w := by
  induction l with
  | nil => simp [jsonKeepL]
  | cons v l ih =>
    rw [List.forall_mem_cons, ← ih]
    constructor
    · rintro ⟨m, h⟩
      rw [jsonKeepL, Option.bind_eq_some_iff] at h
      obtain ⟨w, h1, h2⟩ := h
      obtain ⟨m', h3, -⟩ := Option.map_eq_some_iff.1 h2
      exact ⟨⟨w, h1⟩, m', h3⟩
    · rintro ⟨⟨w, h1⟩, m, h2⟩
      exact ⟨w :: m, by rw [jsonKeepL, h1, Option.bind_some, h2]; rfl⟩

theorem keepM_some (l : List (Str × Json)) : ∀ m0, (∃ m, jsonKeepM m0 l = some m) ↔ ∀ p ∈ l, ∃ w, jsonKeep p.2 = some w := by
  induction l with
  | nil => simp [jsonKeepM]
  | cons p l ih =>
    intro m0
    obtain ⟨k, v⟩ := p
    rw [List.forall_mem_cons]
    constructor
    · rintro ⟨m, h⟩
      rw [jsonKeepM, jsonKeepP, Option.bind_eq_some_iff] at h
      obtain ⟨_, h3, h4⟩ := h
      obtain ⟨w, h5, rfl⟩ := Option.map_eq_some_iff.1 h3
      exact ⟨⟨w, h5⟩, (ih _).mp ⟨m, h4⟩⟩
    · rintro ⟨⟨w, h1⟩, h2⟩
      obtain ⟨m, h3⟩ := (ih (jsonInsert k w m0)).mpr h2
      exact ⟨m, by rw [jsonKeepM, jsonKeepP]; simp only at h1; rw [h1, Option.map_some, Option.bind_some, h3]⟩

theorem keep_some (j : Json) : (∃ v, jsonKeep j = some v) ↔ IntsFit j := by
  induction j using Spec.Json.ind with
  | null => exact ⟨fun _ => .null, fun _ => ⟨_, rfl⟩⟩
  | bool b => exact ⟨fun _ => .bool, fun _ => ⟨_, rfl⟩⟩
  | int n =>
    rw [jsonKeep]
    constructor
    · rintro ⟨v, h⟩
      split at h
      · exact .int (by omega) (by omega)
      · cases h
    · intro h
      cases h with
      | int h1 h2 => exact ⟨_, if_pos (by omega)⟩
  | str s => exact ⟨fun _ => .str, fun _ => ⟨_, rfl⟩⟩
  | arr l ih =>
    have : (∃ v, jsonKeep (.arr l) = some v) ↔ ∃ m, jsonKeepL l = some m := by
      rw [jsonKeep]
      constructor
      · rintro ⟨v, h⟩
        obtain ⟨m, h, -⟩ := Option.map_eq_some_iff.1 h
        exact ⟨m, h⟩
      · rintro ⟨m, h⟩
        exact ⟨_, by rw [h]; rfl⟩
    rw [this, keepL_some]
    exact ⟨fun h => .arr fun v hv => (ih v hv).mp (h v hv), fun h => by cases h with | arr h => exact fun v hv => (ih v hv).mpr (h v hv)⟩
  | obj l ih =>
    have : (∃ v, jsonKeep (.obj l) = some v) ↔ ∃ m, jsonKeepM [] l = some m := by
      rw [jsonKeep]
      constructor
      · rintro ⟨v, h⟩
        obtain ⟨m, h, -⟩ := Option.map_eq_some_iff.1 h
        exact ⟨m, h⟩
      · rintro ⟨m, h⟩
        exact ⟨_, by rw [h]; rfl⟩
    rw [this, keepM_some]
    exact ⟨fun h => .obj fun v hv => (ih v hv).mp (h v hv), fun h => by cases h with | obj h => exact fun v hv => (ih v hv).mpr (h v hv)⟩

/-- A text by the grammar whose integers are of 64 bits is read exactly if arrays and objects are at most 127 deep. Not for deeper
ones. -/
theorem C141_any_text_iff_partial (t : Str) (j : Json) (h : IsJsonText t j) (hf : IntsFit j) :
    (∃ v, jsonFromSlice (utf8Encode t) = some v) ↔ Nested 127 j := by
  rw [fromSlice_of h, ← depth_iff]
  constructor
  · rintro ⟨v, hv⟩
    split at hv
    · omega
    · cases hv
  · intro hd
    rw [if_pos (by omega)]
    exact (keep_some j).mpr hf

example : IsJsonText s!!"{\"a\" : [7]}" (.obj [(s!!"a", .arr [.int 7])]) ∧ IntsFit (.obj [(s!!"a", .arr [.int 7])]) ∧
    Nested 127 (.obj [(s!!"a", .arr [.int 7])]) :=
  ⟨(C141_grammar_iff _ _).mp (by rfl), .obj (by simpa using .arr (by simpa using .int (by omega) (by omega))),
    .obj (by simpa using .arr (by simpa using .int))⟩

/-- A text in JSON is read whichever of its characters are escaped, and how. -/
theorem C141_escaped (s u : Str) (h : Spelled s u) : jsonFromSlice (utf8Encode ('"' :: (u ++ ['"']))) = some (.str s) := by
  rw [fromSlice_of ⟨[], _, [], by simp, fun c hc => by simp at hc, .str h, fun c hc => by simp at hc⟩]
  rfl

example : Spelled [Char.ofNat 0x1F600, '/'] s!!"\\uD83D\\uDE00\\/" := by
  obtain ⟨u, h1, h2⟩ := read_spelled s!!"\\uD83D\\uDE00\\/\"" (s := [Char.ofNat 0x1F600, '/']) (r := []) (by rfl)
  have : u = s!!"\\uD83D\\uDE00\\/" := List.append_cancel_right (bs := s!!"\"") h1.symm
  exact this ▸ h2

/-- The order in which the members of an object are written makes no difference, if no two have the same name; nor do white space
and escapes. -/
theorem C141_order (t t' : Str) (l l' : List (Str × Json)) (h : IsJsonText t (.obj l)) (h' : IsJsonText t' (.obj l')) (hp : l.Perm l')
    (hn : (l.map (·.1)).Nodup) : jsonFromSlice (utf8Encode t) = jsonFromSlice (utf8Encode t') := by
  rw [fromSlice_of h, fromSlice_of h']
  have hd : jsonDepth (.obj l) = jsonDepth (.obj l') := by
    rw [jsonDepth, jsonDepth]
    have e : ∀ n, jsonDepthsM l ≤ n ↔ jsonDepthsM l' ≤ n := fun n => by
      rw [jsonDepthsM_le, jsonDepthsM_le]
      exact ⟨fun h p hq => h p (hp.mem_iff.mpr hq), fun h p hq => h p (hp.mem_iff.mp hq)⟩
    have e1 := (e _).mp (Nat.le_refl _)
    have e2 := (e _).mpr (Nat.le_refl _)
    omega
  rw [hd]
  congr 1
  rw [jsonKeep, jsonKeep]
  congr 1
  have hs : (∃ m, jsonKeepM [] l = some m) ↔ ∃ m, jsonKeepM [] l' = some m := by
    rw [keepM_some, keepM_some]
    exact ⟨fun h p hq => h p (hp.mem_iff.mpr hq), fun h p hq => h p (hp.mem_iff.mp hq)⟩
  cases hm : jsonKeepM [] l with
  | none =>
    cases hm' : jsonKeepM [] l' with
    | none => rfl
    | some m' =>
      obtain ⟨m, e⟩ := hs.mpr ⟨m', hm'⟩
      rw [hm] at e
      cases e
  | some m =>
    obtain ⟨m', hm'⟩ := hs.mp ⟨m, hm⟩
    rw [hm']
    congr 1
    have single : ∀ (l : List (Str × Json)), (l.map (·.1)).Nodup → ∀ k, (l.filter (·.1 = k)).length ≤ 1 := by
      intro l hn k
      have := List.nodup_iff_count_le_one.mp hn k
      rw [List.count, List.countP_map, List.countP_eq_length_filter] at this
      refine Nat.le_trans (Nat.le_of_eq (congrArg List.length (List.filter_congr fun p _ => ?_))) this
      exact (beq_eq_decide p.1 k).symm
    have hf : ∀ k, l.filter (·.1 = k) = l'.filter (·.1 = k) := by
      intro k
      have hpf := hp.filter (fun p : Str × Json => decide (p.1 = k))
      have := single l hn k
      cases e : l.filter (·.1 = k) with
      | nil => rw [e] at hpf; exact (List.nil_perm.mp hpf).symm
      | cons q qs =>
        rw [e] at hpf this
        cases qs with
        | nil => exact List.singleton_perm.mp hpf
        | cons _ _ => simp at this
    have sorted : ∀ {l m}, jsonKeepM [] l = some m → m.Pairwise fun p q : Str × Json => p.1 < q.1 := by
      intro l m e
      have := keep_value (.obj l) (.obj m) (by rw [jsonKeep, e]; rfl)
      rw [IsValue] at this
      exact this.1
    have mem : ∀ p, p ∈ m ↔ p ∈ m' := by
      rintro ⟨k, w⟩
      rw [keepM_iff l [] m (by simp) hm, keepM_iff l' [] m' (by simp) hm', hf]
    have irr : ∀ p : Str × Json, ¬ p.1 < p.1 := fun p => List.lt_irrefl _
    have nd : ∀ {m : List (Str × Json)}, (m.Pairwise fun p q => p.1 < q.1) → m.Nodup := fun h =>
      List.Pairwise.imp (S := fun a b => a ≠ b) (fun {a b} hab e => irr a (by rw [← e] at hab; exact hab)) h
    exact ((List.perm_ext_iff_of_nodup (nd (sorted hm)) (nd (sorted hm'))).mpr mem).eq_of_pairwise
      (fun a b _ _ h1 h2 => absurd (List.lt_trans h1 h2) (irr a)) (sorted hm) (sorted hm')

example : jsonFromSlice (utf8Encode s!!"{\"a\":1, \"b\":[]}") = jsonFromSlice (utf8Encode s!!"{\"\\u0062\":[],\"a\":1}") :=
  C141_order _ _ [(s!!"a", .int 1), (s!!"b", .arr [])] [(s!!"b", .arr []), (s!!"a", .int 1)]
    ((C141_grammar_iff _ _).mp (by rfl)) ((C141_grammar_iff _ _).mp (by rfl)) (List.Perm.swap _ _ _) (by decide)

end HT
