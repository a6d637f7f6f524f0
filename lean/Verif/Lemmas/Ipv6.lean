import Verif.Model.Ipv6
import Verif.Spec.Ipv6
import Verif.Lemmas.Num

/-! Reading IPv6 addresses: the reader of the standard library against RFC 4291. -/

namespace HT
namespace Ip
open Spec

/-- The text does not go on with a digit. -/
def Ends (radix : Nat) (r : Str) : Prop := ∀ c, r.head? = some c → toDigit radix c = none

theorem numLoop_iff (radix max : Nat) : ∀ (s : Str) (acc count : Nat), count ≤ max → ∀ n k r,
    numLoop radix max acc count s = some (n, k, r) ↔
      ∃ w, s = w ++ r ∧ digitsVal radix acc w = some n ∧ k = count + w.length ∧ k ≤ max ∧ Ends radix r
  | [], acc, count, hc, n, k, r => by
    simp only [numLoop, Option.some.injEq, Prod.mk.injEq]
    constructor
    · rintro ⟨rfl, rfl, rfl⟩
      exact ⟨[], rfl, rfl, rfl, hc, fun c h => by cases h⟩
    · rintro ⟨w, h, hd, rfl, -, -⟩
      obtain ⟨rfl, rfl⟩ := List.append_eq_nil_iff.1 h.symm
      simp only [digitsVal, Option.some.injEq] at hd
      exact ⟨hd, rfl, rfl⟩
  | c :: s, acc, count, hc, n, k, r => by
    cases hd : toDigit radix c with
    | none =>
      simp only [numLoop, hd, Option.some.injEq, Prod.mk.injEq]
      constructor
      · rintro ⟨rfl, rfl, rfl⟩
        exact ⟨[], rfl, rfl, rfl, hc, fun c' h => by cases h; exact hd⟩
      · rintro ⟨w, h, hw, rfl, -, -⟩
        cases w with
        | nil =>
          simp only [digitsVal, Option.some.injEq] at hw
          exact ⟨hw, rfl, h⟩
        | cons x w =>
          obtain ⟨rfl, -⟩ := List.cons.inj h
          simp [digitsVal, hd] at hw
    | some d =>
      simp only [numLoop, hd]
      by_cases hm : max < count + 1
      · rw [if_pos hm]
        simp only [reduceCtorEq, false_iff]
        rintro ⟨w, h, hw, rfl, hk, he⟩
        cases w with
        | nil =>
          have h : c :: s = r := h
          subst h
          rw [he c rfl] at hd; cases hd
        | cons x w => simp only [List.length_cons] at hk; omega
      · rw [if_neg hm, numLoop_iff radix max s _ _ (by omega)]
        constructor
        · rintro ⟨w, rfl, hw, rfl, hk, he⟩
          exact ⟨c :: w, rfl, by simp [digitsVal, hd, hw], by simp; omega, hk, he⟩
        · rintro ⟨w, h, hw, rfl, hk, he⟩
          cases w with
          | nil =>
            have h : c :: s = r := h
            subst h
            rw [he c rfl] at hd; cases hd
          | cons x w =>
            obtain ⟨rfl, rfl⟩ := List.cons.inj h
            simp only [digitsVal, hd] at hw
            exact ⟨w, rfl, hw, by simp; omega, hk, he⟩

theorem readNumber_iff (radix max : Nat) (z : Bool) (bound : Nat) (s : Str) (n : Nat) (r : Str) :
    readNumber radix max z bound s = some (n, r) ↔
      ∃ w, s = w ++ r ∧ w ≠ [] ∧ w.length ≤ max ∧ digitsVal radix 0 w = some n ∧ Ends radix r ∧ n < bound ∧
        (z = true ∨ w.head? ≠ some '0' ∨ w = ['0']) := by
  have hz : ∀ w : Str, w ≠ [] → ((!z && (w ++ r).head? == some '0' && decide (1 < w.length)) = true ↔
      ¬ (z = true ∨ w.head? ≠ some '0' ∨ w = ['0'])) := by
    intro w hw
    cases w with
    | nil => exact absurd rfl hw
    | cons c w =>
      cases z <;> cases w <;> simp
  unfold readNumber
  cases hl : numLoop radix max 0 0 s with
  | none =>
    simp only [reduceCtorEq, false_iff]
    rintro ⟨w, hs, hw, hm, hd, he, -⟩
    have := (numLoop_iff radix max s 0 0 (by omega) n w.length r).2 ⟨w, hs, hd, by omega, hm, he⟩
    rw [hl] at this; cases this
  | some x =>
    obtain ⟨n', k, r'⟩ := x
    obtain ⟨w, rfl, hd, rfl, hm, he⟩ := (numLoop_iff radix max s 0 0 (by omega) n' k r').1 hl
    rw [Nat.zero_add] at hm hl ⊢
    simp only
    have uniq : ∀ w1 n1 r1, w ++ r' = w1 ++ r1 → w1.length ≤ max → digitsVal radix 0 w1 = some n1 → Ends radix r1 →
        n' = n1 ∧ w = w1 ∧ r' = r1 := by
      intro w1 n1 r1 h1 h2 h3 h4
      have := (numLoop_iff radix max (w ++ r') 0 0 (by omega) n1 w1.length r1).2 ⟨w1, h1, h3, by omega, h2, h4⟩
      rw [hl] at this
      simp only [Option.some.injEq, Prod.mk.injEq] at this
      obtain ⟨e1, e2, rfl⟩ := this
      exact ⟨e1, List.append_cancel_right h1, rfl⟩
    by_cases hw : w = []
    · subst hw
      simp only [List.length_nil, if_true, reduceCtorEq, false_iff]
      rintro ⟨w1, h1, h2, h3, h4, h5, -⟩
      exact h2 (uniq w1 n r h1 h3 h4 h5).2.1.symm
    · rw [if_neg (by simpa using hw)]
      constructor
      · intro h
        split at h
        · cases h
        · rename_i hz'
          split at h
          · rename_i hb
            simp only [Option.some.injEq, Prod.mk.injEq] at h
            obtain ⟨rfl, rfl⟩ := h
            exact ⟨w, rfl, hw, hm, hd, he, hb, by rw [hz w hw] at hz'; exact Classical.not_not.1 hz'⟩
          · cases h
      · rintro ⟨w1, h1, h2, h3, h4, h5, h6, h7⟩
        obtain ⟨rfl, rfl, rfl⟩ := uniq w1 n r h1 h3 h4 h5
        rw [if_neg (by rw [hz w hw]; exact fun h => h h7), if_pos h6]

theorem hexDigit_iff (c : Char) (d : Nat) : toDigit 16 c = some d ↔ HexDigitIs c d := by
  have hle : ∀ a b : Char, a ≤ b ↔ a.toNat ≤ b.toNat := fun a b => Iff.rfl
  unfold toDigit HexDigitIs
  simp only [hle, show ('0').toNat = 48 from rfl, show ('9').toNat = 57 from rfl, show ('a').toNat = 97 from rfl,
    show ('f').toNat = 102 from rfl, show ('A').toNat = 65 from rfl, show ('F').toNat = 70 from rfl]
  generalize c.toNat = n
  split
  · rw [if_pos (by omega)]; simp only [Option.some.injEq]; omega
  · split
    · rw [if_pos (by omega)]; simp only [Option.some.injEq]; omega
    · split
      · rw [if_pos (by omega)]; simp only [Option.some.injEq]; omega
      · simp only [Nat.lt_irrefl, if_false, reduceCtorEq, false_iff]; omega

theorem hexVal_iff : ∀ (w : Str) (acc n : Nat), digitsVal 16 acc w = some n ↔
    ∃ ds, List.Forall₂ HexDigitIs w ds ∧ n = ds.foldl (fun a d => a * 16 + d) acc
  | [], acc, n => by
    simp only [digitsVal, Option.some.injEq, List.forall₂_nil_left_iff, exists_eq_left, List.foldl_nil, eq_comm]
  | c :: w, acc, n => by
    cases hd : toDigit 16 c with
    | none =>
      simp only [digitsVal, hd, reduceCtorEq, false_iff]
      rintro ⟨ds, h, -⟩
      cases h with
      | cons h1 h2 => rw [← hexDigit_iff, hd] at h1; cases h1
    | some d =>
      simp only [digitsVal, hd, hexVal_iff w]
      constructor
      · rintro ⟨ds, h, rfl⟩
        exact ⟨d :: ds, .cons ((hexDigit_iff _ _).1 hd) h, rfl⟩
      · rintro ⟨ds, h, rfl⟩
        cases h with
        | cons h1 h2 =>
          rw [← hexDigit_iff, hd] at h1
          cases h1
          exact ⟨_, h2, rfl⟩

theorem hexGroup_iff (w : Str) (n : Nat) : HexGroup w n ↔ w ≠ [] ∧ w.length ≤ 4 ∧ digitsVal 16 0 w = some n := by
  unfold HexGroup
  rw [hexVal_iff]

theorem digitsVal_lt {radix : Nat} (hr : 0 < radix) : ∀ (w : Str) (acc n : Nat), digitsVal radix acc w = some n →
    n < (acc + 1) * radix ^ w.length
  | [], acc, n, h => by simp only [digitsVal, Option.some.injEq] at h; simp [h]
  | c :: w, acc, n, h => by
    have hlt : ∀ d, toDigit radix c = some d → d < radix := by
      intro d hd
      unfold toDigit at hd
      simp only at hd
      generalize (if 48 ≤ c.toNat ∧ c.toNat ≤ 57 then c.toNat - 48 else if 97 ≤ c.toNat ∧ c.toNat ≤ 102 then c.toNat - 87
        else if 65 ≤ c.toNat ∧ c.toNat ≤ 70 then c.toNat - 55 else radix) = e at hd
      split at hd
      · cases hd; assumption
      · cases hd
    cases hd : toDigit radix c with
    | none => simp [digitsVal, hd] at h
    | some d =>
      simp only [digitsVal, hd] at h
      have h1 := digitsVal_lt hr w _ n h
      have h2 := hlt d hd
      refine Nat.lt_of_lt_of_le h1 ?_
      rw [List.length_cons, Nat.pow_succ, Nat.mul_comm (radix ^ w.length), ← Nat.mul_assoc]
      refine Nat.mul_le_mul_right _ ?_
      rw [Nat.add_mul]
      omega

theorem hexGroup_lt {w : Str} {n : Nat} (h : HexGroup w n) : n < 65536 := by
  obtain ⟨-, h2, h3⟩ := (hexGroup_iff w n).1 h
  have := digitsVal_lt (by omega) w 0 n h3
  rw [Nat.zero_add, Nat.one_mul] at this
  exact Nat.lt_of_lt_of_le this (Nat.pow_le_pow_right (by omega) h2)

theorem readHex_iff (s : Str) (n : Nat) (r : Str) :
    readNumber 16 4 true 65536 s = some (n, r) ↔ ∃ w, s = w ++ r ∧ HexGroup w n ∧ Ends 16 r := by
  rw [readNumber_iff]
  constructor
  · rintro ⟨w, h1, h2, h3, h4, h5, -⟩
    exact ⟨w, h1, (hexGroup_iff _ _).2 ⟨h2, h3, h4⟩, h5⟩
  · rintro ⟨w, h1, h2, h3⟩
    obtain ⟨g1, g2, g3⟩ := (hexGroup_iff _ _).1 h2
    exact ⟨w, h1, g1, g2, g3, h3, hexGroup_lt h2, .inl rfl⟩

theorem octet_iff (w : Str) (n : Nat) :
    Octet w n ↔ w ≠ [] ∧ w.length ≤ 3 ∧ digitsVal 10 0 w = some n ∧ n < 256 ∧ (w.head? ≠ some '0' ∨ w = ['0']) := by
  unfold Octet
  rw [digitsVal_ten]
  have hd : (∀ c ∈ w, '0' ≤ c ∧ c ≤ '9') ↔ w.all isDigit = true := by
    rw [List.all_eq_true]
    exact forall₂_congr fun c _ => isDigit_iff_le.symm
  rw [hd]
  constructor
  · rintro ⟨h1, h2, h3, h4, rfl, h5⟩
    exact ⟨h1, h2, by rw [if_pos h3]; rfl, h5, h4.symm⟩
  · rintro ⟨h1, h2, h3, h4, h5⟩
    split at h3
    · rename_i h
      cases h3
      exact ⟨h1, h2, h, h5.symm, rfl, h4⟩
    · cases h3

theorem readOctet_iff (s : Str) (n : Nat) (r : Str) :
    readNumber 10 3 false 256 s = some (n, r) ↔ ∃ w, s = w ++ r ∧ Octet w n ∧ Ends 10 r := by
  rw [readNumber_iff]
  constructor
  · rintro ⟨w, h1, h2, h3, h4, h5, h6, h7⟩
    exact ⟨w, h1, (octet_iff _ _).2 ⟨h2, h3, h4, h6, by simpa using h7⟩, h5⟩
  · rintro ⟨w, h1, h2, h3⟩
    obtain ⟨g1, g2, g3, g4, g5⟩ := (octet_iff _ _).1 h2
    exact ⟨w, h1, g1, g2, g3, h3, g4, .inr g5⟩

theorem readSep_iff {α : Type} (c : Char) (i : Nat) (hi : 0 < i) (p : Str → Option (α × Str)) (s : Str) (x : α × Str) :
    readSep c i p s = some x ↔ ∃ t, s = c :: t ∧ p t = some x := by
  unfold readSep
  rw [if_pos hi]
  cases s with
  | nil => simp [readChar]
  | cons y s =>
    by_cases h : y = c
    · subst h; simp [readChar]
    · simp only [readChar, h, if_false, Option.bind_none, reduceCtorEq, false_iff]
      rintro ⟨t, ht, -⟩
      exact h (List.cons.inj ht).1

theorem readSep_zero {α : Type} (c : Char) (p : Str → Option (α × Str)) (s : Str) : readSep c 0 p s = p s := rfl

/-- Four numbers and dots between them. -/
def DottedIs (w : Str) (v : Nat × Nat × Nat × Nat) : Prop :=
  ∃ a b c d, Octet a v.1 ∧ Octet b v.2.1 ∧ Octet c v.2.2.1 ∧ Octet d v.2.2.2 ∧ w = a ++ '.' :: (b ++ '.' :: (c ++ '.' :: d))

theorem dotted_iff (w : Str) (x y : Nat) :
    Dotted w x y ↔ ∃ v, DottedIs w v ∧ x = v.1 * 256 + v.2.1 ∧ y = v.2.2.1 * 256 + v.2.2.2 := by
  constructor
  · rintro ⟨a, b, c, d, p, q, r, s, h1, h2, h3, h4, h5, h6, h7⟩
    exact ⟨(p, q, r, s), ⟨a, b, c, d, h1, h2, h3, h4, h5⟩, h6, h7⟩
  · rintro ⟨⟨p, q, r, s⟩, ⟨a, b, c, d, h1, h2, h3, h4, h5⟩, h6, h7⟩
    exact ⟨a, b, c, d, p, q, r, s, h1, h2, h3, h4, h5, h6, h7⟩

theorem ends_cons {radix : Nat} {c : Char} (h : toDigit radix c = none) (r : Str) : Ends radix (c :: r) := by
  intro c' hc
  cases hc
  exact h

theorem readV4_iff (s : Str) (v : Nat × Nat × Nat × Nat) (r : Str) :
    readV4 s = some (v, r) ↔ ∃ w, s = w ++ r ∧ DottedIs w v ∧ Ends 10 r := by
  obtain ⟨p, q, x, y⟩ := v
  unfold readV4
  simp only [Option.bind_eq_some_iff, Prod.exists, readSep_zero, readSep_iff '.' 1 (by omega), readSep_iff '.' 2 (by omega),
    readSep_iff '.' 3 (by omega), readOctet_iff, Option.some.injEq, Prod.mk.injEq]
  constructor
  · rintro ⟨p', s1, ⟨a, rfl, ha, e1⟩, q', s2, ⟨_, rfl, b, rfl, hb, e2⟩, x', s3, ⟨_, rfl, c, rfl, hc, e3⟩, y', s4,
      ⟨_, rfl, d, rfl, hd, e4⟩, ⟨rfl, rfl, rfl, rfl⟩, rfl⟩
    exact ⟨_, by simp, ⟨a, b, c, d, ha, hb, hc, hd, rfl⟩, e4⟩
  · rintro ⟨w, rfl, ⟨a, b, c, d, ha, hb, hc, hd, rfl⟩, e4⟩
    have hdot : ∀ t, Ends 10 ('.' :: t) := fun t => ends_cons (by decide) t
    exact ⟨p, _, ⟨a, by simp, ha, hdot _⟩, q, _, ⟨_, rfl, b, rfl, hb, hdot _⟩, x, _, ⟨_, rfl, c, rfl, hc, hdot _⟩, y, r,
      ⟨_, rfl, d, rfl, hd, e4⟩, ⟨rfl, rfl, rfl, rfl⟩, rfl⟩

/-- The groups, each after a colon. -/
def tails (ws : List Str) : Str := ws.flatMap (':' :: ·)

/-- The groups with colons between them, and one before them unless they are the first. -/
def sepText (i : Nat) (ws : List Str) : Str := if 0 < i then tails ws else join s!!":" ws

theorem join_colon (w : Str) (ws : List Str) : join s!!":" (w :: ws) = w ++ tails ws := by
  induction ws generalizing w with
  | nil => simp [join, tails]
  | cons v ws ih => rw [join, ih]; simp [tails]

theorem sepText_cons (i : Nat) (w : Str) (ws : List Str) :
    sepText i (w :: ws) = (if 0 < i then [':'] else []) ++ w ++ tails ws := by
  unfold sepText
  split
  · simp [tails]
  · rw [join_colon]; simp

/-- Groups, and whether they end in a dotted one. -/
inductive GroupsB : List Str → List Nat → Bool → Prop
  | nil : GroupsB [] [] false
  | dotted {w x y} : Dotted w x y → GroupsB [w] [x, y] true
  | cons {w g ws gs b} : HexGroup w g → GroupsB ws gs b → GroupsB (w :: ws) (g :: gs) b

theorem groupsB_pure {ws : List Str} {gs : List Nat} : GroupsB ws gs false ↔ List.Forall₂ HexGroup ws gs := by
  constructor
  · intro h
    generalize hb : false = b at h
    induction h with
    | nil => exact .nil
    | dotted _ => cases hb
    | cons h _ ih => exact .cons h (ih hb)
  · intro h
    induction h with
    | nil => exact .nil
    | cons h _ ih => exact .cons h ih

theorem groupsB_iff {ws : List Str} {gs : List Nat} : (∃ b, GroupsB ws gs b) ↔ Groups ws gs := by
  constructor
  · rintro ⟨b, h⟩
    induction h with
    | nil => exact .inl .nil
    | @dotted w x y h => exact .inr ⟨[], [], w, x, y, rfl, rfl, .nil, h⟩
    | @cons w g ws gs b h _ ih =>
      rcases ih with ih | ⟨ws', ns', w', x, y, rfl, rfl, h1, h2⟩
      · exact .inl (.cons h ih)
      · exact .inr ⟨w :: ws', g :: ns', w', x, y, rfl, rfl, .cons h h1, h2⟩
  · rintro (h | ⟨ws', ns', w', x, y, rfl, rfl, h1, h2⟩)
    · exact ⟨false, groupsB_pure.2 h⟩
    · refine ⟨true, ?_⟩
      induction h1 with
      | nil => exact .dotted h2
      | cons h _ ih => exact .cons h ih

theorem readSep_cases {α : Type} {i : Nat} {p : Str → Option (α × Str)} {s : Str} {x : α × Str} (h : readSep ':' i p s = some x) :
    ∃ t, s = (if 0 < i then [':'] else []) ++ t ∧ p t = some x := by
  by_cases hi : 0 < i
  · obtain ⟨t, rfl, ht⟩ := (readSep_iff ':' i hi p s x).1 h
    exact ⟨t, by rw [if_pos hi]; rfl, ht⟩
  · have : i = 0 := by omega
    subst this
    exact ⟨s, rfl, h⟩

theorem readSep_of {α : Type} (i : Nat) {p : Str → Option (α × Str)} {t : Str} {x : α × Str} (h : p t = some x) :
    readSep ':' i p ((if 0 < i then [':'] else []) ++ t) = some x := by
  by_cases hi : 0 < i
  · rw [if_pos hi]; exact (readSep_iff ':' i hi p _ x).2 ⟨t, rfl, h⟩
  · have : i = 0 := by omega
    subst this
    exact h

theorem readSep_none {α : Type} (i : Nat) {p : Str → Option (α × Str)} {t : Str} (h : p t = none) :
    readSep ':' i p ((if 0 < i then [':'] else []) ++ t) = none := by
  cases hr : readSep ':' i p ((if 0 < i then [':'] else []) ++ t) with
  | none => rfl
  | some x =>
    obtain ⟨t', ht, hp⟩ := readSep_cases hr
    rw [List.append_cancel_left ht, hp] at h
    cases h

theorem readGroups_sound : ∀ (n i : Nat) (s : Str) (gs : List Nat) (b : Bool) (r : Str), readGroups n i s = (gs, b, r) →
    ∃ ws, GroupsB ws gs b ∧ s = sepText i ws ++ r ∧ gs.length ≤ n
  | 0, i, s, gs, b, r, h => by
    simp only [readGroups, Prod.mk.injEq] at h
    obtain ⟨rfl, rfl, rfl⟩ := h
    exact ⟨[], .nil, by unfold sepText; split <;> rfl, Nat.le_refl _⟩
  | n + 1, i, s, gs, b, r, h => by
    unfold readGroups at h
    split at h
    · rename_i a b' c d r' hv
      split at hv
      · rename_i hn
        simp only [Prod.mk.injEq] at h
        obtain ⟨rfl, rfl, rfl⟩ := h
        obtain ⟨t, rfl, ht⟩ := readSep_cases hv
        obtain ⟨w, rfl, hw, -⟩ := (readV4_iff _ _ _).1 ht
        refine ⟨[w], .dotted ((dotted_iff _ _ _).2 ⟨_, hw, rfl, rfl⟩), ?_, by simp; omega⟩
        rw [sepText_cons]; simp [tails]
      · cases hv
    · split at h
      · simp only [Prod.mk.injEq] at h
        obtain ⟨rfl, rfl, rfl⟩ := h
        exact ⟨[], .nil, by unfold sepText; split <;> rfl, by simp⟩
      · rename_i g r' hg
        obtain ⟨t, rfl, ht⟩ := readSep_cases hg
        obtain ⟨w, rfl, hw, -⟩ := (readHex_iff _ _ _).1 ht
        generalize hrec : readGroups n (i + 1) r' = x at h
        obtain ⟨gs', b', r''⟩ := x
        simp only [Prod.mk.injEq] at h
        obtain ⟨rfl, rfl, rfl⟩ := h
        obtain ⟨ws, h1, h2, h3⟩ := readGroups_sound n (i + 1) r' gs' b' r'' hrec
        refine ⟨w :: ws, .cons hw h1, ?_, by simp; omega⟩
        rw [sepText_cons, h2]
        simp [sepText]

/-- Where reading groups ends. -/
def Stop (r : Str) : Prop := r = [] ∨ ∃ r', r = ':' :: ':' :: r'

theorem Stop.ends {r : Str} (h : Stop r) (radix : Nat) : Ends radix r := by
  rcases h with rfl | ⟨r', rfl⟩
  · intro c hc; cases hc
  · refine ends_cons ?_ _
    unfold toDigit
    simp

theorem ends_ten {r : Str} (h : Ends 16 r) : Ends 10 r := by
  intro c hc
  have := h c hc
  unfold toDigit at this ⊢
  simp only at this ⊢
  generalize c.toNat = n at this ⊢
  split
  · rename_i h1; rw [if_pos h1, if_pos (by omega)] at this; cases this
  · rename_i h1
    rw [if_neg]
    split
    · omega
    · split <;> omega

theorem octet_digits {w : Str} {n : Nat} (h : Octet w n) : w ≠ [] ∧ ∀ c ∈ w, toDigit 10 c ≠ none ∧ toDigit 16 c ≠ none := by
  refine ⟨h.1, fun c hc => ?_⟩
  obtain ⟨h1, h2⟩ := h.2.2.1 c hc
  have h1 : 48 ≤ c.toNat := h1
  have h2 : c.toNat ≤ 57 := h2
  unfold toDigit
  simp only [h1, h2, and_self, if_true]
  rw [if_pos (by omega), if_pos (by omega)]
  simp

theorem hexGroup_digits {w : Str} {n : Nat} (h : HexGroup w n) : w ≠ [] ∧ ∀ c ∈ w, toDigit 16 c ≠ none := by
  obtain ⟨h1, -, h3⟩ := (hexGroup_iff w n).1 h
  refine ⟨h1, ?_⟩
  clear h1 h
  generalize (0 : Nat) = acc at h3
  induction w generalizing acc with
  | nil => intro c hc; cases hc
  | cons x w ih =>
    intro c hc
    cases hd : toDigit 16 x with
    | none => simp [digitsVal, hd] at h3
    | some d =>
      simp only [digitsVal, hd] at h3
      rcases List.mem_cons.1 hc with rfl | hc
      · rw [hd]; simp
      · exact ih _ h3 c hc

theorem readV4_fails {t : Str} (h : Ends 10 t) : readV4 t = none := by
  cases hr : readV4 t with
  | none => rfl
  | some x =>
    obtain ⟨v, r⟩ := x
    obtain ⟨w, rfl, ⟨a, b, c, d, ha, -, -, -, rfl⟩, -⟩ := (readV4_iff _ _ _).1 hr
    obtain ⟨hne, hd⟩ := octet_digits ha
    cases a with
    | nil => exact absurd rfl hne
    | cons y a => exact absurd (h y rfl) (hd y (by simp)).1

theorem readHex_fails {t : Str} (h : Ends 16 t) : readNumber 16 4 true 65536 t = none := by
  cases hr : readNumber 16 4 true 65536 t with
  | none => rfl
  | some x =>
    obtain ⟨v, r⟩ := x
    obtain ⟨w, rfl, hw, -⟩ := (readHex_iff _ _ _).1 hr
    obtain ⟨hne, hd⟩ := hexGroup_digits hw
    cases w with
    | nil => exact absurd rfl hne
    | cons y a => exact absurd (h y rfl) (hd y (by simp))

theorem readV4_hex {w t : Str} {g : Nat} (hw : HexGroup w g) (ht : Ends 16 t) (hdot : t.head? ≠ some '.') : readV4 (w ++ t) = none := by
  cases hr : readV4 (w ++ t) with
  | none => rfl
  | some x =>
    obtain ⟨v, r⟩ := x
    obtain ⟨u, hu, ⟨a, b, c, d, ha, -, -, -, rfl⟩, -⟩ := (readV4_iff _ _ _).1 hr
    have hu : w ++ t = a ++ ('.' :: (b ++ '.' :: (c ++ '.' :: d)) ++ r) := by rw [hu]; simp
    obtain ⟨hne, hd⟩ := octet_digits ha
    obtain ⟨hwne, hwd⟩ := hexGroup_digits hw
    rcases List.append_eq_append_iff.1 hu with ⟨x, h1, h2⟩ | ⟨x, h1, h2⟩
    · cases x with
      | nil => simp only [List.nil_append] at h2; rw [h2] at hdot; simp at hdot
      | cons y x =>
        rw [h2] at ht
        exact absurd (ht y rfl) (hd y (by rw [h1]; simp)).2
    · cases x with
      | nil => simp only [List.nil_append] at h2; rw [← h2] at hdot; simp at hdot
      | cons y x =>
        obtain ⟨rfl, -⟩ := List.cons.inj h2
        exact absurd (show toDigit 16 '.' = none by decide) (hwd '.' (by rw [h1]; simp))

theorem readGroups_complete {ws : List Str} {gs : List Nat} {b : Bool} (h : GroupsB ws gs b) {r : Str} (hr : Stop r) :
    ∀ n i, gs.length ≤ n → readGroups n i (sepText i ws ++ r) = (gs, b, r) := by
  induction h with
  | nil =>
    intro n i _
    have hs : sepText i [] ++ r = r := by unfold sepText; split <;> rfl
    rw [hs]
    cases n with
    | zero => rfl
    | succ n =>
      have key : ∀ {α : Type} (p : Str → Option (α × Str)), (∀ t, Ends 16 t → p t = none) → readSep ':' i p r = none := by
        intro α p hp
        by_cases hi : 0 < i
        · cases hq : readSep ':' i p r with
          | none => rfl
          | some x =>
            obtain ⟨t, ht, hx⟩ := (readSep_iff ':' i hi p r x).1 hq
            rcases hr with rfl | ⟨r', rfl⟩
            · cases ht
            · obtain ⟨-, rfl⟩ := List.cons.inj ht
              rw [hp _ (ends_cons (by decide) _)] at hx
              cases hx
        · have : i = 0 := by omega
          subst this
          exact hp r (hr.ends 16)
      unfold readGroups
      rw [key readV4 fun t ht => readV4_fails (ends_ten ht), key _ fun t ht => readHex_fails ht]
      simp
  | @dotted w x y hw =>
    intro n i hn
    obtain ⟨v, hv, rfl, rfl⟩ := (dotted_iff _ _ _).1 hw
    cases n with
    | zero => simp at hn
    | succ n =>
      simp only [List.length_cons, List.length_nil] at hn
      have hs : sepText i [w] ++ r = (if 0 < i then [':'] else []) ++ (w ++ r) := by rw [sepText_cons]; simp [tails]
      unfold readGroups
      rw [if_pos (by omega), hs, readSep_of i ((readV4_iff _ _ _).2 ⟨w, rfl, hv, hr.ends 10⟩)]
  | @cons w g ws gs b hw _ ih =>
    intro n i hn
    cases n with
    | zero => simp at hn
    | succ n =>
      simp only [List.length_cons] at hn
      have hs : sepText i (w :: ws) ++ r = (if 0 < i then [':'] else []) ++ (w ++ (tails ws ++ r)) := by rw [sepText_cons]; simp
      have hcol : tails ws ++ r = [] ∨ ∃ z, tails ws ++ r = ':' :: z := by
        cases ws with
        | nil =>
          rcases hr with rfl | ⟨r', rfl⟩
          · exact .inl rfl
          · exact .inr ⟨_, rfl⟩
        | cons v ws => exact .inr ⟨_, rfl⟩
      have he : Ends 16 (tails ws ++ r) := by
        rcases hcol with h | ⟨z, h⟩ <;> rw [h]
        · intro c hc; cases hc
        · exact ends_cons (by decide) _
      have hdot : (tails ws ++ r).head? ≠ some '.' := by
        rcases hcol with h | ⟨z, h⟩ <;> rw [h] <;> simp
      have h1 : (if 1 ≤ n then readSep ':' i readV4 ((if 0 < i then [':'] else []) ++ (w ++ (tails ws ++ r))) else none) = none := by
        rw [readSep_none i (readV4_hex hw he hdot)]; simp
      have h2 := readSep_of i (p := readNumber 16 4 true 65536) ((readHex_iff _ _ _).2 ⟨w, rfl, hw, he⟩)
      have h3 := ih n (i + 1) (by omega)
      rw [show sepText (i + 1) ws = tails ws by simp [sepText]] at h3
      unfold readGroups
      rw [hs, h1, h2]
      simp only [h3]

theorem readGroups_v4 {s : Str} {p q x y : Nat} {r : Str} (h : readV4 s = some ((p, q, x, y), r)) (n : Nat) :
    readGroups (n + 2) 0 s = ([p * 256 + q, x * 256 + y], true, r) := by
  unfold readGroups
  rw [if_pos (by omega), readSep_zero, h]

/-- The reader of the standard library accepts exactly the texts of RFC 4291, with their meaning. -/
theorem parseV6_iff (s : Str) (a : List Nat) : parseV6 s = some a ↔ V6Text s a := by
  unfold parseV6
  constructor
  · intro h
    split at h
    · cases h
    split at h
    · rename_i a' hv
      cases h
      unfold readV6 at hv
      generalize hg : readGroups 8 0 s = x at hv
      obtain ⟨gs, b, r⟩ := x
      obtain ⟨ws, h1, h2, h3⟩ := readGroups_sound 8 0 s gs b r hg
      simp only at hv
      split at hv
      · rename_i h8
        simp only [Option.some.injEq, Prod.mk.injEq] at hv
        obtain ⟨rfl, rfl⟩ := hv
        exact ⟨h8, .inl ⟨ws, by rw [h2]; simp [sepText], groupsB_iff.1 ⟨b, h1⟩⟩⟩
      · rename_i h8
        split at hv
        · cases hv
        rename_i hb
        obtain ⟨r1, hr1, hv⟩ := Option.bind_eq_some_iff.1 hv
        obtain ⟨r2, hr2, hv⟩ := Option.bind_eq_some_iff.1 hv
        have hch : ∀ {c : Char} {x y : Str}, readChar c x = some y → x = c :: y := by
          intro c x y hxy
          cases x with
          | nil => cases hxy
          | cons z x =>
            by_cases hz : z = c
            · simp only [readChar, hz, if_true, Option.some.injEq] at hxy; rw [hz, hxy]
            · simp [readChar, hz] at hxy
        rw [hch hr2] at hr1
        have hr := hch hr1
        generalize hg2 : readGroups (8 - (gs.length + 1)) 0 r2 = x2 at hv
        obtain ⟨gs2, b2, r3⟩ := x2
        obtain ⟨vs, k1, k2, k3⟩ := readGroups_sound _ 0 r2 gs2 b2 r3 hg2
        simp only [Option.some.injEq, Prod.mk.injEq] at hv
        obtain ⟨rfl, rfl⟩ := hv
        have hbf : b = false := by simpa using hb
        subst hbf
        refine ⟨by simp; omega, .inr ⟨ws, gs, vs, gs2, 8 - gs.length - gs2.length, ?_, groupsB_pure.1 h1, groupsB_iff.1 ⟨b2, k1⟩, by omega, rfl⟩⟩
        rw [h2, hr, k2]
        simp [sepText]
    · cases h
  · rintro ⟨h8, h⟩
    have main : readV4 s = none ∧ readV6 s = some (a, []) := by
      rcases h with ⟨ws, rfl, hg⟩ | ⟨ws, ns, vs, ms, k, rfl, hp, hg, hk, rfl⟩
      · obtain ⟨b, hb⟩ := groupsB_iff.2 hg
        have hr := readGroups_complete hb (.inl rfl) 8 0 (by omega)
        rw [List.append_nil, show sepText 0 ws = join s!!":" ws from rfl] at hr
        refine ⟨?_, by unfold readV6; rw [hr]; simp only [h8, if_true]⟩
        cases hv : readV4 (join s!!":" ws) with
        | none => rfl
        | some x =>
          obtain ⟨⟨p, q, x, y⟩, r⟩ := x
          rw [readGroups_v4 hv 6] at hr
          simp only [Prod.mk.injEq] at hr
          rw [← hr.1] at h8
          simp at h8
      · obtain ⟨b, hb⟩ := groupsB_iff.2 hg
        simp only [List.length_append, List.length_replicate] at h8
        have hr := readGroups_complete (groupsB_pure.2 hp) (r := s!!"::" ++ join s!!":" vs) (.inr ⟨_, rfl⟩) 8 0 (by omega)
        have hr2 := readGroups_complete hb (.inl rfl) (8 - (ns.length + 1)) 0 (by omega)
        rw [List.append_nil, show sepText 0 vs = join s!!":" vs from rfl] at hr2
        rw [show sepText 0 ws = join s!!":" ws from rfl, ← List.append_assoc] at hr
        constructor
        · cases hv : readV4 (join s!!":" ws ++ s!!"::" ++ join s!!":" vs) with
          | none => rfl
          | some x =>
            obtain ⟨⟨p, q, x, y⟩, r⟩ := x
            rw [readGroups_v4 hv 6] at hr
            simp at hr
        · unfold readV6
          rw [hr]
          simp only
          rw [if_neg (by omega)]
          simp only [readChar, List.cons_append, List.nil_append, if_true, Option.bind_some, Bool.false_eq_true, if_false, hr2]
          have : 8 - ns.length - ms.length = k := by omega
          rw [this]
    rw [main.1, main.2]

end Ip
end HT
