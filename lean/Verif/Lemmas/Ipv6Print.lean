import Verif.Lemmas.Ipv6

/-! Printing IPv6 addresses: what the standard library prints is the canonical text of RFC 5952. -/

namespace HT
namespace Ip
open Spec

theorem natStr_length {b : Nat} (hb : 2 ≤ b) : ∀ {w n : Nat}, n < b ^ (w + 1) → (natStr b n).length ≤ w + 1
  | 0, n, h => by
    unfold natStr
    rw [if_pos (by left; simpa using h)]
    simp
  | w + 1, n, h => by
    unfold natStr
    split
    · simp
    · rw [List.length_append]
      have : n / b < b ^ (w + 1) := by
        rw [Nat.div_lt_iff_lt_mul (by omega), ← Nat.pow_succ]; exact h
      have := natStr_length hb this
      simp only [List.length_cons, List.length_nil]
      omega

theorem natStr_head {b : Nat} (hb : 2 ≤ b) (hb' : b ≤ 16) (n : Nat) : natStr b n = ['0'] ∨ (natStr b n).head? ≠ some '0' := by
  induction n using Nat.strongRecOn with
  | ind n ih =>
    unfold natStr
    split
    · rename_i h
      by_cases hn : n = 0
      · subst hn; exact .inl rfl
      · right
        intro h'
        simp only [List.head?_cons, Option.some.injEq] at h'
        have := congrArg Char.toNat h'
        rw [digitC_toNat (by omega)] at this
        simp only [show ('0').toNat = 48 from rfl] at this
        split at this <;> omega
    · rename_i h
      right
      have hne := natStr_ne_nil b (n / b)
      rw [List.head?_append_of_ne_nil _ hne]
      rcases ih (n / b) (Nat.div_lt_self (by omega) (by omega)) with h' | h'
      · have h1 := digitsVal_natStr hb hb' (n / b)
        rw [h'] at h1
        have h2 : toDigit b '0' = some 0 := toDigit_digitC hb' (d := 0) (by omega)
        simp only [digitsVal, h2, Option.some.injEq] at h1
        have : 0 < n / b := Nat.div_pos (by omega) (by omega)
        omega
      · exact h'

/-- A number is written in one way only without needless zeros. -/
theorem natStr_unique {b : Nat} (hb : 2 ≤ b) (hb' : b ≤ 16) (w : Str) : ∀ n, w ≠ [] → digitsVal b 0 w = some n →
    (w = ['0'] ∨ w.head? ≠ some '0') → (∀ c ∈ w, ∀ d, toDigit b c = some d → c = digitC d) → w = natStr b n := by
  induction hlen : w.length generalizing w with
  | zero => intro n h; exact absurd (List.length_eq_zero_iff.1 hlen) h
  | succ len ih =>
    intro n hne hv hz hl
    obtain ⟨w, c, rfl⟩ : ∃ w' c, w = w' ++ [c] := ⟨w.dropLast, w.getLast hne, (List.dropLast_append_getLast hne).symm⟩
    replace ih := ih w (by simpa using hlen)
    rw [digitsVal_append] at hv
    obtain ⟨n', hn', hv⟩ := Option.bind_eq_some_iff.1 hv
    cases hd : toDigit b c with
    | none => simp [digitsVal, hd] at hv
    | some d =>
      simp only [digitsVal, hd, Option.some.injEq] at hv
      have hc := hl c (by simp) d hd
      have hdb : d < b := by
        unfold toDigit at hd
        simp only at hd
        generalize (if 48 ≤ c.toNat ∧ c.toNat ≤ 57 then c.toNat - 48 else if 97 ≤ c.toNat ∧ c.toNat ≤ 102 then c.toNat - 87
          else if 65 ≤ c.toNat ∧ c.toNat ≤ 70 then c.toNat - 55 else b) = e at hd
        split at hd
        · cases hd; assumption
        · cases hd
      by_cases hw : w = []
      · subst hw
        simp only [digitsVal, Option.some.injEq] at hn'
        subst hn'
        rw [Nat.zero_mul, Nat.zero_add] at hv
        subst hv
        unfold natStr
        rw [if_pos (.inl hdb), hc, List.nil_append]
      · have hz' : w.head? ≠ some '0' := by
          rcases hz with hz | hz
          · exact absurd (congrArg List.length hz) (by
              cases w with
              | nil => exact absurd rfl hw
              | cons x w => simp)
          · rwa [List.head?_append_of_ne_nil _ hw] at hz
        have h1 := ih n' hw hn' (.inr hz') fun c hc => hl c (by simp [hc])
        have hpos : 0 < n' := by
          refine Nat.pos_of_ne_zero fun h0 => ?_
          subst h0
          apply hz'
          rw [h1]
          unfold natStr
          rw [if_pos (.inl (by omega))]
          rfl
        have h2 : n / b = n' := by
          rw [← hv, Nat.add_comm, Nat.add_mul_div_right _ _ (by omega), Nat.div_eq_of_lt hdb, Nat.zero_add]
        have h3 : n % b = d := by
          rw [← hv, Nat.add_comm, Nat.add_mul_mod_self_right, Nat.mod_eq_of_lt hdb]
        have h4 : b ≤ n := by
          have : 1 * b ≤ n' * b := Nat.mul_le_mul_right b hpos
          omega
        conv_rhs => unfold natStr
        rw [if_neg (by omega), h2, h3, ← h1, hc]

theorem toDigit_lower {c : Char} (h : ¬ ('A' ≤ c ∧ c ≤ 'F')) {d : Nat} (hd : toDigit 16 c = some d) : c = digitC d := by
  have h : ¬ (65 ≤ c.toNat ∧ c.toNat ≤ 70) := h
  apply char_eq_of_toNat
  unfold toDigit at hd
  simp only at hd
  generalize hn : c.toNat = n at h hd ⊢
  split at hd
  · rw [if_pos (by omega)] at hd; cases hd
    rw [digitC_toNat (by omega), if_pos (by omega)]; omega
  · split at hd
    · rw [if_pos (by omega)] at hd; cases hd
      rw [digitC_toNat (by omega), if_neg (by omega)]; omega
    · split at hd
      · omega
      · simp at hd

theorem toDigit_ten_digit {c : Char} {d : Nat} (hd : toDigit 10 c = some d) : c = digitC d := by
  rw [toDigit_ten] at hd
  split at hd
  · rename_i h
    cases hd
    simp only [isDigit, Bool.and_eq_true, decide_eq_true_eq] at h
    apply char_eq_of_toNat
    rw [digitC_toNat (by omega), if_pos (by omega)]; omega
  · cases hd

/-- The short text of a group. -/
theorem shortGroup_iff (w : Str) (n : Nat) : ShortGroup w n ↔ n < 65536 ∧ w = natStr 16 n := by
  unfold ShortGroup
  constructor
  · rintro ⟨h1, h2, h3⟩
    refine ⟨hexGroup_lt h1, ?_⟩
    obtain ⟨g1, g2, g3⟩ := (hexGroup_iff _ _).1 h1
    exact natStr_unique (by omega) (by omega) w n g1 g3 h2 fun c hc d hd => toDigit_lower (h3 c hc) hd
  · rintro ⟨hn, rfl⟩
    refine ⟨(hexGroup_iff _ _).2 ⟨natStr_ne_nil _ _, natStr_length (by omega) (w := 3) (by omega), digitsVal_natStr (by omega) (by omega) n⟩,
      natStr_head (by omega) (by omega) n, fun c hc => ?_⟩
    obtain ⟨d, hd, rfl⟩ := natStr_digits (by omega) n c hc
    intro h
    have h : 65 ≤ (digitC d).toNat ∧ (digitC d).toNat ≤ 70 := h
    rw [digitC_toNat hd] at h
    split at h <;> omega

theorem octet_text (w : Str) (n : Nat) : Octet w n ↔ n < 256 ∧ w = dec n := by
  rw [octet_iff]
  constructor
  · rintro ⟨h1, h2, h3, h4, h5⟩
    exact ⟨h4, natStr_unique (by omega) (by omega) w n h1 h3 h5.symm fun c _ d hd => toDigit_ten_digit hd⟩
  · rintro ⟨hn, rfl⟩
    exact ⟨natStr_ne_nil _ _, natStr_length (by omega) (w := 2) (by omega), digitsVal_natStr (by omega) (by omega) n, hn,
      (natStr_head (by omega) (by omega) n).symm⟩

theorem dotted_text (w : Str) (x y : Nat) : Dotted w x y ↔ (x < 65536 ∧ y < 65536) ∧
    w = dec (x / 256) ++ s!!"." ++ dec (x % 256) ++ s!!"." ++ dec (y / 256) ++ s!!"." ++ dec (y % 256) := by
  unfold Dotted
  constructor
  · rintro ⟨a, b, c, d, p, q, r, s, h1, h2, h3, h4, rfl, rfl, rfl⟩
    obtain ⟨g1, rfl⟩ := (octet_text _ _).1 h1
    obtain ⟨g2, rfl⟩ := (octet_text _ _).1 h2
    obtain ⟨g3, rfl⟩ := (octet_text _ _).1 h3
    obtain ⟨g4, rfl⟩ := (octet_text _ _).1 h4
    refine ⟨⟨by omega, by omega⟩, ?_⟩
    rw [show (p * 256 + q) / 256 = p by omega, show (p * 256 + q) % 256 = q by omega, show (r * 256 + s) / 256 = r by omega,
      show (r * 256 + s) % 256 = s by omega]
    simp
  · rintro ⟨⟨hx, hy⟩, rfl⟩
    exact ⟨_, _, _, _, x / 256, x % 256, y / 256, y % 256, (octet_text _ _).2 ⟨by omega, rfl⟩, (octet_text _ _).2 ⟨by omega, rfl⟩,
      (octet_text _ _).2 ⟨by omega, rfl⟩, (octet_text _ _).2 ⟨by omega, rfl⟩, by simp, by omega, by omega⟩

theorem short_groups (ws : List Str) (ns : List Nat) :
    List.Forall₂ ShortGroup ws ns ↔ (∀ n ∈ ns, n < 65536) ∧ ws = ns.map (natStr 16) := by
  induction ns generalizing ws with
  | nil => simp
  | cons n ns ih =>
    cases ws with
    | nil => simp
    | cons w ws =>
      simp only [List.forall₂_cons, shortGroup_iff, ih, List.mem_cons, forall_eq_or_imp, List.map_cons, List.cons.injEq]
      constructor
      · rintro ⟨⟨h1, h2⟩, h3, h4⟩; exact ⟨⟨h1, h3⟩, h2, h4⟩
      · rintro ⟨⟨h1, h3⟩, h2, h4⟩; exact ⟨⟨h1, h2⟩, h3, h4⟩

/-- Zeros among the first `n`. -/
def RunIn (a : List Nat) (n i j : Nat) : Prop := i + j ≤ n ∧ ∀ t, i ≤ t → t < i + j → a[t]? = some 0

/-- What the loop knows after `i` groups. -/
structure SpanInv (a : List Nat) (i : Nat) (l c : Nat × Nat) : Prop where
  run : RunIn a i l.1 l.2
  best : ∀ p j, RunIn a i p j → j ≤ l.2 ∧ (j = l.2 → 0 < j → l.1 ≤ p)
  le : c.2 ≤ i
  start : 0 < c.2 → c.1 = i - c.2
  zeros : ∀ t, i - c.2 ≤ t → t < i → a[t]? = some 0
  before : c.2 < i → a[i - c.2 - 1]? ≠ some 0

theorem spanLoop_inv (a : List Nat) : ∀ (rest : List Nat) (i : Nat) (l c : Nat × Nat), a.drop i = rest → i ≤ a.length → SpanInv a i l c →
    ∃ c', SpanInv a a.length (spanLoop i l c rest) c'
  | [], i, l, c, hd, hi, inv => by
    have : i = a.length := by have := List.drop_eq_nil_iff.1 hd; omega
    subst this
    exact ⟨c, inv⟩
  | x :: xs, i, l, c, hd, hi, inv => by
    have hlt : i < a.length := by
      refine Nat.lt_of_not_le fun h => ?_
      rw [List.drop_eq_nil_iff.2 h] at hd; cases hd
    have hx : a[i]? = some x := by
      have := congrArg List.head? hd
      rwa [List.head?_drop] at this
    have hd' : a.drop (i + 1) = xs := by
      rw [← List.drop_drop, hd]; rfl
    obtain ⟨h1, h2, h3, h4, h5, h6⟩ := inv
    unfold spanLoop
    by_cases hz : x = 0
    · subst hz
      rw [if_pos rfl]
      have hc : (if c.2 = 0 then i else c.1) = i - c.2 := by
        split
        · omega
        · exact h4 (by omega)
      simp only [hc]
      have hcases : ∀ p j, RunIn a (i + 1) p j → RunIn a i p j ∨ (j ≤ c.2 + 1 ∧ p + j = i + 1) := by
        rintro p j ⟨r1, r2⟩
        by_cases hpj : p + j ≤ i
        · exact .inl ⟨hpj, r2⟩
        · right
          refine ⟨Nat.le_of_not_lt fun hj => ?_, by omega⟩
          exact h6 (by omega) (r2 (i - c.2 - 1) (by omega) (by omega))
      have hrun : RunIn a (i + 1) (i - c.2) (c.2 + 1) := by
        refine ⟨by omega, fun t t1 t2 => ?_⟩
        by_cases ht : t = i
        · rw [ht]; exact hx
        · exact h5 t t1 (by omega)
      refine spanLoop_inv a xs (i + 1) _ _ hd' (by omega) ⟨?_, ?_, ?_, ?_, ?_, ?_⟩
      · split
        · exact hrun
        · exact ⟨by have := h1.1; omega, h1.2⟩
      · intro p j hr
        have hb := h1.1
        split
        · rename_i hl
          simp only at hl ⊢
          rcases hcases p j hr with hr | hr
          · have := (h2 p j hr).1
            exact ⟨by omega, fun _ _ => by omega⟩
          · exact ⟨hr.1, fun _ _ => by omega⟩
        · rename_i hl
          rcases hcases p j hr with hr | hr
          · exact h2 p j hr
          · exact ⟨by omega, fun _ _ => by omega⟩
      · show c.2 + 1 ≤ i + 1; omega
      · intro _; show i - c.2 = i + 1 - (c.2 + 1); omega
      · intro t t1 t2
        simp only at t1
        by_cases ht : t = i
        · rw [ht]; exact hx
        · exact h5 t (by omega) (by omega)
      · intro hlt'
        simp only at hlt' ⊢
        rw [show i + 1 - (c.2 + 1) - 1 = i - c.2 - 1 by omega]
        exact h6 (by omega)
    · rw [if_neg hz]
      refine spanLoop_inv a xs (i + 1) _ _ hd' (by omega) ⟨⟨by have := h1.1; omega, h1.2⟩, ?_, ?_, ?_, ?_, ?_⟩
      · rintro p j ⟨r1, r2⟩
        by_cases hpj : p + j ≤ i
        · exact h2 p j ⟨hpj, r2⟩
        · by_cases hj : j = 0
          · subst hj; exact ⟨by omega, fun _ h => by omega⟩
          · have := r2 i (by omega) (by omega)
            rw [hx] at this
            exact absurd (Option.some.inj this) hz
      · simp
      · intro h; simp at h
      · intro t t1 t2; simp only at t1; omega
      · intro _
        simp only [Nat.sub_zero, Nat.add_sub_cancel, hx]
        simpa using hz

theorem zeroRun_split {a : List Nat} {i k : Nat} (h : ZeroRun a i k) : a = a.take i ++ List.replicate k 0 ++ a.drop (i + k) := by
  obtain ⟨h1, h2⟩ := h
  have : (a.drop i).take k = List.replicate k 0 := by
    rw [List.eq_replicate_iff]
    refine ⟨by simp; omega, fun b hb => ?_⟩
    obtain ⟨t, ht, rfl⟩ := List.getElem_of_mem hb
    simp only [List.length_take, List.length_drop] at ht
    have := h2 (i + t) (by omega) (by omega)
    rw [List.getElem_take, List.getElem_drop]
    rw [List.getElem?_eq_getElem (by omega)] at this
    exact Option.some.inj this
  rw [← this, List.append_assoc, show a.drop (i + k) = (a.drop i).drop k by rw [List.drop_drop], List.take_append_drop, List.take_append_drop]

theorem zeroRun_of_split {ns ms : List Nat} {k : Nat} : ZeroRun (ns ++ List.replicate k 0 ++ ms) ns.length k := by
  refine ⟨by simp, fun t h1 h2 => ?_⟩
  rw [List.append_assoc, List.getElem?_append_right h1, List.getElem?_append_left (by simp; omega)]
  rw [List.getElem?_replicate, if_pos (by omega)]

/-- The loop finds the first of the longest runs of zeros. -/
theorem span_spec (a : List Nat) : ZeroRun a (spanLoop 0 (0, 0) (0, 0) a).1 (spanLoop 0 (0, 0) (0, 0) a).2 ∧
    ∀ i j, ZeroRun a i j → j ≤ (spanLoop 0 (0, 0) (0, 0) a).2 ∧
      (j = (spanLoop 0 (0, 0) (0, 0) a).2 → 0 < j → (spanLoop 0 (0, 0) (0, 0) a).1 ≤ i) := by
  obtain ⟨c, h1, h2, -⟩ := spanLoop_inv a a 0 (0, 0) (0, 0) rfl (by omega)
    ⟨⟨by simp, fun t _ h => by simp at h⟩, fun p j h => ⟨by have := h.1; simp only; omega, fun _ _ => by simp only; omega⟩, by simp,
      fun h => by simp at h, fun t _ h => by omega, fun h => by simp at h⟩
  exact ⟨h1, h2⟩

theorem printV6_mapped (x y : Nat) : printV6 [0, 0, 0, 0, 0, 65535, x, y] =
    s!!"::ffff:" ++ dec (x / 256) ++ s!!"." ++ dec (x % 256) ++ s!!"." ++ dec (y / 256) ++ s!!"." ++ dec (y % 256) := rfl

theorem printV6_other {a : List Nat} (h : ∀ x y, a ≠ [0, 0, 0, 0, 0, 65535, x, y]) : printV6 a =
    if 1 < (spanLoop 0 (0, 0) (0, 0) a).2 then
      chunk (a.take (spanLoop 0 (0, 0) (0, 0) a).1) ++ s!!"::" ++
        chunk (a.drop ((spanLoop 0 (0, 0) (0, 0) a).1 + (spanLoop 0 (0, 0) (0, 0) a).2))
    else chunk a := by
  unfold printV6
  split
  · rename_i x y; exact absurd rfl (h x y)
  · rfl

/-- What is printed is the canonical text, and there is no other. -/
theorem printV6_iff {a : List Nat} (ha : IsV6 a) (s : Str) : s = printV6 a ↔ CanonicalV6 s a := by
  have hlt := ha.2
  by_cases hm : ∃ x y, a = [0, 0, 0, 0, 0, 65535, x, y]
  · obtain ⟨x, y, rfl⟩ := hm
    rw [printV6_mapped]
    constructor
    · rintro rfl
      exact .inl ⟨x, y, _, rfl, by simp, (dotted_text _ _ _).2 ⟨⟨hlt x (by simp), hlt y (by simp)⟩, rfl⟩⟩
    · rintro (⟨x', y', w, h1, rfl, h3⟩ | ⟨h, -⟩)
      · simp only [List.cons.injEq, true_and, and_true] at h1
        obtain ⟨rfl, rfl⟩ := h1
        rw [((dotted_text _ _ _).1 h3).2]
        simp
      · exact absurd rfl (h x y)
  · have hm' : ∀ x y, a ≠ [0, 0, 0, 0, 0, 65535, x, y] := fun x y h => hm ⟨x, y, h⟩
    rw [printV6_other hm']
    obtain ⟨z1, z2⟩ := span_spec a
    generalize spanLoop 0 (0, 0) (0, 0) a = z at z1 z2 ⊢
    obtain ⟨i, k⟩ := z
    simp only at z1 z2 ⊢
    have hsp := zeroRun_split z1
    unfold chunk
    constructor
    · rintro rfl
      refine .inr ⟨hm', ?_⟩
      split
      · rename_i hk
        refine .inr ⟨_, _, _, _, k, rfl, (short_groups _ _).2 ⟨fun n hn => hlt n (List.mem_of_mem_take hn), rfl⟩,
          (short_groups _ _).2 ⟨fun n hn => hlt n (List.mem_of_mem_drop hn), rfl⟩, hsp, hk, fun p j h => ?_⟩
        obtain ⟨q1, q2⟩ := z2 p j h
        refine ⟨q1, fun hj => ?_⟩
        have := q2 hj (by omega)
        rw [List.length_take]; omega
      · rename_i hk
        exact .inl ⟨fun p j h => by have := (z2 p j h).1; omega, _, rfl, (short_groups _ _).2 ⟨hlt, rfl⟩⟩
    · rintro (⟨x, y, w, h1, -⟩ | ⟨-, ⟨h1, ws, rfl, h2⟩ | ⟨ws, ns, vs, ms, k', rfl, h2, h3, h4, h5, h6⟩⟩)
      · exact absurd h1 (hm' x y)
      · rw [if_neg (by have := h1 _ _ z1; omega), ((short_groups _ _).1 h2).2]
      · have hr : ZeroRun a ns.length k' := by rw [h4]; exact zeroRun_of_split
        obtain ⟨q1, q2⟩ := z2 _ _ hr
        obtain ⟨q3, q4⟩ := h6 _ _ z1
        have hk : k = k' := by omega
        subst hk
        have hi : ns.length = i := by have := q2 rfl (by omega); have := q4 rfl; omega
        rw [if_pos h5, ((short_groups _ _).1 h2).2, ((short_groups _ _).1 h3).2]
        have e1 : a.take i = ns := by rw [h4, ← hi, List.append_assoc, List.take_left']; rfl
        have e2 : a.drop (i + k) = ms := by rw [h4, ← hi, List.drop_left']; simp
        rw [e1, e2]

/-- The canonical text is a text of the address. -/
theorem canonical_text {s : Str} {a : List Nat} (ha : a.length = 8) (h : CanonicalV6 s a) : V6Text s a := by
  have short : ∀ ws ns, List.Forall₂ ShortGroup ws ns → List.Forall₂ HexGroup ws ns := fun ws ns h => h.imp fun _ _ h => h.1
  refine ⟨ha, ?_⟩
  rcases h with ⟨x, y, w, rfl, rfl, h⟩ | ⟨-, ⟨-, ws, rfl, h⟩ | ⟨ws, ns, vs, ms, k, rfl, h1, h2, h3, h4, -⟩⟩
  · refine .inr ⟨[], [], [s!!"ffff", w], [65535, x, y], 5, by simp [join], .nil, ?_, by omega, rfl⟩
    refine .inr ⟨[s!!"ffff"], [65535], w, x, y, rfl, rfl, .cons ((hexGroup_iff _ _).2 ?_) .nil, h⟩
    decide
  · exact .inl ⟨ws, rfl, .inl (short _ _ h)⟩
  · exact .inr ⟨ws, ns, vs, ms, k, rfl, short _ _ h1, .inl (short _ _ h2), by omega, h3⟩

theorem v6Text_isV6 {s : Str} {a : List Nat} (h : V6Text s a) : IsV6 a := by
  have pure : ∀ ws ns, List.Forall₂ HexGroup ws ns → ∀ n ∈ ns, n < 65536 := by
    intro ws ns h
    induction h with
    | nil => intro n hn; cases hn
    | cons h _ ih =>
      intro n hn
      rcases List.mem_cons.1 hn with rfl | hn
      · exact hexGroup_lt h
      · exact ih n hn
  have grp : ∀ ws ns, Groups ws ns → ∀ n ∈ ns, n < 65536 := by
    rintro ws ns (h | ⟨ws', ns', w, x, y, rfl, rfl, h1, h2⟩) n hn
    · exact pure ws ns h n hn
    · obtain ⟨⟨hx, hy⟩, -⟩ := (dotted_text _ _ _).1 h2
      simp only [List.mem_append, List.mem_cons, List.not_mem_nil, or_false] at hn
      rcases hn with hn | rfl | rfl
      · exact pure _ _ h1 n hn
      · exact hx
      · exact hy
  refine ⟨h.1, fun n hn => ?_⟩
  rcases h.2 with ⟨ws, -, h⟩ | ⟨ws, ns, vs, ms, k, -, h1, h2, -, rfl⟩
  · exact grp _ _ h n hn
  · simp only [List.mem_append, List.mem_replicate] at hn
    rcases hn with (hn | ⟨-, rfl⟩) | hn
    · exact pure _ _ h1 n hn
    · omega
    · exact grp _ _ h2 n hn

end Ip
end HT
