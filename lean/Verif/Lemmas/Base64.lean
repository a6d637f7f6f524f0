import Verif.Spec.Auth
import Mathlib.Tactic.Ring
import Mathlib.Tactic.IntervalCases

/-! Base64 decoding is exactly the relation `Spec.Base64Text`. -/

namespace HT

open Spec

theorem inBase_foldl (b : Nat) (a : Nat) (ds : List Nat) :
    ds.foldl (fun a d => a * b + d) a = a * b ^ ds.length + inBase b ds := by
  induction ds generalizing a with
  | nil => simp [inBase]
  | cons d ds ih =>
    unfold inBase
    rw [List.foldl_cons, List.foldl_cons, ih, ih (0 * b + d), List.length_cons]
    ring

theorem inBase_cons (b d : Nat) (ds : List Nat) : inBase b (d :: ds) = d * b ^ ds.length + inBase b ds := by
  show ds.foldl _ (0 * b + d) = _
  rw [inBase_foldl]
  ring

theorem inBase_nil (b : Nat) : inBase b [] = 0 := rfl

theorem inBase_lt {b : Nat} {ds : List Nat} (h : ∀ d ∈ ds, d < b) : inBase b ds < b ^ ds.length := by
  induction ds with
  | nil => simp [inBase]
  | cons d ds ih =>
    rw [inBase_cons, List.length_cons, Nat.pow_succ]
    have h1 := ih fun x hx => h x (by simp [hx])
    have h2 : d + 1 ≤ b := h d (by simp)
    calc d * b ^ ds.length + inBase b ds < d * b ^ ds.length + b ^ ds.length := by omega
      _ = (d + 1) * b ^ ds.length := by ring
      _ ≤ b * b ^ ds.length := Nat.mul_le_mul_right _ h2
      _ = b ^ ds.length * b := Nat.mul_comm _ _

theorem inBase_inj {b : Nat} {xs ys : List Nat} (hl : xs.length = ys.length) (hx : ∀ d ∈ xs, d < b)
    (hy : ∀ d ∈ ys, d < b) (h : inBase b xs = inBase b ys) : xs = ys := by
  induction xs generalizing ys with
  | nil => cases ys with
    | nil => rfl
    | cons y ys => simp at hl
  | cons x xs ih => cases ys with
    | nil => simp at hl
    | cons y ys =>
      simp only [List.length_cons, Nat.add_right_cancel_iff] at hl
      rw [inBase_cons, inBase_cons, hl] at h
      have h1 : inBase b xs < _ := inBase_lt fun d hd => hx d (List.mem_cons_of_mem _ hd)
      have h2 : inBase b ys < _ := inBase_lt fun d hd => hy d (List.mem_cons_of_mem _ hd)
      rw [hl] at h1
      have hxy : x = y := by
        have e1 : (x * b ^ ys.length + inBase b xs) / b ^ ys.length = x := by
          rw [Nat.mul_comm, Nat.mul_add_div (by omega), Nat.div_eq_of_lt h1, Nat.add_zero]
        have e2 : (y * b ^ ys.length + inBase b ys) / b ^ ys.length = y := by
          rw [Nat.mul_comm, Nat.mul_add_div (by omega), Nat.div_eq_of_lt h2, Nat.add_zero]
        rw [← e1, h, e2]
      subst hxy
      rw [ih hl (fun d hd => hx d (by simp [hd])) (fun d hd => hy d (by simp [hd])) (by omega)]

theorem byte_val_lt {n : Nat} (h : n < 256) : (byte n).val = n := by
  unfold byte
  simp [Fin.ofNat, Nat.mod_eq_of_lt h]

/-- The relation between 6-bit values and bytes. -/
def B64Rel (vs : List Nat) (bs : List Byte) (z : Nat) : Prop :=
  6 * vs.length = 8 * bs.length + z ∧ z < 6 ∧ inBase 64 vs = inBase 256 (bs.map (·.val)) * 2 ^ z

theorem unpack_some (vs : List Nat) (h : ∀ v ∈ vs, v < 64) (bs : List Byte)
    (hu : b64Unpack vs = some bs) : ∃ z, B64Rel vs bs z := by
  fun_induction b64Unpack vs generalizing bs with
  | case1 =>
    cases hu
    exact ⟨0, rfl, by omega, rfl⟩
  | case2 => cases hu
  | case3 a b hb =>
    cases hu
    have ha := h a (by simp)
    have hb' := h b (by simp)
    refine ⟨4, rfl, by omega, ?_⟩
    simp only [inBase, List.foldl_cons, List.foldl_nil, List.map_cons, List.map_nil]
    rw [byte_val_lt (by omega)]
    omega
  | case4 => cases hu
  | case5 a b c hc =>
    cases hu
    have ha := h a (by simp)
    have hb' := h b (by simp)
    have hc' := h c (by simp)
    refine ⟨2, rfl, by omega, ?_⟩
    simp only [inBase, List.foldl_cons, List.foldl_nil, List.map_cons, List.map_nil]
    rw [byte_val_lt (by omega), byte_val_lt (by omega)]
    omega
  | case6 => cases hu
  | case7 a b c d rest ih =>
    rw [Option.map_eq_some_iff] at hu
    obtain ⟨bs', hb, rfl⟩ := hu
    obtain ⟨z, hz1, hz2, hz3⟩ := ih (fun v hv => h v (by simp [hv])) bs' hb
    have ha := h a (by simp)
    have hb' := h b (by simp)
    have hc' := h c (by simp)
    have hd' := h d (by simp)
    refine ⟨z, by simp only [List.length_cons]; omega, hz2, ?_⟩
    simp only [List.map_cons, inBase_cons, List.length_cons, List.length_map]
    rw [byte_val_lt (by omega), byte_val_lt (by omega), byte_val_lt (by omega), hz3]
    have hp : 64 ^ rest.length = 256 ^ bs'.length * 2 ^ z := by
      have : (64 : Nat) = 2 ^ 6 := rfl
      rw [this, ← Nat.pow_mul, hz1, Nat.pow_add, Nat.pow_mul]
    rw [Nat.pow_succ, Nat.pow_succ, Nat.pow_succ, Nat.pow_succ, Nat.pow_succ, hp]
    have key : ((a * 64 + b) * 64 + c) * 64 + d
        = ((a * 4 + b / 16) * 256 + (b % 16 * 16 + c / 4)) * 256 + (c % 4 * 64 + d) := by omega
    generalize 256 ^ bs'.length = P
    generalize 2 ^ z = Q
    generalize inBase 256 (bs'.map fun x => x.val) = R
    have : a * (P * Q * 64 * 64 * 64) + (b * (P * Q * 64 * 64) + (c * (P * Q * 64) + (d * (P * Q) + R * Q)))
        = (((a * 64 + b) * 64 + c) * 64 + d) * (P * Q) + R * Q := by ring
    rw [this, key]
    ring

theorem unpack_none (vs : List Nat) (hu : b64Unpack vs = none) :
    vs.length % 4 = 1 ∨ (vs.length % 4 = 2 ∧ ¬ 16 ∣ inBase 64 vs) ∨
      (vs.length % 4 = 3 ∧ ¬ 4 ∣ inBase 64 vs) := by
  fun_induction b64Unpack vs with
  | case1 => cases hu
  | case2 => left; rfl
  | case3 => cases hu
  | case4 a b hb =>
    right; left
    refine ⟨rfl, ?_⟩
    simp only [inBase, List.foldl_cons, List.foldl_nil]
    omega
  | case5 => cases hu
  | case6 a b c hc =>
    right; right
    refine ⟨rfl, ?_⟩
    simp only [inBase, List.foldl_cons, List.foldl_nil]
    omega
  | case7 a b c d rest ih =>
    rw [Option.map_eq_none_iff] at hu
    have hlen : (a :: b :: c :: d :: rest).length % 4 = rest.length % 4 := by
      simp only [List.length_cons]; omega
    have hval : ∀ m, m ∣ 64 → 0 < rest.length → (m ∣ inBase 64 (a :: b :: c :: d :: rest) ↔ m ∣ inBase 64 rest) := by
      intro m hm hl
      have h64 : m ∣ 64 ^ rest.length := Dvd.dvd.trans hm (dvd_pow_self _ (by omega))
      simp only [inBase_cons, List.length_cons]
      have : a * 64 ^ (rest.length + 1 + 1 + 1) + (b * 64 ^ (rest.length + 1 + 1) +
          (c * 64 ^ (rest.length + 1) + (d * 64 ^ rest.length + inBase 64 rest)))
          = 64 ^ rest.length * (((a * 64 + b) * 64 + c) * 64 + d) + inBase 64 rest := by ring
      rw [this]
      exact (Nat.dvd_add_iff_right (Dvd.dvd.mul_right h64 _)).symm
    rw [hlen]
    rcases ih hu with h | ⟨h, hd⟩ | ⟨h, hd⟩
    · exact .inl h
    · refine .inr (.inl ⟨h, fun hc => hd ?_⟩)
      exact (hval 16 (by decide) (by omega)).mp hc
    · refine .inr (.inr ⟨h, fun hc => hd ?_⟩)
      exact (hval 4 (by decide) (by omega)).mp hc

theorem unpack_iff (vs : List Nat) (h : ∀ v ∈ vs, v < 64) (bs : List Byte) :
    b64Unpack vs = some bs ↔ ∃ z, B64Rel vs bs z := by
  refine ⟨unpack_some vs h bs, ?_⟩
  rintro ⟨z, h1, h2, h3⟩
  cases hu : b64Unpack vs with
  | none =>
    rcases unpack_none vs hu with hl | ⟨hl, hd⟩ | ⟨hl, hd⟩
    · omega
    · have : z = 4 := by omega
      subst this
      exact absurd ⟨inBase 256 (bs.map (·.val)), by rw [h3]; ring⟩ hd
    · have : z = 2 := by omega
      subst this
      exact absurd ⟨inBase 256 (bs.map (·.val)), by rw [h3]; ring⟩ hd
  | some bs' =>
    obtain ⟨z', h1', h2', h3'⟩ := unpack_some vs h bs' hu
    have hz : z = z' := by omega
    subst hz
    rw [h3'] at h3
    have hin := Nat.eq_of_mul_eq_mul_right (Nat.two_pow_pos z) h3
    have hb : ∀ (l : List Byte), ∀ d ∈ l.map (·.val), d < 256 := by
      intro l d hd
      obtain ⟨x, _, rfl⟩ := List.mem_map.mp hd
      exact x.isLt
    have := inBase_inj (by simp only [List.length_map]; omega) (hb bs') (hb bs) hin
    have := (List.map_injective_iff.mpr fun _ _ h => Fin.ext h) this
    rw [this]

theorem b64Char_alphabet : ∀ n < 64, b64Alphabet[n]? = some (b64Char n) := by decide +kernel
theorem b64Val_char : ∀ n < 64, b64Val (b64Char n) = some n := by decide +kernel
theorem b64Char_ne_pad : ∀ n < 64, b64Char n ≠ '=' := by decide +kernel
theorem b64Char_ascii : ∀ n < 64, isAsciiC (b64Char n) = true := by decide +kernel

theorem b64Val_some {c : Char} {n : Nat} (h : b64Val c = some n) : n < 64 ∧ c = b64Char n := by
  have key : ∀ m < 123, ∀ n, b64Val (Char.ofNat m) = some n → n < 64 ∧ Char.ofNat m = b64Char n := by
    have : ∀ m < 123, ∀ n ∈ (b64Val (Char.ofNat m)), n < 64 ∧ Char.ofNat m = b64Char n := by decide +kernel
    exact fun m hm n hn => this m hm n hn
  have hc : c.toNat < 123 := by
    unfold b64Val at h
    have le : ∀ a b : Char, a ≤ b ↔ a.toNat ≤ b.toNat := fun _ _ => Iff.rfl
    simp only [le] at h
    split at h
    · rename_i h1; have : ('Z' : Char).toNat = 90 := rfl; omega
    · split at h
      · rename_i h1; have : ('z' : Char).toNat = 122 := rfl; omega
      · split at h
        · rename_i h1; have : ('9' : Char).toNat = 57 := rfl; omega
        · split at h
          · rename_i h1; subst h1; decide
          · split at h
            · rename_i h1; subst h1; decide
            · cases h
  have := key c.toNat hc n
  rw [Char.ofNat_toNat] at this
  exact this h

theorem b64Val_iff {c : Char} {n : Nat} : b64Val c = some n ↔ b64Alphabet[n]? = some c := by
  constructor
  · intro h
    obtain ⟨h1, h2⟩ := b64Val_some h
    rw [h2, b64Char_alphabet n h1]
  · intro h
    have hn : n < 64 := by
      have := (List.getElem?_eq_some_iff.mp h).1
      simpa [b64Alphabet] using this
    rw [b64Char_alphabet n hn] at h
    rw [← Option.some.inj h, b64Val_char n hn]

theorem option_mapM_iff {α β : Type} {f : α → Option β} {l : List α} {m : List β} :
    l.mapM f = some m ↔ List.Forall₂ (fun a b => f a = some b) l m := by
  induction l generalizing m with
  | nil => simp [eq_comm]
  | cons a l ih =>
    rw [List.mapM_cons]
    constructor
    · intro h
      simp only [Option.pure_def, Option.bind_eq_bind, Option.bind_eq_some_iff] at h
      obtain ⟨b, hb, bs, hbs, he⟩ := h
      cases he
      exact .cons hb (ih.mp hbs)
    · intro h
      cases h with
      | cons h1 h2 => simp [h1, ih.mpr h2]

theorem all_pads {s : Str} (h : s.all (· = '=') = true) : s = List.replicate s.length '=' := by
  rw [List.eq_replicate_iff]
  exact ⟨rfl, by simpa using h⟩

theorem b64Decode_iff (cs : Str) (bs : List Byte) : b64Decode cs = some bs ↔ Base64Text cs bs := by
  unfold b64Decode
  constructor
  · intro h
    simp only at h
    split at h
    · rename_i hc
      rw [Bool.and_eq_true] at hc
      rw [Option.bind_eq_some_iff] at h
      obtain ⟨vs, hvs, hu⟩ := h
      have hf := option_mapM_iff.mp hvs
      have hlt : ∀ v ∈ vs, v < 64 := by
        clear hvs hu hc
        generalize cs.takeWhile (· ≠ '=') = ds at hf
        induction hf with
        | nil => simp
        | cons h _ ih =>
          intro v hv
          rcases List.mem_cons.mp hv with rfl | hv
          · exact (b64Val_some h).1
          · exact ih v hv
      obtain ⟨z, h1, h2, h3⟩ := unpack_some vs hlt bs hu
      refine ⟨vs, cs.takeWhile (· ≠ '='), (cs.dropWhile (· ≠ '=')).length, z, ?_, ?_, h1, h2, ?_, h3⟩
      · rw [← all_pads hc.1, List.takeWhile_append_dropWhile]
      · exact (hf.imp fun _ _ h => b64Val_iff.mp h).flip
      · have hl := hf.length_eq
        have hp := hc.2
        generalize (cs.dropWhile (· ≠ '=')).length = k at hp ⊢
        unfold b64PadOk at hp
        rw [hl] at hp
        have hm : vs.length % 4 = 0 ∨ vs.length % 4 = 1 ∨ vs.length % 4 = 2 ∨ vs.length % 4 = 3 := by omega
        rcases hm with hm | hm | hm | hm <;> rw [hm] at hp <;> simp at hp <;> omega
    · cases h
  · rintro ⟨vs, ds, k, z, rfl, hf, h1, h2, h3, h4⟩
    have hne : ∀ c ∈ ds, c ≠ '=' := by
      clear h1 h4
      induction hf with
      | nil => simp
      | cons h _ ih =>
        intro c hc
        rcases List.mem_cons.mp hc with rfl | hc
        · obtain ⟨hn, he⟩ := b64Val_some (b64Val_iff.mpr h)
          rw [he]
          exact b64Char_ne_pad _ hn
        · exact ih c hc
    have ht : (ds ++ List.replicate k '=').takeWhile (· ≠ '=') = ds := by
      rw [List.takeWhile_append_of_pos (by simpa using hne)]
      cases k <;> simp [List.replicate_succ]
    have hd : (ds ++ List.replicate k '=').dropWhile (· ≠ '=') = List.replicate k '=' := by
      rw [List.dropWhile_append_of_pos (by simpa using hne)]
      cases k <;> simp [List.replicate_succ]
    simp only [ht, hd]
    have hlt : ∀ v ∈ vs, v < 64 := by
      clear h1 h4 hne ht hd
      induction hf with
      | nil => simp
      | cons h _ ih =>
        intro v hv
        rcases List.mem_cons.mp hv with rfl | hv
        · exact (b64Val_some (b64Val_iff.mpr h)).1
        · exact ih v hv
    have hvs : ds.mapM b64Val = some vs := option_mapM_iff.mpr (hf.imp fun _ _ h => b64Val_iff.mpr h).flip
    rw [hvs, if_pos, Option.bind_some, unpack_iff vs hlt]
    · exact ⟨z, h1, h2, h4⟩
    · rw [Bool.and_eq_true]
      refine ⟨by simp, ?_⟩
      have hl := hf.length_eq
      unfold b64PadOk
      rw [← hl, List.length_replicate]
      have hm : vs.length % 4 = 0 ∨ vs.length % 4 = 1 ∨ vs.length % 4 = 2 ∨ vs.length % 4 = 3 := by omega
      rcases hm with hm | hm | hm | hm <;> rw [hm] <;> simp <;> omega

theorem b64Encode_values (bs : List Byte) :
    ∃ vs k, b64Encode bs = vs.map b64Char ++ List.replicate k '=' ∧ (∀ v ∈ vs, v < 64) ∧
      b64Unpack vs = some bs ∧ b64PadOk vs.length k = true := by
  fun_induction b64Encode bs with
  | case1 => exact ⟨[], 0, rfl, by simp, rfl, rfl⟩
  | case2 x =>
    have hx := x.isLt
    refine ⟨[x.val / 4, x.val % 4 * 16], 2, rfl, ?_, ?_, rfl⟩
    · intro v hv; simp only [List.mem_cons, List.not_mem_nil, or_false] at hv; omega
    · unfold b64Unpack
      rw [if_pos (by omega), show x.val / 4 * 4 + x.val % 4 * 16 / 16 = x.val by omega]
      simp [byte]
  | case3 x y =>
    have hx := x.isLt
    have hy := y.isLt
    refine ⟨[x.val / 4, x.val % 4 * 16 + y.val / 16, y.val % 16 * 4], 1, rfl, ?_, ?_, rfl⟩
    · intro v hv; simp only [List.mem_cons, List.not_mem_nil, or_false] at hv; omega
    · unfold b64Unpack
      rw [if_pos (by omega), show x.val / 4 * 4 + (x.val % 4 * 16 + y.val / 16) / 16 = x.val by omega,
        show (x.val % 4 * 16 + y.val / 16) % 16 * 16 + y.val % 16 * 4 / 4 = y.val by omega]
      simp [byte]
  | case4 x y z rest ih =>
    obtain ⟨vs, k, h1, h2, h3, h4⟩ := ih
    have hx := x.isLt
    have hy := y.isLt
    have hz := z.isLt
    refine ⟨x.val / 4 :: (x.val % 4 * 16 + y.val / 16) :: (y.val % 16 * 4 + z.val / 64) ::
      (z.val % 64) :: vs, k, ?_, ?_, ?_, ?_⟩
    · rw [h1]; rfl
    · intro v hv
      simp only [List.mem_cons] at hv
      rcases hv with rfl | rfl | rfl | rfl | hv
      · omega
      · omega
      · omega
      · omega
      · exact h2 v hv
    · unfold b64Unpack
      rw [h3, show x.val / 4 * 4 + (x.val % 4 * 16 + y.val / 16) / 16 = x.val by omega,
        show (x.val % 4 * 16 + y.val / 16) % 16 * 16 + (y.val % 16 * 4 + z.val / 64) / 4 = y.val by omega,
        show (y.val % 16 * 4 + z.val / 64) % 4 * 64 + z.val % 64 = z.val by omega]
      simp [byte]
    · have : (x.val / 4 :: (x.val % 4 * 16 + y.val / 16) :: (y.val % 16 * 4 + z.val / 64) ::
        (z.val % 64) :: vs).length % 4 = vs.length % 4 := by simp only [List.length_cons]; omega
      unfold b64PadOk at h4 ⊢
      rw [this]
      exact h4

theorem b64Encode_text (bs : List Byte) : Base64Text (b64Encode bs) bs := by
  obtain ⟨vs, k, h1, h2, h3, h4⟩ := b64Encode_values bs
  obtain ⟨z, r1, r2, r3⟩ := unpack_some vs h2 bs h3
  refine ⟨vs, vs.map b64Char, k, z, h1, ?_, r1, r2, ?_, r3⟩
  · clear h1 h3 h4 r1 r3
    induction vs with
    | nil => exact .nil
    | cons v vs ih =>
      exact .cons (b64Char_alphabet v (h2 v (by simp))) (ih fun v hv => h2 v (by simp [hv]))
  · unfold b64PadOk at h4
    have hm : vs.length % 4 = 0 ∨ vs.length % 4 = 1 ∨ vs.length % 4 = 2 ∨ vs.length % 4 = 3 := by omega
    rcases hm with hm | hm | hm | hm <;> rw [hm] at h4 <;> simp at h4 <;> omega

theorem b64Decode_encode (bs : List Byte) : b64Decode (b64Encode bs) = some bs :=
  (b64Decode_iff _ _).mpr (b64Encode_text bs)

theorem b64Encode_ascii (bs : List Byte) : isAscii (b64Encode bs) = true := by
  obtain ⟨vs, k, h1, h2, _, _⟩ := b64Encode_values bs
  rw [h1]
  unfold isAscii
  rw [List.all_append, Bool.and_eq_true, List.all_map, List.all_eq_true, List.all_eq_true]
  refine ⟨fun v hv => b64Char_ascii v (h2 v hv), fun c hc => ?_⟩
  rw [(List.mem_replicate.mp hc).2]
  decide

end HT
