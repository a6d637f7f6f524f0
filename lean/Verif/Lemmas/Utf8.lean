import Verif.Core.Utf8
import Verif.Lemmas.Str

namespace HT

theorem byte_val {n : Nat} (h : n < 256) : (byte n).val = n := by
  simp [byte, Fin.ofNat, Nat.mod_eq_of_lt h]

theorem byte_val_self (b : Byte) : byte b.val = b := by
  apply Fin.ext; rw [byte_val b.isLt]

theorem ofNat_toNat (c : Char) : Char.ofNat c.toNat = c := by
  simp

theorem toNat_ofNat_valid {n : Nat} (h : n < 0xD800 ∨ (0xE000 ≤ n ∧ n < 0x110000)) :
    (Char.ofNat n).toNat = n := by
  have : n.isValidChar := by
    rcases h with h | h
    · exact Or.inl h
    · exact Or.inr ⟨by omega, by omega⟩
  simp [Char.ofNat, this, Char.toNat, Char.ofNatAux, UInt32.toNat]

theorem char_range (c : Char) : c.toNat < 0xD800 ∨ (0xE000 ≤ c.toNat ∧ c.toNat < 0x110000) := by
  have := c.valid
  rcases this with h | h
  · exact Or.inl h
  · exact Or.inr ⟨by have := h.1; show 0xE000 ≤ c.val.toNat; omega, h.2⟩

theorem isCont_byte (n : Nat) : isCont (byte (0x80 + n % 64)) = true := by
  unfold isCont
  rw [byte_val (by omega)]; simp; omega

theorem utf8Decode_encodeC (c : Char) (r : List Byte) :
    utf8Decode (utf8EncodeC c ++ r) = (utf8Decode r).map (c :: ·) := by
  have hc := char_range c
  have hcc : ∀ m, m = c.toNat → Char.ofNat m = c := by rintro m rfl; exact ofNat_toNat c
  unfold utf8EncodeC
  dsimp only
  split
  · simp only [List.cons_append, List.nil_append]
    rw [utf8Decode.eq_def]
    dsimp only
    rw [byte_val (by omega), if_pos (by omega), ofNat_toNat]
  split
  · simp only [List.cons_append, List.nil_append]
    rw [utf8Decode.eq_def]
    dsimp only
    rw [byte_val (by omega), if_neg (by omega), if_neg (by omega),
      if_pos (by omega)]
    simp only [isCont_byte]
    rw [byte_val (by omega), if_pos (by simp), hcc _ (by omega)]
  split
  · simp only [List.cons_append, List.nil_append]
    rw [utf8Decode.eq_def]
    dsimp only
    rw [byte_val (by omega), if_neg (by omega), if_neg (by omega),
      if_neg (by omega), if_pos (by omega)]
    simp only [isCont_byte]
    rw [byte_val (n := 0x80 + c.toNat / 64 % 64) (by omega),
      byte_val (n := 0x80 + c.toNat % 64) (by omega), if_pos (by simp; omega), hcc _ (by omega)]
  · simp only [List.cons_append, List.nil_append]
    rw [utf8Decode.eq_def]
    dsimp only
    rw [byte_val (by omega), if_neg (by omega), if_neg (by omega),
      if_neg (by omega), if_neg (by omega), if_pos (by omega)]
    simp only [isCont_byte]
    rw [byte_val (n := 0x80 + c.toNat / 64 % 64) (by omega),
      byte_val (n := 0x80 + c.toNat / 4096 % 64) (by omega),
      byte_val (n := 0x80 + c.toNat % 64) (by omega), if_pos (by simp; omega), hcc _ (by omega)]

theorem utf8Decode_encode (s : Str) : utf8Decode (utf8Encode s) = some s := by
  induction s with
  | nil => simp [utf8Encode, utf8Decode]
  | cons c s ih =>
    have : utf8Encode (c :: s) = utf8EncodeC c ++ utf8Encode s := rfl
    rw [this, utf8Decode_encodeC, ih]; rfl

theorem utf8Encode_injective {s t : Str} (h : utf8Encode s = utf8Encode t) : s = t := by
  have := congrArg utf8Decode h
  simpa [utf8Decode_encode] using this

theorem utf8Encode_decode {bs : List Byte} {s : Str} (h : utf8Decode bs = some s) :
    utf8Encode s = bs := by
  have hcons : ∀ (c : Char) (t : Str), utf8Encode (c :: t) = utf8EncodeC c ++ utf8Encode t :=
    fun _ _ => rfl
  fun_induction utf8Decode bs generalizing s
  · simp at h; subst h; rfl
  all_goals first
    | (exfalso; simp at h; done)
    | skip
  all_goals
    rename_i ih
    simp only [Option.map_eq_some_iff] at h
    obtain ⟨t, ht, rfl⟩ := h
    rw [hcons, ih ht]
  · rename_i b0 rest h1
    have := b0.isLt
    unfold utf8EncodeC
    rw [toNat_ofNat_valid (by omega)]
    simp [h1, byte_val_self]
  · rename_i b0 h1 h2 h3 b1 r h4 
    have := b0.isLt
    have := b1.isLt
    simp [isCont] at h4
    unfold utf8EncodeC
    rw [toNat_ofNat_valid (by omega)]
    dsimp only
    rw [if_neg (by omega), if_pos (by omega)]
    simp only [List.cons_append, List.nil_append]
    refine congrArg₂ List.cons ?_ (congrArg₂ List.cons ?_ rfl) <;>
      (apply Fin.ext; rw [byte_val (by omega)]; omega)
  · rename_i b0 h1 h2 h3 h4 b1 b2 r n h5
    have := b0.isLt
    have := b1.isLt
    have := b2.isLt
    simp [isCont] at h5
    have hn : n = (b0.val - 0xE0) * 4096 + (b1.val - 0x80) * 64 + (b2.val - 0x80) := rfl
    unfold utf8EncodeC
    rw [toNat_ofNat_valid (by omega)]
    dsimp only
    rw [if_neg (by omega), if_neg (by omega), if_pos (by omega)]
    simp only [List.cons_append, List.nil_append]
    refine congrArg₂ List.cons ?_ (congrArg₂ List.cons ?_ (congrArg₂ List.cons ?_ rfl)) <;>
      (apply Fin.ext; rw [byte_val (by omega)]; omega)
  · rename_i b0 h1 h2 h3 h4 h4' b1 b2 b3 r n h5
    have := b0.isLt
    have := b1.isLt
    have := b2.isLt
    have := b3.isLt
    simp [isCont] at h5
    have hn : n = (b0.val - 0xF0) * 262144 + (b1.val - 0x80) * 4096 + (b2.val - 0x80) * 64
          + (b3.val - 0x80) := rfl
    unfold utf8EncodeC
    rw [toNat_ofNat_valid (by omega)]
    dsimp only
    rw [if_neg (by omega), if_neg (by omega), if_neg (by omega)]
    simp only [List.cons_append, List.nil_append]
    refine congrArg₂ List.cons ?_ (congrArg₂ List.cons ?_ (congrArg₂ List.cons ?_ (congrArg₂ List.cons ?_ rfl))) <;>
      (apply Fin.ext; rw [byte_val (by omega)]; omega)

theorem utf8Decode_eq_some_iff {bs : List Byte} {s : Str} :
    utf8Decode bs = some s ↔ utf8Encode s = bs :=
  ⟨utf8Encode_decode, fun h => h ▸ utf8Decode_encode s⟩

/-- ASCII strings encode to their own code points. -/
theorem utf8Encode_ascii {s : Str} (h : isAscii s = true) :
    utf8Encode s = s.map fun c => byte c.toNat := by
  induction s with
  | nil => rfl
  | cons c s ih =>
    simp at h
    have : utf8Encode (c :: s) = utf8EncodeC c ++ utf8Encode s := rfl
    rw [this, ih h.2]
    have hc := h.1
    simp [isAsciiC] at hc
    simp [utf8EncodeC, hc]

end HT
