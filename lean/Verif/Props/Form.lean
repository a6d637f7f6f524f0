import Verif.Model.Form
import Verif.Spec.Form
import Verif.Lemmas.Ipv6
import Verif.Lemmas.FMap
import Verif.Props.Body
import Verif.Props.Whole

/-! C139 (forms). -/

namespace HT
open Spec

namespace Form

theorem hexVal_iff (b : Byte) (d : Nat) : hexVal b = some d ↔ HexByte b d := Ip.hexDigit_iff _ d

def plus (b : Byte) : Byte := if b = 43 then 32 else b

theorem hexVal_plus (b : Byte) : hexVal (plus b) = hexVal b := by
  unfold plus
  split
  · next h => subst h; decide
  · rfl

theorem formBytes_unique {w bs : List Byte} (h : FormBytes w bs) : ∀ {cs}, FormBytes w cs → bs = cs := by
  have val : ∀ {b x y}, HexByte b x → HexByte b y → x = y := fun h1 h2 =>
    Option.some.inj (((hexVal_iff _ _).2 h1).symm.trans ((hexVal_iff _ _).2 h2))
  induction h with
  | nil => intro cs h; cases h; rfl
  | blank _ ih =>
    intro cs h
    cases h with
    | blank h => rw [ih h]
    | plain h => exact absurd rfl h
  | escaped hh hl _ ih =>
    intro cs h
    cases h with
    | escaped hh' hl' h => rw [ih h, val hh hh', val hl hl']
    | plain _ h => exact absurd ⟨_, _, _, _, _, rfl, hh, hl⟩ (h rfl)
  | plain h1 h2 _ ih =>
    intro cs h
    cases h with
    | blank h => exact absurd rfl h1
    | escaped hh hl h => exact absurd ⟨_, _, _, _, _, rfl, hh, hl⟩ (h2 rfl)
    | plain _ _ h => rw [ih h]

theorem percentDecode_ne {b : Byte} (h : b ≠ 37) (r : List Byte) : percentDecode (b :: r) = b :: percentDecode r := by
  conv_lhs => unfold percentDecode
  split
  · next e => exact absurd (List.cons.inj e).1 h
  · next e => cases e; rfl
  · next e => cases e

theorem formBytes_decode : ∀ (n : Nat) (w : List Byte), w.length ≤ n → FormBytes w (percentDecode (w.map plus))
  | _, [], _ => by simpa [percentDecode] using FormBytes.nil
  | 0, _ :: _, h => by simp at h
  | n + 1, b :: w, h => by
    have hl : w.length ≤ n := by simpa using h
    by_cases hb : b = 43
    · subst hb
      rw [List.map_cons, show plus 43 = 32 by decide, percentDecode_ne (by decide)]
      exact .blank (formBytes_decode n w hl)
    · have hp : plus b = b := if_neg hb
      by_cases h37 : b = 37
      · subst h37
        rw [List.map_cons, hp]
        match w, hl with
        | [], _ =>
          exact .plain (by decide) (fun _ ⟨_, _, _, _, _, e, _⟩ => by cases e) FormBytes.nil
        | [x], hl =>
          have h1 := formBytes_decode n [x] hl
          have : percentDecode (37 :: [x].map plus) = 37 :: percentDecode ([x].map plus) := by
            conv_lhs => unfold percentDecode
            rfl
          rw [this]
          exact .plain (by decide) (fun _ ⟨_, _, _, _, _, e, _⟩ => by cases e) h1
        | x :: y :: r, hl =>
          have hr : r.length ≤ n := by simp only [List.length_cons] at hl; omega
          have h1 := formBytes_decode n (x :: y :: r) hl
          have h2 := formBytes_decode n r hr
          conv_rhs => unfold percentDecode
          simp only [List.map_cons, hexVal_plus] at h1 ⊢
          cases hx : hexVal x with
          | none =>
            refine .plain (by decide) (fun _ ⟨_, _, _, _, _, e, e1, _⟩ => ?_) h1
            cases e
            rw [← hexVal_iff, hx] at e1
            cases e1
          | some d =>
            cases hy : hexVal y with
            | none =>
              refine .plain (by decide) (fun _ ⟨_, _, _, _, _, e, _, e1⟩ => ?_) h1
              cases e
              rw [← hexVal_iff, hy] at e1
              cases e1
            | some e => exact .escaped ((hexVal_iff _ _).1 hx) ((hexVal_iff _ _).1 hy) h2
      · rw [List.map_cons, hp, percentDecode_ne h37]
        exact .plain hb (fun h => absurd h h37) (formBytes_decode n w hl)

theorem decodeField_iff (lossy : List Byte → Str) (w s : Str) : decodeField lossy w = s ↔ FieldMeans lossy w s := by
  have hf := formBytes_decode _ (utf8Encode w) (Nat.le_refl _)
  have he : decodeField lossy w = (utf8Decode (percentDecode ((utf8Encode w).map plus))).getD
    (lossy (percentDecode ((utf8Encode w).map plus))) := rfl
  rw [he]
  generalize percentDecode ((utf8Encode w).map plus) = bs at hf
  cases hd : utf8Decode bs with
  | some t =>
    have ht := utf8Encode_decode hd
    constructor
    · rintro rfl
      exact ⟨bs, hf, .inl ht⟩
    · rintro ⟨cs, hc, h⟩
      cases formBytes_unique hf hc
      rcases h with h | ⟨h, -⟩
      · exact utf8Encode_injective (ht.trans h.symm)
      · exact absurd ht (h t)
  | none =>
    have hno : ∀ t, utf8Encode t ≠ bs := fun t h => by
      rw [← utf8Decode_eq_some_iff, hd] at h
      cases h
    constructor
    · rintro rfl
      exact ⟨bs, hf, .inr ⟨hno, rfl⟩⟩
    · rintro ⟨cs, hc, h⟩
      cases formBytes_unique hf hc
      rcases h with h | ⟨-, rfl⟩
      · exact absurd h (hno s)
      · rfl

theorem pair_iff (lossy : List Byte → Str) (w : Str) (p : Str × Str) :
    decodePair lossy w = p ↔ PairMeans lossy w p := by
  unfold decodePair
  cases hs : splitOnce '=' w with
  | none =>
    have hn := splitOnce_eq_none.1 hs
    constructor
    · rintro rfl
      exact .inr ⟨hn, (decodeField_iff _ _ _).1 rfl, rfl⟩
    · rintro (⟨n, v, rfl, -⟩ | ⟨-, h, h2⟩)
      · simp at hn
      · exact Prod.ext ((decodeField_iff _ _ _).2 h) h2.symm
  | some q =>
    obtain ⟨n, v⟩ := q
    obtain ⟨rfl, hn⟩ := splitOnce_eq_some hs
    constructor
    · rintro rfl
      exact .inl ⟨n, v, rfl, hn, (decodeField_iff _ _ _).1 rfl, (decodeField_iff _ _ _).1 rfl⟩
    · rintro (⟨n', v', e, hn', h1, h2⟩ | ⟨h, -⟩)
      · rw [e, splitOnce_append hn'] at hs
        cases hs
        exact Prod.ext ((decodeField_iff _ _ _).2 h1) ((decodeField_iff _ _ _).2 h2)
      · simp at h

end Form

/-- Any text is read as the form it stands for. -/
theorem C139_reads_iff (lossy : List Byte → Str) (t : Str) (ps : List (Str × Str)) :
    Form.decode lossy t = ps ↔ FormMeans lossy t ps := by
  have forall₂ : ∀ (l : List Str) (ps : List (Str × Str)), l.map (Form.decodePair lossy) = ps ↔ List.Forall₂ (PairMeans lossy) l ps := by
    intro l ps
    rw [← List.forall₂_eq_eq_eq, List.forall₂_map_left_iff]
    constructor <;> intro h <;> exact h.imp fun w p e => by first | exact (Form.pair_iff lossy w p).1 e | exact (Form.pair_iff lossy w p).2 e
  unfold Form.decode
  rw [forall₂]
  constructor
  · intro h
    exact ⟨split '&' t, split_ne_nil _ _, (join_split _ _).symm, fun w hw => not_mem_of_mem_split hw, h⟩
  · rintro ⟨ws, hne, rfl, hw, h⟩
    obtain ⟨x, xs, rfl⟩ := List.exists_cons_of_ne_nil hne
    rw [split_join (t := []) (by simp) hw]
    simpa using h

example : FormMeans (fun _ => []) s!!"a=1+2&&b%3D=%C3%A9&c" [(s!!"a", s!!"1 2"), (s!!"b=", s!!"é"), (s!!"c", [])] :=
  (C139_reads_iff _ _ _).1 (by decide +kernel)

/-! ### Written forms -/

namespace Form

theorem encodeByte_cases (b : Byte) :
    (encodeByte b = [Char.ofNat b.val] ∧ Unreserved (Char.ofNat b.val) ∧ b.val < 128) ∨ (encodeByte b = s!!"+" ∧ b = 32) ∨
    ∃ h l, encodeByte b = ['%', h, l] ∧ toDigit 16 h = some (b.val / 16) ∧ toDigit 16 l = some (b.val % 16) ∧ Unreserved h ∧
      Unreserved l := by
  revert b
  unfold Unreserved
  have : ∀ b : Byte, (encodeByte b = [Char.ofNat b.val] ∧ Unreserved (Char.ofNat b.val) ∧ b.val < 128) ∨
      (encodeByte b = s!!"+" ∧ b = 32) ∨
      (encodeByte b = ['%', bigDigit (b.val / 16), bigDigit (b.val % 16)] ∧ toDigit 16 (bigDigit (b.val / 16)) = some (b.val / 16) ∧
        toDigit 16 (bigDigit (b.val % 16)) = some (b.val % 16) ∧ Unreserved (bigDigit (b.val / 16)) ∧
        Unreserved (bigDigit (b.val % 16))) := by
    unfold Unreserved
    decide +kernel
  intro b
  rcases this b with h | h | h
  · exact .inl h
  · exact .inr (.inl h)
  · exact .inr (.inr ⟨_, _, h⟩)

theorem unreserved_facts {c : Char} (h : Unreserved c) : c.toNat < 128 ∧ c ≠ '&' ∧ c ≠ '=' ∧ c ≠ '+' ∧ c ≠ '%' := by
  have le : ∀ {a b : Char}, a ≤ b → a.toNat ≤ b.toNat := fun h => h
  have ne : ∀ {d : Char}, c.toNat ≠ d.toNat → c ≠ d := fun h e => h (e ▸ rfl)
  rcases h with ⟨h1, h2⟩ | ⟨h1, h2⟩ | ⟨h1, h2⟩ | rfl | rfl | rfl | rfl
  iterate 3
    have h1 := le h1
    have h2 := le h2
    simp only [Char.reduceToNat] at h1 h2
    refine ⟨by omega, ne ?_, ne ?_, ne ?_, ne ?_⟩ <;> simp only [Char.reduceToNat] <;> omega
  all_goals decide

/-- Characters of written names and values. -/
theorem encodeField_chars (s : Str) : ∀ c ∈ encodeField s, Unreserved c ∨ c = '+' ∨ c = '%' := by
  intro c hc
  obtain ⟨b, -, hb⟩ := List.mem_flatMap.1 hc
  rcases encodeByte_cases b with ⟨e, h, -⟩ | ⟨e, -⟩ | ⟨h, l, e, -, -, hh, hl⟩ <;> rw [e] at hb
  · rw [List.mem_singleton.1 hb]; exact .inl h
  · rw [List.mem_singleton.1 hb]; exact .inr (.inl rfl)
  · simp only [List.mem_cons, List.not_mem_nil, or_false] at hb
    rcases hb with rfl | rfl | rfl
    · exact .inr (.inr rfl)
    · exact .inl hh
    · exact .inl hl

theorem field_written (lossy : List Byte → Str) (s : Str) : FieldMeans lossy (encodeField s) s := by
  refine ⟨utf8Encode s, ?_, .inl rfl⟩
  unfold encodeField
  induction utf8Encode s with
  | nil => exact FormBytes.nil
  | cons b bs ih =>
    have split : ∀ a c : Str, utf8Encode (a ++ c) = utf8Encode a ++ utf8Encode c := fun a c => List.flatMap_append
    rw [List.flatMap_cons, split]
    have one : ∀ {c : Char}, c.toNat < 128 → utf8EncodeC c = [byte c.toNat] := fun h => by unfold utf8EncodeC; exact if_pos h
    rcases encodeByte_cases b with ⟨e, h, hb⟩ | ⟨e, rfl⟩ | ⟨h, l, e, h1, h2, hh, hl⟩ <;> rw [e]
    · have hv : (Char.ofNat b.val).toNat = b.val := toNat_ofNat_valid (.inl (by omega))
      obtain ⟨-, -, -, hp, hq⟩ := unreserved_facts h
      have : utf8Encode [Char.ofNat b.val] = [b] := by
        show utf8EncodeC _ ++ [] = _
        rw [one (by omega), hv, byte_val_self]
        rfl
      rw [this]
      refine .plain ?_ ?_ ih
      · rintro rfl; exact hp (by decide)
      · rintro rfl; exact absurd (by decide) hq
    · exact .blank ih
    · have e1 := (unreserved_facts hh).1
      have e2 := (unreserved_facts hl).1
      have : utf8Encode ['%', h, l] = [37, byte h.toNat, byte l.toNat] := by
        show utf8EncodeC _ ++ (utf8EncodeC _ ++ (utf8EncodeC _ ++ [])) = _
        rw [one (c := '%') (by decide), one e1, one e2]
        rfl
      rw [this]
      have hb : byte (b.val / 16 * 16 + b.val % 16) = b := by
        rw [Nat.mul_comm, Nat.div_add_mod, byte_val_self]
      rw [← hb]
      have key : ∀ {c : Char} {d : Nat}, c.toNat < 128 → toDigit 16 c = some d → HexByte (byte c.toNat) d := by
        intro c d hc hd
        unfold HexByte
        rw [byte_val (by omega), ofNat_toNat]
        exact (Ip.hexDigit_iff _ _).1 hd
      have := FormBytes.escaped (key e1 h1) (key e2 h2) ih
      simpa using this

theorem pair_written (lossy : List Byte → Str) (p : Str × Str) : PairMeans lossy (encodePair p) p := by
  refine .inl ⟨_, _, rfl, fun h => ?_, field_written _ _, field_written _ _⟩
  rcases encodeField_chars _ _ h with h | h | h
  · exact (unreserved_facts h).2.2.1 rfl
  · exact absurd h (by decide)
  · exact absurd h (by decide)

theorem pair_no_amp (p : Str × Str) : '&' ∉ encodePair p := by
  have field : ∀ s, '&' ∉ encodeField s := by
    intro s h
    rcases encodeField_chars _ _ h with h | h | h
    · exact (unreserved_facts h).2.1 rfl
    · exact absurd h (by decide)
    · exact absurd h (by decide)
  unfold encodePair
  simp only [List.mem_append, List.mem_cons, not_or]
  exact ⟨field _, by decide, field _⟩

end Form

/-- What is written for any pairs stands for these pairs, to any reader. -/
theorem C139_written (lossy : List Byte → Str) (ps : List (Str × Str)) : FormMeans lossy (Form.encode ps) ps := by
  cases ps with
  | nil => exact ⟨[[]], by simp, rfl, by simp, .nil⟩
  | cons p ps =>
    refine ⟨(p :: ps).map Form.encodePair, by simp, rfl, fun w hw => ?_, ?_⟩
    · obtain ⟨q, -, rfl⟩ := List.mem_map.1 hw
      exact Form.pair_no_amp q
    · have : ((p :: ps).map Form.encodePair).filter (· ≠ []) = (p :: ps).map Form.encodePair := by
        rw [List.filter_eq_self]
        intro w hw
        obtain ⟨q, -, rfl⟩ := List.mem_map.1 hw
        simp [Form.encodePair]
      rw [this, List.forall₂_map_left_iff]
      exact List.forall₂_same.2 fun q _ => Form.pair_written lossy q

example : Form.encode [(s!!"q", s!!"50% of é"), (s!!"", s!!"a&b=c")] = s!!"q=50%25+of+%C3%A9&=a%26b%3Dc" := by decide +kernel

/-- So they are read back, all of them and in order. -/
theorem C139_back (lossy : List Byte → Str) (ps : List (Str × Str)) : Form.decode lossy (Form.encode ps) = ps :=
  (C139_reads_iff lossy _ _).2 (C139_written lossy ps)

example : Form.decode (fun _ => []) s!!"q=50%25+of+%C3%A9&=a%26b%3Dc" = [(s!!"q", s!!"50% of é"), (s!!"", s!!"a&b=c")] := by
  decide +kernel

/-- Different pairs have different texts. -/
theorem C139_distinct {ps qs : List (Str × Str)} (h : Form.encode ps = Form.encode qs) : ps = qs := by
  rw [← C139_back (fun _ => []) ps, h, C139_back]

example : Form.encode [(s!!"a", s!!"b&c=d")] ≠ Form.encode [(s!!"a", s!!"b"), (s!!"c", s!!"d")] :=
  fun h => absurd (C139_distinct h) (by decide)

/-- The text has nothing but characters that stand for themselves and the four signs. -/
theorem C139_chars (ps : List (Str × Str)) : ∀ c ∈ Form.encode ps, Unreserved c ∨ c ∈ s!!"+%=&" := by
  have field : ∀ s, ∀ c ∈ Form.encodeField s, Unreserved c ∨ c ∈ s!!"+%=&" := by
    intro s c hc
    rcases Form.encodeField_chars s c hc with h | rfl | rfl
    · exact .inl h
    · exact .inr (by decide)
    · exact .inr (by decide)
  have pair : ∀ w ∈ ps.map Form.encodePair, ∀ c ∈ w, Unreserved c ∨ c ∈ s!!"+%=&" := by
    intro w hw c hc
    obtain ⟨p, -, rfl⟩ := List.mem_map.1 hw
    rcases List.mem_append.1 hc with h | h
    · exact field _ c h
    · rcases List.mem_cons.1 h with rfl | h
      · exact .inr (by decide)
      · exact field _ c h
  unfold Form.encode
  generalize ps.map Form.encodePair = ws at pair
  induction ws with
  | nil => intro c hc; cases hc
  | cons w ws ih =>
    cases ws with
    | nil => intro c hc; exact pair w (by simp) c (by simpa [join] using hc)
    | cons v ws =>
      intro c hm
      simp only [join, List.mem_append] at hm
      rcases hm with (hm | hm) | hm
      · exact pair w (by simp) c hm
      · rw [List.mem_singleton.1 hm]
        exact .inr (by decide)
      · exact ih (fun u hu => pair u (List.mem_cons_of_mem _ hu)) c hm

example : Form.encode [(s!!"a\r\n", s!!"é")] = s!!"a%0D%0A=%C3%A9" := by decide +kernel

/-- A name and a value of such characters stand in the text as they are. -/
theorem C139_as_is (n v : Str) (hn : ∀ c ∈ n, Unreserved c) (hv : ∀ c ∈ v, Unreserved c) :
    Form.encode [(n, v)] = n ++ s!!"=" ++ v := by
  have small : ∀ b : Byte, b.val < 128 → Unreserved (Char.ofNat b.val) → Form.encodeByte b = [Char.ofNat b.val] := by
    unfold Unreserved
    decide +kernel
  have field : ∀ s : Str, (∀ c ∈ s, Unreserved c) → Form.encodeField s = s := by
    intro s h
    induction s with
    | nil => rfl
    | cons c s ih =>
      have hc := h c (by simp)
      have h1 := (Form.unreserved_facts hc).1
      have h2 : utf8Encode (c :: s) = [byte c.toNat] ++ utf8Encode s := by
        show utf8EncodeC c ++ utf8Encode s = _
        rw [show utf8EncodeC c = [byte c.toNat] by unfold utf8EncodeC; exact if_pos h1]
      have h3 := small (byte c.toNat) (by rw [byte_val (by omega)]; exact h1)
        (by rw [byte_val (by omega), ofNat_toNat]; exact hc)
      rw [byte_val (by omega), ofNat_toNat] at h3
      unfold Form.encodeField at ih ⊢
      rw [h2, List.flatMap_append, ih fun d hd => h d (List.mem_cons_of_mem _ hd)]
      simp [h3]
  show Form.encodeField n ++ '=' :: Form.encodeField v = _
  rw [field n hn, field v hv]
  simp

example : ∀ c ∈ s!!"user_name.1", Unreserved c := by unfold Unreserved; decide

/-- Two texts one after the other, with an ampersand between them, are read as the pairs of the one and then of the other. -/
theorem C139_joined (lossy : List Byte → Str) (a b : Str) :
    Form.decode lossy (a ++ s!!"&" ++ b) = Form.decode lossy a ++ Form.decode lossy b := by
  have h : ∀ a : Str, split '&' (a ++ '&' :: b) = split '&' a ++ split '&' b := by
    intro a
    induction a with
    | nil => simp [split]
    | cons x a ih =>
      by_cases hx : x = '&'
      · subst hx
        simp [split, ih]
      · simp only [List.cons_append, split, if_neg hx, ih]
        cases hs : split '&' a with
        | nil => exact absurd hs (split_ne_nil _ _)
        | cons p ps => rfl
  unfold Form.decode
  rw [List.append_assoc, show s!!"&" ++ b = '&' :: b from rfl, h, List.filter_append, List.map_append]

example : Form.decode (fun _ => []) s!!"a=1&b=2" = [(s!!"a", s!!"1"), (s!!"b", s!!"2")] := by decide +kernel

/-- Read as a map, each name has the value that came last for it. -/
theorem C139_map (lossy : List Byte → Str) (t : Str) (k : Str) :
    (Form.toMap (Form.decode lossy t)).get k = (((Form.decode lossy t).filter (·.1 = k)).getLast?).map (·.2) := by
  have h : ∀ (ps : List (Str × Str)) (m : FMap Str Str), (ps.foldl (fun m p => m.set p.1 p.2) m).get k =
      (((ps.filter (·.1 = k)).getLast?).map (·.2)).or (m.get k) := by
    intro ps
    induction ps with
    | nil => intro m; rfl
    | cons p ps ih =>
      intro m
      rw [List.foldl_cons, ih, FMap.get_set]
      by_cases hk : p.1 = k
      · rw [if_pos hk, List.filter_cons_of_pos (by simpa using hk)]
        cases hl : (ps.filter (·.1 = k)).getLast? with
        | none =>
          rw [List.getLast?_eq_none_iff.1 hl]
          rfl
        | some q =>
          rw [List.getLast?_cons, hl]
          rfl
      · rw [if_neg hk, List.filter_cons_of_neg (by simpa using hk)]
  unfold Form.toMap
  rw [h]
  cases ((Form.decode lossy t).filter (·.1 = k)).getLast? <;> rfl

example : (Form.toMap (Form.decode (fun _ => []) s!!"a=1&b=2&a=3")).get s!!"a" = some s!!"3" := by decide +kernel

/-- A map written in any order is read back as the same map. -/
theorem C139_map_back (lossy : List Byte → Str) (m : FMap Str Str) (ps : List (Str × Str))
    (hm : ∀ k v, (k, v) ∈ ps ↔ m.get k = some v) (k : Str) :
    (Form.toMap (Form.decode lossy (Form.encode ps))).get k = m.get k := by
  rw [C139_map, C139_back]
  cases hg : m.get k with
  | none =>
    have : ps.filter (·.1 = k) = [] := by
      rw [List.filter_eq_nil_iff]
      rintro ⟨a, v⟩ hp hd
      have ha : a = k := by simpa using hd
      subst ha
      rw [(hm a v).1 hp] at hg
      cases hg
    rw [this]
    rfl
  | some v =>
    have hp := (hm k v).2 hg
    cases hl : (ps.filter (·.1 = k)).getLast? with
    | none =>
      rw [List.getLast?_eq_none_iff, List.filter_eq_nil_iff] at hl
      exact absurd (by simp) (hl _ hp)
    | some q =>
      obtain ⟨a, u⟩ := q
      have h1 := List.mem_of_getLast? hl
      rw [List.mem_filter] at h1
      have ha : a = k := by simpa using h1.2
      subst ha
      have := (hm a u).1 h1.1
      rw [hg] at this
      cases this
      rfl

example : (Form.toMap (Form.decode (fun _ => []) (Form.encode [(s!!"b", s!!"2"), (s!!"a", s!!"1")]))).get s!!"b" = some s!!"2" := by
  decide +kernel

/-- A form put into a request is what its reader gets, with the media type of forms when no other was chosen. -/
theorem C139_request {Url Ty : Type} {T : Ty → Type} [DecidableEq Ty] (lossy : List Byte → Str) (ps : List (Str × Str)) (r : ReqVal Url (Body (List Byte)) T)
    (ns : List Nat) (hns : ∀ n ∈ ns, n ≠ 0) (hl : (Form.encode ps).length < ns.length) (hm : (Form.encode ps).length < 2 ^ 63) :
    ∃ b, Body.fromForm (some (Form.encode ps)) = .ok b ∧ b.len = some (Form.encode ps).length ∧
      let q := ReqOp.step (Body.iface []) r (.body (.set b))
      (q.bodyInto (Body.iface []) fun b => b.intoForm (some ∘ Form.decode lossy) cursorI ns).1 = some (.ok ps) ∧
      q.msg.headers.get s!!"content-type" =
        (r.msg.headers.get s!!"content-type").or (some [s!!"application/x-www-form-urlencoded"]) := by
  have hlen : (utf8Encode (Form.encode ps)).length = (Form.encode ps).length := by
    have ha : isAscii (Form.encode ps) = true := by
      simp only [isAscii, List.all_eq_true]
      intro c hc
      rcases C139_chars ps c hc with h | h
      · have := (Form.unreserved_facts h).1
        simpa [isAsciiC] using this
      · have : ∀ d ∈ s!!"+%=&", isAsciiC d = true := by decide
        exact this c h
    rw [utf8Encode_ascii ha, List.length_map]
  obtain ⟨b, hb, h1, h2, h3⟩ := (C64_form (some ∘ Form.decode lossy) (some (Form.encode ps))).2 _ rfl
  rw [hlen] at h1 h3
  refine ⟨b, hb, h1, ?_, ?_⟩
  · have : (ReqOp.step (Body.iface []) r (.body (.set b))).msg.body = b := C12_new_body _ _ (.set b)
    show Body.intoForm _ cursorI (ReqOp.step (Body.iface []) r (.body (.set b))).msg.body ns = _
    rw [this, h3 ns hns hl hm]
    simp [C139_back]
  · cases hg : r.msg.headers.get s!!"content-type" with
    | none =>
      have := (C12_absent (Body.iface []) r.msg (.set b) hg).2
      refine this.trans ?_
      cases hb
      rfl
    | some vs =>
      have := C12_present (Body.iface []) r.msg (.set b)
        (by rw [show CONTENT_TYPE = s!!"content-type" from rfl, hg]; simp)
      exact (congrArg (fun h => Headers.get h s!!"content-type") this).trans hg

example : (Body.fromForm (some (Form.encode [(s!!"a", s!!"x y")]))).bind (fun b =>
    (b.intoForm (some ∘ Form.decode fun _ => []) cursorI [1, 2, 3, 4, 5, 6]).getD .panic) = .ok [(s!!"a", s!!"x y")] := by decide +kernel

end HT
