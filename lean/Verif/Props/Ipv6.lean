import Verif.Lemmas.Ipv6Print
import Verif.Props.Behind
import Verif.Props.AsciiText
import Verif.Props.Amplify

/-! C138 (IPv6 addresses that proxies send). -/

namespace HT
open Spec

/-- The reader takes exactly the texts of RFC 4291, for the addresses they mean. -/
theorem C138_reads_iff (s : Str) (a : List Nat) : Ip.parseV6 s = some a ↔ V6Text s a := Ip.parseV6_iff s a

example : V6Text s!!"2001:DB8::0:1" [8193, 3512, 0, 0, 0, 0, 0, 1] := (C138_reads_iff _ _).1 (by decide)
example : ¬ ∃ a, V6Text s!!"1::2::3" a := by
  rintro ⟨a, h⟩
  rw [← C138_reads_iff, show Ip.parseV6 s!!"1::2::3" = none by decide] at h
  cases h

/-- What is printed is the canonical text of RFC 5952, and an address has one only. -/
theorem C138_prints_iff {a : List Nat} (ha : IsV6 a) (s : Str) : s = Ip.printV6 a ↔ CanonicalV6 s a := Ip.printV6_iff ha s

example : Ip.printV6 [8193, 3512, 0, 0, 1, 0, 0, 1] = s!!"2001:db8::1:0:0:1" := by decide +kernel
example : IsV6 [8193, 3512, 0, 0, 1, 0, 0, 1] := by unfold IsV6; decide

/-- Every address is read back from what is printed for it. -/
theorem C138_back {a : List Nat} (ha : IsV6 a) : Ip.parseV6 (Ip.printV6 a) = some a :=
  (C138_reads_iff _ _).2 (Ip.canonical_text ha.1 ((C138_prints_iff ha _).1 rfl))

example : Ip.parseV6 s!!"::ffff:192.0.2.1" = some [0, 0, 0, 0, 0, 65535, 49152, 513] := by decide

theorem keptAs_iff (p kept : Str) : XEntry Ip.v6 p kept ↔ KeptAs p kept := by
  unfold XEntry KeptAs Ip.v6
  cases hp : Ip.parseV6 (trim p) with
  | none =>
    have hno : ∀ a, ¬ V6Text (trim p) a := by
      intro a h
      rw [← C138_reads_iff, hp] at h
      cases h
    constructor
    · rintro ⟨-, h⟩
      exact .inr ⟨hno, h rfl⟩
    · rintro (⟨a, s, h, -⟩ | ⟨-, rfl⟩)
      · exact absurd h (hno a)
      · exact ⟨fun _ h => (by cases h), fun _ => rfl⟩
  | some a =>
    have ht := (C138_reads_iff _ _).1 hp
    have hv := Ip.v6Text_isV6 ht
    constructor
    · rintro ⟨h, -⟩
      exact .inl ⟨a, _, ht, (C138_prints_iff hv _).1 rfl, h _ rfl⟩
    · rintro (⟨b, s, h, hc, rfl⟩ | ⟨h, -⟩)
      · rw [← C138_reads_iff, hp] at h
        cases h
        rw [(C138_prints_iff hv _).2 hc]
        exact ⟨fun _ h => by cases h; rfl, fun h => by cases h⟩
      · exact absurd ht (h a)

/-- What a server takes from `X-Forwarded-For`: for each piece between commas the address or the text it is. -/
theorem C138_entries (h : Headers) (hn : h.get s!!"forwarded" = none) (v : Str) (vs : List Str)
    (hv : h.get s!!"x-forwarded-for" = some (v :: vs)) (by' ho pr : Option Str)
    (h1 : FirstValue h s!!"x-forwarded-by" by') (h2 : FirstValue h s!!"x-forwarded-host" ho)
    (h3 : FirstValue h s!!"x-forwarded-proto" pr) :
    ∃ fors, Forwarded.fromHeaders Ip.v6 h = .ok (some ⟨by', fors, ho, pr⟩) ∧ List.Forall₂ KeptAs (split ',' v) fors := by
  obtain ⟨fors, e1, -, e2⟩ := (((C50_fallback Ip.v6 h).2 hn (some v) by' ho pr ⟨vs, hv⟩ h1 h2 h3).2 (by simp))
  exact ⟨fors, e1, (e2 v rfl).imp fun p k h => (keptAs_iff p k).1 h⟩

example : Forwarded.fromHeaders Ip.v6 (oneHeader s!!"x-forwarded-for" s!!"2001:DB8:0::1, 192.0.2.1, unknown") =
    .ok (some { forwardedFor := [s!!"[2001:db8::1]", s!!"192.0.2.1", s!!"unknown"] }) := by decide +kernel

/-- Entries that are addresses of IPv6 are kept alike exactly if they mean the same address. -/
theorem C138_same_iff {p q kp kq : Str} {a b : List Nat} (ha : V6Text (trim p) a) (hb : V6Text (trim q) b) (h1 : KeptAs p kp)
    (h2 : KeptAs q kq) : kp = kq ↔ a = b := by
  have kept : ∀ {p k : Str} {a : List Nat}, V6Text (trim p) a → KeptAs p k → k = s!!"[" ++ Ip.printV6 a ++ s!!"]" := by
    intro p k a ha h
    rcases h with ⟨b, s, hb, hc, rfl⟩ | ⟨h, -⟩
    · have : some a = some b := by rw [← (C138_reads_iff _ _).2 ha, ← (C138_reads_iff _ _).2 hb]
      cases this
      rw [(C138_prints_iff (Ip.v6Text_isV6 ha) s).2 hc]
    · exact absurd ha (h a)
  rw [kept ha h1, kept hb h2]
  constructor
  · intro h
    have : Ip.printV6 a = Ip.printV6 b := by simpa using h
    have h3 := C138_back (Ip.v6Text_isV6 ha)
    rw [this, C138_back (Ip.v6Text_isV6 hb)] at h3
    exact (Option.some.inj h3).symm
  · rintro rfl; rfl

example : KeptAs s!!" 0:0::1" s!!"[::1]" ∧ KeptAs s!!"::0001" s!!"[::1]" :=
  ⟨(keptAs_iff _ _).1 ⟨by decide +kernel, by decide +kernel⟩, (keptAs_iff _ _).1 ⟨by decide +kernel, by decide +kernel⟩⟩

/-! ### What the texts are made of -/

theorem join_chars {P : Char → Prop} (hc : P ':') {ws : List Str} (h : ∀ w ∈ ws, ∀ c ∈ w, P c) : ∀ c ∈ join s!!":" ws, P c := by
  induction ws with
  | nil => intro c hm; cases hm
  | cons w ws ih =>
    cases ws with
    | nil => intro c hm; exact h w (by simp) c (by simpa [join] using hm)
    | cons v ws =>
      intro c hm
      simp only [join, List.mem_append] at hm
      rcases hm with (hm | hm) | hm
      · exact h w (by simp) c hm
      · simp only [List.mem_singleton] at hm
        exact hm ▸ hc
      · exact ih (fun u hu => h u (List.mem_cons_of_mem _ hu)) c hm

/-- Digits, letters, colons and points. -/
def V6Char (c : Char) : Prop := c = ':' ∨ c = '.' ∨ ∃ d, HexDigitIs c d

theorem groups_chars {ws : List Str} {ns : List Nat} (h : List.Forall₂ HexGroup ws ns) : ∀ w ∈ ws, ∀ c ∈ w, V6Char c := by
  have digits : ∀ {w : Str} {ds : List Nat}, List.Forall₂ HexDigitIs w ds → ∀ c ∈ w, V6Char c := by
    intro w ds h
    induction h with
    | nil => intro c hc; cases hc
    | cons h1 _ ih =>
      intro c hc
      rcases List.mem_cons.1 hc with rfl | hc
      · exact .inr (.inr ⟨_, h1⟩)
      · exact ih c hc
  induction h with
  | nil => intro w hw; cases hw
  | cons h1 _ ih =>
    intro w hw
    rcases List.mem_cons.1 hw with rfl | hw
    · obtain ⟨_, _, ds, hd, _⟩ := h1
      exact digits hd
    · exact ih w hw

theorem dotted_chars {w : Str} {x y : Nat} (h : Dotted w x y) : ∀ c ∈ w, V6Char c := by
  obtain ⟨a, b, c, d, p, q, r, s, ha, hb, hc, hd, rfl, -, -⟩ := h
  have oct : ∀ {w : Str} {n : Nat}, Octet w n → ∀ c ∈ w, V6Char c := fun h c hc =>
    .inr (.inr ⟨_, .inl ⟨(h.2.2.1 c hc).1, (h.2.2.1 c hc).2, rfl⟩⟩)
  intro e he
  simp only [List.mem_append, List.mem_cons] at he
  rcases he with he | rfl | he | rfl | he | rfl | he
  · exact oct ha e he
  · exact .inr (.inl rfl)
  · exact oct hb e he
  · exact .inr (.inl rfl)
  · exact oct hc e he
  · exact .inr (.inl rfl)
  · exact oct hd e he

theorem v6Text_chars {s : Str} {a : List Nat} (h : V6Text s a) : ∀ c ∈ s, V6Char c := by
  have gr : ∀ {ws : List Str} {ns : List Nat}, Groups ws ns → ∀ w ∈ ws, ∀ c ∈ w, V6Char c := by
    rintro ws ns (h | ⟨ws', ns', w, x, y, rfl, -, h, hd⟩)
    · exact groups_chars h
    · intro v hv
      rcases List.mem_append.1 hv with hv | hv
      · exact groups_chars h v hv
      · rw [List.mem_singleton.1 hv]
        exact dotted_chars hd
  have colon : V6Char ':' := .inl rfl
  rcases h.2 with ⟨ws, rfl, hg⟩ | ⟨ws, ns, vs, ms, k, rfl, hw, hv, -, -⟩
  · exact join_chars colon (gr hg)
  · intro c hc
    simp only [List.mem_append] at hc
    rcases hc with (hc | hc) | hc
    · exact join_chars colon (groups_chars hw) c hc
    · have : c = ':' := by simpa using hc
      exact .inl this
    · exact join_chars colon (gr hv) c hc

theorem v6Char_range {c : Char} (h : V6Char c) : 46 ≤ c.toNat ∧ c.toNat ≤ 102 ∧ c ≠ '\\' := by
  rcases h with rfl | rfl | ⟨d, h⟩
  · decide
  · decide
  · have le : ∀ {a b : Char}, a ≤ b → a.toNat ≤ b.toNat := fun h => h
    have hne : c.toNat ≠ 92 → c ≠ '\\' := fun h e => h (e ▸ rfl)
    rcases h with ⟨h1, h2, -⟩ | ⟨h1, h2, -⟩ | ⟨h1, h2, -⟩ <;>
      have h1 := le h1 <;> have h2 := le h2 <;> simp only [Char.reduceToNat] at h1 h2 <;>
      exact ⟨by omega, by omega, hne (by omega)⟩

/-! ### Passing the addresses on -/

theorem forValue_v6 {s : Str} {a : List Nat} (h : V6Text s a) : ForValue (s!!"[" ++ s ++ s!!"]") := by
  refine ⟨by simp, .inr fun c hc => .inl ?_⟩
  simp only [List.mem_append, List.mem_singleton] at hc
  rcases hc with (rfl | hc) | rfl
  · exact .inr (.inr (.inr (by decide)))
  · obtain ⟨h1, h2, h3⟩ := v6Char_range (v6Text_chars h c hc)
    exact .inr (.inr (.inr ⟨by omega, by omega, h3⟩))
  · exact .inr (.inr (.inr (by decide)))

/-- Proxies on the way turn `X-Forwarded-For` into `Forwarded`: the server behind them reads the same addresses, with
those the proxies were called from after them. -/
theorem C138_passed_on (h : Headers) (hn : h.get s!!"forwarded" = none) (v : Str) (vs : List Str)
    (hv : h.get s!!"x-forwarded-for" = some (v :: vs))
    (hp : ∀ p ∈ split ',' v, (∃ a, V6Text (trim p) a) ∨ ForValue (trim p)) (by' ho pr : Option Str)
    (h1 : FirstValue h s!!"x-forwarded-by" by') (h2 : FirstValue h s!!"x-forwarded-host" ho)
    (h3 : FirstValue h s!!"x-forwarded-proto" pr) (t1 : ∀ t ∈ by', Token t) (t2 : ∀ t ∈ ho, Token t) (t3 : ∀ t ∈ pr, Token t)
    (as : List Str) (hne : as ≠ []) (ha : ∀ a ∈ as, ForValue a) :
    ∃ fors h', List.Forall₂ KeptAs (split ',' v) fors ∧ through Ip.v6 as h = .ok h' ∧
      Forwarded.fromHeaders Ip.v6 h' = .ok (some ⟨by', fors ++ as, ho, pr⟩) := by
  obtain ⟨fors, e, hf⟩ := C138_entries h hn v vs hv by' ho pr h1 h2 h3
  have hk : ∀ k ∈ fors, ForValue k := by
    clear e hv
    revert hp
    generalize split ',' v = ps at hf
    intro hp
    induction hf with
    | nil => intro k hk; cases hk
    | cons hx _ ih =>
      intro k hk
      rcases List.mem_cons.1 hk with rfl | hk
      · rcases hx with ⟨a, s, ht, hc, rfl⟩ | ⟨hno, rfl⟩
        · exact forValue_v6 (Ip.canonical_text ht.1 hc)
        · rcases hp _ List.mem_cons_self with ⟨a, ht⟩ | h
          · exact absurd ht (hno a)
          · exact h
      · exact ih (fun p hm => hp p (List.mem_cons_of_mem _ hm)) k hk
  obtain ⟨h', g1, g2, -, -⟩ := C117_chain Ip.v6 as hne ha e ⟨hk, t1, t2, t3⟩
  exact ⟨fors, h', hf, g1, g2⟩

example : (through Ip.v6 [s!!"10.0.0.7"] (oneHeader s!!"x-forwarded-for" s!!"2001:DB8:0::1")).bind (Forwarded.fromHeaders Ip.v6) =
    .ok (some { forwardedFor := [s!!"[2001:db8::1]", s!!"10.0.0.7"] }) := by decide +kernel

/-! ### What the parameter was assumed to do -/

theorem join_length_ge : ∀ ws : List Str, ws.length ≤ (join s!!":" ws).length + 1
  | [] => by simp
  | [w] => by simp
  | w :: v :: ws => by
    have := join_length_ge (v :: ws)
    simp only [join, List.length_append, List.length_cons, List.length_nil] at this ⊢
    omega

theorem canonical_length {s : Str} {a : List Nat} (ha : a.length = 8) (h : CanonicalV6 s a) : s.length ≤ 39 := by
  have joined : ∀ {ws : List Str} {ns : List Nat}, List.Forall₂ ShortGroup ws ns →
      (join s!!":" ws).length ≤ 5 * ns.length - 1 := by
    intro ws ns h
    induction h with
    | nil => simp [join]
    | @cons w n ws ns h1 h2 ih =>
      have h4 := h1.1.2.1
      cases h2 with
      | nil => simp [join]; omega
      | @cons v m ws ns _ _ =>
        simp only [join, List.length_append, List.length_cons, List.length_nil] at ih ⊢
        omega
  rcases h with ⟨x, y, w, -, rfl, a, b, c, d, p, q, r, s, ha, hb, hc, hd, rfl, -, -⟩ | ⟨-, ⟨-, ws, rfl, hw⟩ | ⟨ws, ns, vs, ms, k, rfl, hw, hv, rfl, hk, -⟩⟩
  · have := ha.2.1
    have := hb.2.1
    have := hc.2.1
    have := hd.2.1
    simp only [List.length_append, List.length_cons, List.length_nil]
    omega
  · have := joined hw
    omega
  · have := joined hw
    have := joined hv
    simp only [List.length_append, List.length_replicate, List.length_cons, List.length_nil] at ha ⊢
    omega

/-- An entry grows to 41 characters at most, and only if it is an address. -/
theorem C138_length {p k : Str} (h : KeptAs p k) : k.length ≤ max p.length 41 := by
  rcases h with ⟨a, s, ht, hc, rfl⟩ | ⟨-, rfl⟩
  · have := canonical_length ht.1 hc
    simp only [List.length_append, List.length_cons, List.length_nil]
    omega
  · have := trim_length p
    omega

example : KeptAs s!!"::FFFF:1:2" s!!"[::ffff:0.1.0.2]" := (keptAs_iff _ _).1 ⟨by decide +kernel, by decide +kernel⟩

/-- What a server keeps of `X-Forwarded-For` is bounded by what was sent. -/
theorem C138_bounded (h : Headers) (f : Forwarded) (hn : h.get s!!"forwarded" = none)
    (hr : Forwarded.fromHeaders Ip.v6 h = .ok (some f)) (x : Str) (xs : List Str)
    (hx : h.get s!!"x-forwarded-for" = some (x :: xs)) :
    f.forwardedFor.length = x.count ',' + 1 ∧ chars f.forwardedFor + x.count ',' ≤ x.length + 39 * f.forwardedFor.length := by
  have hg : ∀ s t, Ip.v6 s = some t → t.length ≤ s.length + 37 := by
    intro s t h
    unfold Ip.v6 at h
    obtain ⟨a, ha, rfl⟩ := Option.map_eq_some_iff.1 h
    have ht := (C138_reads_iff _ _).1 ha
    have h1 := canonical_length ht.1 ((C138_prints_iff (Ip.v6Text_isV6 ht) _).1 rfl)
    have h2 : 2 ≤ s.length := by
      rcases ht.2 with ⟨ws, rfl, hg⟩ | ⟨ws, ns, vs, ms, k, rfl, -⟩
      · have := join_length_ge ws
        have h8 := ht.1
        have : 7 ≤ ws.length := by
          rcases hg with hg | ⟨ws', ns', w, x, y, rfl, rfl, hg, -⟩
          · have := hg.length_eq
            omega
          · have := hg.length_eq
            simp only [List.length_append, List.length_cons, List.length_nil] at h8 ⊢
            omega
        omega
      · simp only [List.length_append, List.length_cons, List.length_nil]
        omega
    omega
  exact (C122_x_forwarded Ip.v6 37 hg h f hn hr).2.1 x xs hx

example : Forwarded.fromHeaders Ip.v6 (oneHeader s!!"x-forwarded-for" s!!"::,::FFFF:100.100.100.100") =
    .ok (some { forwardedFor := [s!!"[::]", s!!"[::ffff:100.100.100.100]"] }) := by decide +kernel

/-- What is read from headers of ASCII text can be written again as the header `Forwarded`. -/
theorem C138_ascii (h : Headers) (hc : ∀ n vs, h.get n = some vs → ∀ v ∈ vs, Ascii v) (f : Forwarded)
    (hr : Forwarded.fromHeaders Ip.v6 h = .ok (some f)) : Ascii f.headerValue := by
  refine (C04_relay h hc).2.2.2.1 Ip.v6 f (fun s t h c hc => ?_) hr
  unfold Ip.v6 at h
  obtain ⟨a, ha, rfl⟩ := Option.map_eq_some_iff.1 h
  have := v6Char_range (v6Text_chars ((C138_reads_iff _ _).1 (C138_back (Ip.v6Text_isV6 ((C138_reads_iff _ _).1 ha)))) c hc)
  omega

example : Forwarded.headerValue { forwardedFor := [s!!"[2001:db8::1]"] } = s!!"for=\"[2001:db8::1]\"" := by decide +kernel

end HT
