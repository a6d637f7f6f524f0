import Verif.Spec.WrittenTimings
import Verif.Props.WrittenPrefs
import Verif.Props.Timings
import Verif.Props.ServerTimingTrip

/-!
C111: what Server-Timing writes is read by others as what was put in.
-/

namespace HT
open Spec

/-! ### how close durations are -/

/-- The error of rounding, in parts of the number. -/
theorem roundTo_part {a b : Nat} (hb : 0 < b) (h : a = 0 ∨ 2 ^ 52 ≤ a / b) : 2 ^ 53 * gap a (b * roundTo 53 a b) ≤ a := by
  rcases h with rfl | h
  · have : roundTo 53 0 b = 0 := by
      unfold roundTo roundDiv
      simp
    rw [this, Nat.mul_zero]
    simp [gap]
  · have hq : a / b ≠ 0 := by omega
    have hl := Nat.log2_self_le hq
    have h1 := roundDiv_error (a := a) (b := b * 2 ^ ((a / b).log2 + 1 - 53)) (Nat.mul_pos hb (Nat.two_pow_pos _))
    have hlog : 52 ≤ (a / b).log2 := (Nat.le_log2 hq).mpr h
    have hpow : 2 ^ 52 * 2 ^ ((a / b).log2 + 1 - 53) = 2 ^ (a / b).log2 := by
      rw [← Nat.pow_add]
      congr 1
      omega
    have h2 : b * 2 ^ (a / b).log2 ≤ a := Nat.le_trans (Nat.mul_le_mul_left b hl) (Nat.mul_div_le a b)
    unfold roundTo
    simp only
    generalize hr : roundDiv a (b * 2 ^ ((a / b).log2 + 1 - 53)) = r at *
    have h3 : b * (r * 2 ^ ((a / b).log2 + 1 - 53)) = b * 2 ^ ((a / b).log2 + 1 - 53) * r := by
      rw [Nat.mul_comm r, Nat.mul_assoc]
    rw [h3]
    generalize gap a (b * 2 ^ ((a / b).log2 + 1 - 53) * r) = g at *
    have h4 : b * 2 ^ (a / b).log2 = 2 ^ 52 * (b * 2 ^ ((a / b).log2 + 1 - 53)) := by
      rw [← hpow, Nat.mul_left_comm]
    rw [h4] at h2
    omega

theorem parts_sum {s n N S T M : Nat}
    (e1 : 2 ^ 53 * gap n (1000000000 * N) ≤ n) (e0 : 2 ^ 53 * gap s S ≤ s)
    (e2 : 2 ^ 53 * gap (S + N) T ≤ S + N) (e3 : 2 ^ 53 * gap (T * 1000) M ≤ T * 1000) :
    2 ^ 50 * gap (M * 1000000) (s * 1000000000 + n) ≤ s * 1000000000 + n := by
  unfold gap at *
  omega


theorem millis_close (d : Duration) (hn : d.nanos < 1000000000) : CloseTo d d.millisMag := by
  have hu : 2 ^ 100 ≤ 2 ^ 1074 := Nat.pow_le_pow_right (by omega) (by omega)
  have hr := Duration.asSecsF64_eq d hn
  have hm := Duration.millisMag_eq d
  have hs : Fl.natMag f64Format d.secs = roundTo 53 (d.secs * 2 ^ 1074) 1 := rfl
  rw [hs] at hr
  unfold CloseTo Duration.all
  generalize 2 ^ 1074 = u at *
  have zero : ∀ k, k * u = 0 ∨ u ≤ k * u := by
    intro k
    cases k with
    | zero => exact .inl (Nat.zero_mul _)
    | succ k => exact .inr (Nat.le_mul_of_pos_left _ (by omega))
  have hsz := zero d.secs
  have hnz := zero d.nanos
  rw [show u * (d.secs * 1000000000 + d.nanos) = d.secs * u * 1000000000 + d.nanos * u by
    rw [Nat.mul_add, Nat.mul_comm u d.nanos, Nat.mul_left_comm, ← Nat.mul_assoc, Nat.mul_right_comm]]
  generalize d.secs * u = s at *
  generalize d.nanos * u = n at *
  have e0 : 2 ^ 53 * gap s (1 * roundTo 53 s 1) ≤ s := roundTo_part (by omega) (by omega)
  have e1 : 2 ^ 53 * gap n (1000000000 * roundTo 53 n 1000000000) ≤ n := roundTo_part (by omega) (by omega)
  rw [Nat.one_mul] at e0
  generalize roundTo 53 s 1 = S at *
  generalize roundTo 53 n 1000000000 = N at *
  have hS : S = 0 ∨ 2 ^ 60 ≤ S := by unfold gap at e0; omega
  have hN : N = 0 ∨ 2 ^ 60 ≤ N := by unfold gap at e1; omega
  have e2 : 2 ^ 53 * gap (S + N) (1 * roundTo 53 (S + N) 1) ≤ S + N := roundTo_part (by omega) (by omega)
  rw [Nat.one_mul, ← hr] at e2
  have hT : d.asSecsF64 = 0 ∨ 2 ^ 59 ≤ d.asSecsF64 := by unfold gap at e2; omega
  have e3 : 2 ^ 53 * gap (d.asSecsF64 * 1000) (1 * roundTo 53 (d.asSecsF64 * 1000) 1) ≤ d.asSecsF64 * 1000 :=
    roundTo_part (by omega) (by omega)
  rw [Nat.one_mul, ← hm] at e3
  exact parts_sum e1 e0 e2 e3

/-- What is printed is a decimal number, and the nearest float is the one that was printed. -/
theorem display_millisText {F : FlFormat} {m : Nat} (hp : 0 < F.prec) (hr : Representable F.prec m) (hl : m < F.limit) :
    ∃ a k, MillisText (Fl.display F (.fin false m)) a k ∧ Fl.round F false a (10 ^ k) = .fin false m := by
  obtain ⟨c, a, b, hab, h1, h2⟩ := Fl.displayInt_ok (F := F) hp hr hl (dec (m / 2 ^ F.unit)).length
  have hd : Fl.display F (.fin false m) = Fl.decimalText c a b := by rw [← h1]; rfl
  rw [hd, ← h2]
  unfold Fl.decimalText
  by_cases hb : b = 0
  · subst hb
    rw [if_pos rfl]
    refine ⟨_, _, .whole (dec_ne_nil _) (dec_isDigits _), ?_⟩
    rw [decValue_dec]
  · have ha : a = 0 := by omega
    subst ha
    rw [if_neg hb]
    have hlt : c % 10 ^ b < 10 ^ b := Nat.mod_lt _ (Nat.pow_pos (by omega))
    have hlen := zpad_length (dec_length_le (by omega) hlt)
    have hv : digitsVal 10 0 (dec (c / 10 ^ b) ++ zpad b (dec (c % 10 ^ b))) = some c := by
      rw [digitsVal_append, show digitsVal 10 0 (dec (c / 10 ^ b)) = some (c / 10 ^ b) from
        digitsVal_natStr (by omega) (by omega) _]
      simp only [Option.bind_some]
      rw [digitsVal_acc, digitsVal_zpad, hlen, Option.map_some, Nat.mul_comm, Nat.div_add_mod]
    have hp := MillisText.point (i := dec (c / 10 ^ b)) (f := zpad b (dec (c % 10 ^ b))) (dec_ne_nil _)
      (by intro h; rw [h] at hlen; exact hb hlen.symm) (dec_isDigits _)
      (fun x hx => isDigit_iff_le.mp (zpad_digits (dec_digits _) x hx))
    rw [hlen, ← (digitsVal_some.mp hv).2] at hp
    refine ⟨c, b, by simpa using hp, ?_⟩
    rw [Nat.pow_zero, Nat.mul_one]

theorem millis_text (d : Duration) (hs : d.secs < 2 ^ 64) (hn : d.nanos < 1000000000) :
    ∃ a k, MillisText (Metric.millis d) a k ∧ NearestFloat f64Format false a (10 ^ k) (.fin false d.millisMag) := by
  obtain ⟨hr, hl⟩ := Duration.millisMag_lt d hs hn
  obtain ⟨a, k, h1, h2⟩ := display_millisText (F := f64Format) (by decide) hr hl
  exact ⟨a, k, h1, (nearestFloat_iff (by decide) (Nat.pow_pos (by omega))).mpr h2.symm⟩

/-! ### there is one reading -/

/-- Cannot go on as a token. -/
def NoTchar (r : Str) : Prop := ∀ c, r.head? = some c → ¬ TChar c

theorem token_cut {n n' r r' : Str} (h : Token n) (h' : Token n') (hr : NoTchar r) (hr' : NoTchar r') (he : n ++ r = n' ++ r') :
    n = n' ∧ r = r' := by
  have key : ∀ {n n' : Str}, (∀ c ∈ n, TChar c) → (∀ c ∈ n', TChar c) → n ++ r = n' ++ r' → n = n' ∧ r = r' := by
    intro n
    induction n with
    | nil =>
      intro n' _ h' he
      cases n' with
      | nil => exact ⟨rfl, he⟩
      | cons x n' => exact absurd (h' x List.mem_cons_self) (hr x (by rw [show r = x :: (n' ++ r') from he]; rfl))
    | cons y n ih =>
      intro n' h h' he
      cases n' with
      | nil => exact absurd (h y List.mem_cons_self) (hr' y (by rw [← show y :: (n ++ r) = r' from he]; rfl))
      | cons x n' =>
        obtain ⟨h1, h2⟩ := List.cons.inj he
        obtain ⟨h3, h4⟩ := ih (fun c hc => h c (List.mem_cons_of_mem _ hc)) (fun c hc => h' c (List.mem_cons_of_mem _ hc)) h2
        exact ⟨by rw [h1, h3], h4⟩
  exact key h.2 h'.2 he

theorem noTchar_of {r : Str} (h : ∀ c, r.head? = some c → c ∈ s!!" \t,;=\"") : NoTchar r := fun c hc ht => by
  have h1 : ∀ c ∈ s!!" \t,;=\"", Mime.isToken c = false := by decide
  have := (Mime.isToken_iff c).mpr ht
  rw [h1 c (h c hc)] at this
  cases this

theorem ows_noTchar {a r : Str} (ha : Ows a) (hr : NoTchar r) : NoTchar (a ++ r) := by
  cases a with
  | nil => exact hr
  | cons x a =>
    intro c hc
    cases hc
    refine noTchar_of (r := x :: a) (fun c hc => ?_) x rfl
    cases hc
    rcases ha x List.mem_cons_self with rfl | rfl <;> decide

theorem cons_noTchar {c : Char} (h : c ∈ s!!" \t,;=\"") (r : Str) : NoTchar (c :: r) :=
  noTchar_of fun x hx => by cases hx; exact h

theorem args_noTchar {r T : Str} {ps : List TimingArg} (h : TimingArgs r ps) (hT : NoTchar T) : NoTchar (r ++ T) := by
  cases h with
  | nil => exact hT
  | cons ha => 
    rw [List.append_assoc]
    exact ows_noTchar ha (cons_noTchar (by decide) _)

theorem noLead_of_token {n r : Str} (h : Token n) : NoLead (n ++ r) := by
  intro c hc
  obtain ⟨h1, h2⟩ := h
  cases n with
  | nil => exact absurd rfl h1
  | cons x n =>
    cases hc
    have := (tchar_not (h2 c List.mem_cons_self)).1
    constructor <;> rintro rfl <;> revert this <;> decide

theorem noLead_of_value {raw v r : Str} (h : ValueText raw v) : NoLead (raw ++ r) := by
  rcases h with ⟨rfl, h⟩ | ⟨e, rfl, -, -⟩
  · exact noLead_of_token h
  · intro c hc
    cases hc
    decide

theorem value_cut {raw raw' v v' r r' : Str} (h : ValueText raw v) (h' : ValueText raw' v') (hr : NoTchar r) (hr' : NoTchar r')
    (he : raw ++ r = raw' ++ r') : raw = raw' ∧ v = v' ∧ r = r' := by
  have mixed : ∀ {n x : Str} (_ : Token n) (e : Str) (r : Str), n ++ x ≠ '"' :: (e ++ '"' :: r) := by
    intro n x h e r he
    cases n with
    | nil => exact h.1 rfl
    | cons c n =>
      cases (List.cons.inj he).1
      exact Mime.token_not_mem h (c := '"') (by decide) List.mem_cons_self
  rcases h with ⟨rfl, h⟩ | ⟨e, rfl, h, -⟩
  · rcases h' with ⟨rfl, h'⟩ | ⟨e', rfl, h', -⟩
    · obtain ⟨h1, h2⟩ := token_cut h h' hr hr' he
      exact ⟨h1, h1, h2⟩
    · exact absurd (by simpa using he) (mixed h e' r')
  · rcases h' with ⟨rfl, h'⟩ | ⟨e', rfl, h', -⟩
    · exact absurd (by simpa using he.symm) (mixed h' e r)
    · have he' : e ++ '"' :: r = e' ++ '"' :: r' := by simpa using he
      obtain ⟨rfl, rfl, h3⟩ := Forwarded.escaped_unique h h' he'
      exact ⟨rfl, rfl, h3⟩

theorem arg_cut {a b n c d s a' b' n' c' d' s' : Str} (ha : Ows a) (hb : Ows b) (hn : Token n) (hc : Ows c) (hd : Ows d)
    (hs : NoLead s) (ha' : Ows a') (hb' : Ows b') (hn' : Token n') (hc' : Ows c') (hd' : Ows d') (hs' : NoLead s')
    (he : a ++ ';' :: (b ++ (n ++ (c ++ '=' :: (d ++ s)))) = a' ++ ';' :: (b' ++ (n' ++ (c' ++ '=' :: (d' ++ s'))))) :
    n = n' ∧ s = s' := by
  obtain ⟨-, h1⟩ := cut_inj (c := ';') (ows_not_mem ha (by decide) (by decide)) (ows_not_mem ha' (by decide) (by decide)) he
  obtain ⟨-, h2⟩ := lead_inj hb hb' (noLead_of_token hn) (noLead_of_token hn') h1
  obtain ⟨h3, h4⟩ := token_cut hn hn' (ows_noTchar hc (cons_noTchar (by decide) _)) (ows_noTchar hc' (cons_noTchar (by decide) _)) h2
  obtain ⟨-, h5⟩ := cut_inj (c := '=') (ows_not_mem hc (by decide) (by decide)) (ows_not_mem hc' (by decide) (by decide)) h4
  exact ⟨h3, (lead_inj hd hd' hs hs' h5).2⟩

theorem args_one {r : Str} {ps ps' : List TimingArg} (h : TimingArgs r ps) (h' : TimingArgs r ps') : ps = ps' := by
  induction h generalizing ps' with
  | nil =>
    generalize hr : ([] : Str) = r at h'
    cases h' with
    | nil => rfl
    | cons => exact absurd hr (by simp)
  | @cons a b n c d raw v rest ps ha hb hn hc hd hv hrest ih =>
    generalize hr : a ++ ';' :: (b ++ (n ++ (c ++ '=' :: (d ++ (raw ++ rest))))) = r at h'
    cases h' with
    | nil => exact absurd hr (by simp)
    | @cons a' b' n' c' d' raw' v' rest' ps' ha' hb' hn' hc' hd' hv' hrest' =>
      obtain ⟨rfl, he⟩ := arg_cut ha hb hn hc hd (noLead_of_value hv) ha' hb' hn' hc' hd' (noLead_of_value hv') hr
      have nt : NoTchar ([] : Str) := fun c hc => by cases hc
      have e1 := args_noTchar hrest nt
      have e2 := args_noTchar hrest' nt
      rw [List.append_nil] at e1 e2
      obtain ⟨rfl, rfl, rfl⟩ := value_cut hv hv' e1 e2 he
      rw [ih hrest']

theorem args_bal {r : Str} {ps : List TimingArg} (h : TimingArgs r ps) : Bal r := by
  induction h with
  | nil => exact .nil
  | cons ha hb hn hc hd hv _ ih =>
    exact bal_append (ows_bal ha) (.plain (by decide) (by decide) (bal_append (ows_bal hb) (bal_append (token_bal hn)
      (bal_append (ows_bal hc) (.plain (by decide) (by decide) (bal_append (ows_bal hd) (bal_append (valueText_bal hv) ih)))))))

theorem alone_metric : Alone MetricText := by
  refine ⟨?_, ?_, ?_⟩
  · rintro t x ⟨r, ps, rfl, hn, hr, -⟩
    exact bal_append (token_bal hn) (args_bal hr)
  · rintro t x ⟨r, ps, rfl, hn, hr, -⟩
    refine ⟨by simp [hn.1], fun c hc => ?_, fun c hc => ?_⟩
    · refine ((token_ends hn).1 c ?_).1
      cases hx : x.name with
      | nil => exact absurd hx hn.1
      | cons y n => rw [hx] at hc; exact hc
    · by_cases hr0 : r = []
      · subst hr0
        rw [List.append_nil] at hc
        exact ((token_ends hn).2 c hc).1
      · rw [List.getLast?_append_of_ne_nil _ hr0] at hc
        exact args_last hr c hc
  · rintro t ⟨n, d, e⟩ ⟨n', d', e'⟩ ⟨r, ps, h1, h2, h3, h4, h5⟩ ⟨r', ps', h1', h2', h3', h4', h5'⟩
    simp only at *
    have nt : NoTchar ([] : Str) := fun c hc => by cases hc
    have e1 := args_noTchar h3 nt
    have e2 := args_noTchar h3' nt
    rw [List.append_nil] at e1 e2
    obtain ⟨rfl, rfl⟩ := token_cut h2 h2' e1 e2 (h1.symm.trans h1')
    cases args_one h3 h3'
    rw [h5, h5']
    congr 1
    cases hf : ps.find? fun p => p.name = s!!"dur" with
    | none =>
      rw [hf] at h4 h4'
      rw [h4, h4']
    | some p =>
      rw [hf] at h4 h4'
      obtain ⟨a, k, m, g1, g2, rfl⟩ := h4
      obtain ⟨a', k', m', g1', g2', rfl⟩ := h4'
      obtain ⟨rfl, rfl⟩ := millisText_unique g1 g1'
      have hp : 0 < 10 ^ k := Nat.pow_pos (by omega)
      rw [nearestFloat_iff (by decide) hp] at g2 g2'
      cases g2.trans g2'.symm
      rfl

/-! ### what is written can be read -/

theorem escaped_clean {t : Str} (h : ∀ c ∈ t, c ≠ '"' ∧ c ≠ '\\') : Escaped t t := by
  induction t with
  | nil => exact .nil
  | cons c t ih =>
    have := h c List.mem_cons_self
    exact .plain this.1 this.2 (ih fun d hd => h d (List.mem_cons_of_mem _ hd))

theorem descText {t : Str} (h : ∀ c ∈ t, QuotedChar c ∧ c ≠ '"' ∧ c ≠ '\\') : ValueText ('"' :: (t ++ ['"'])) t :=
  .inr ⟨t, rfl, escaped_clean fun c hc => (h c hc).2, fun c hc => (h c hc).1⟩

/-- What is written of a metric after its name. -/
def descArg : Option Str → Str
  | some t => s!!"; desc=\"" ++ (t ++ ['"'])
  | none => []

def durArg (f : Duration → Str) : Option Duration → Str
  | some d => s!!"; dur=" ++ f d
  | none => []

theorem text_args (f : Duration → Str) (m : Metric) : m.textOf f = m.name ++ (durArg f m.dur ++ descArg m.desc) := by
  obtain ⟨n, d, t⟩ := m
  cases d <;> cases t <;> simp [Metric.textOf, durArg, descArg]

/-- A text for durations, and the number that is read of it. -/
structure Printed (f : Duration → Str) (g : Duration → Nat) (d : Duration) : Prop where
  text : ∃ a k, MillisText (f d) a k ∧ NearestFloat f64Format false a (10 ^ k) (.fin false (g d))
  close : CloseTo d (g d)

theorem textOf_written {f : Duration → Str} {g : Duration → Nat} {m : Metric} (hf : ∀ d, m.dur = some d → Printed f g d)
    (hq : QuotableMetric m) : ∃ x, SameMetric m x ∧ MetricText (m.textOf f) x := by
  rw [text_args]
  obtain ⟨n, d, t⟩ := m
  obtain ⟨q1, q2⟩ := hq
  simp only at *
  have sp : Ows s!!" " := by intro c hc; exact .inl (by simpa using hc)
  have ni : Ows [] := by intro c hc; cases hc
  have k1 : Token s!!"dur" := Mime.token_of (by decide) (by decide)
  have k2 : Token s!!"desc" := Mime.token_of (by decide) (by decide)
  have hd : ∃ ps, TimingArgs (descArg t) ps ∧ (ps.find? fun p => p.name = s!!"dur") = none ∧
      t = (ps.find? fun p => p.name = s!!"desc").map TimingArg.value := by
    cases t with
    | none => exact ⟨[], .nil, rfl, rfl⟩
    | some t =>
      have := TimingArgs.cons ni sp k2 ni ni (descText (q2 t rfl)) .nil
      rw [List.append_nil] at this
      exact ⟨_, this, rfl, rfl⟩
  obtain ⟨ps, h1, h2, h3⟩ := hd
  cases d with
  | none => exact ⟨⟨n, none, t⟩, ⟨rfl, rfl, rfl⟩, _, ps, rfl, q1, h1, by rw [h2], h3⟩
  | some d =>
    obtain ⟨⟨a, k, e1, e2⟩, e3⟩ := hf d rfl
    have := TimingArgs.cons ni sp k1 ni ni (.inl ⟨rfl, millis_token e1⟩) h1
    refine ⟨⟨n, some (g d), t⟩, ⟨rfl, rfl, _, rfl, e3⟩, _, _, rfl, q1, by simpa [durArg] using this, ?_, ?_⟩
    · rw [List.find?_cons_of_pos (by simp)]
      exact ⟨a, k, _, e1, e2, rfl⟩
    · rw [List.find?_cons_of_neg (by simp)]
      exact h3

theorem printed_millis {m : Metric} (h : ∀ d, m.dur = some d → d.secs < 2 ^ 64 ∧ d.nanos < 1000000000) :
    ∀ d, m.dur = some d → Printed Metric.millis Duration.millisMag d :=
  fun d hd => ⟨millis_text d (h d hd).1 (h d hd).2, millis_close d (h d hd).2⟩

/-! ### nothing else can be read -/

theorem escaped_slashes {s v : Str} (h : Escaped s v) : ∀ (k : Nat) {A B : Str},
    List.replicate (k + 1) '\\' ++ (s ++ '"' :: A) ≠ v ++ '"' :: B := by
  induction h with
  | nil => intro k A B he; cases he
  | plain h1 h2 _ ih =>
    intro k A B he
    exact h2 (List.cons.inj he).1.symm
  | @pair c s v _ ih =>
    intro k A B he
    obtain ⟨e1, e2⟩ := List.cons.inj he
    subst e1
    refine ih (k + 1) (A := A) (B := B) ?_
    have e3 : List.replicate k '\\' ++ ('\\' :: '\\' :: s ++ '"' :: A) = v ++ '"' :: B := e2
    rw [← e3, List.replicate_succ', List.replicate_succ']
    simp

/-- What is closed by its own end has no escapes. -/
theorem escaped_close {e v : Str} (h : Escaped e v) : ∀ {A B : Str}, e ++ '"' :: A = v ++ '"' :: B →
    (∀ c ∈ v, c ≠ '"' ∧ c ≠ '\\') ∧ A = B := by
  induction h with
  | nil => intro A B he; exact ⟨by simp, (List.cons.inj he).2⟩
  | plain h1 h2 _ ih =>
    intro A B he
    obtain ⟨g1, g2⟩ := ih (List.cons.inj he).2
    refine ⟨fun c hc => ?_, g2⟩
    rcases List.mem_cons.mp hc with rfl | hc
    · exact ⟨h1, h2⟩
    · exact g1 c hc
  | @pair c s v hs _ =>
    intro A B he
    obtain ⟨e1, e2⟩ := List.cons.inj he
    subst e1
    exact absurd e2 (escaped_slashes hs 0)

theorem first_arg {r T s n : Str} {ps : List TimingArg} (h : TimingArgs r ps) (hT : Stops T) (hn : Token n) (hs : NoLead s)
    (he : r ++ T = s!!"; " ++ (n ++ '=' :: s)) : ∃ raw v rest ps', ValueText raw v ∧ TimingArgs rest ps' ∧
      ps = ⟨n, v, raw, blankNext rest⟩ :: ps' ∧ raw ++ (rest ++ T) = s := by
  have sp : Ows s!!" " := by intro c hc; exact .inl (by simpa using hc)
  have ni : Ows [] := by intro c hc; cases hc
  cases h with
  | nil =>
    rcases hT ';' (by rw [show T = _ from he]; rfl) with h | h | h <;> exact absurd h (by decide)
  | @cons a b n' c d raw v rest ps ha hb hn' hc hd hv hrest =>
    obtain ⟨rfl, h2⟩ := arg_cut (s := raw ++ (rest ++ T)) ha hb hn' hc hd (noLead_of_value hv) ni sp hn ni ni hs
      (by simpa using he)
    exact ⟨raw, v, rest, ps, hv, hrest, rfl, h2⟩

theorem stops_noTchar {T : Str} (h : Stops T) : NoTchar T :=
  noTchar_of fun c hc => by rcases h c hc with rfl | rfl | rfl <;> decide

theorem args_end {r T Y : Str} {ps : List TimingArg} (h : TimingArgs r ps) (hY : EndsAt Y) (he : r ++ T = Y) : T = Y := by
  cases h with
  | nil => exact he
  | @cons a b n' c d raw v rest ps ha =>
    exfalso
    cases a with
    | nil => exact absurd (hY ';' (by rw [← he]; rfl)) (by decide)
    | cons x a =>
      have := hY x (by rw [← he]; rfl)
      subst this
      rcases ha _ List.mem_cons_self with h | h <;> exact absurd h (by decide)

/-- The description is read as it was put in. -/
theorem desc_clean {r T Y t : Str} {ps : List TimingArg} (h : TimingArgs r ps) (hT : Stops T) (hY : EndsAt Y)
    (he : r ++ T = s!!"; desc=\"" ++ (t ++ '"' :: Y)) (hd : some t = (ps.find? fun p => p.name = s!!"desc").map TimingArg.value) :
    (∀ c ∈ t, QuotedChar c ∧ c ≠ '"' ∧ c ≠ '\\') ∧ T = Y := by
  obtain ⟨raw, v, rest, ps', hv, hrest, rfl, h2⟩ := first_arg (n := s!!"desc") (s := '"' :: (t ++ '"' :: Y)) h hT
    (Mime.token_of (by decide) (by decide)) (by intro c hc; cases hc; decide) he
  simp only [List.find?_cons, decide_true, Option.map_some, Option.some.injEq] at hd
  subst hd
  rcases hv with ⟨e, hv⟩ | ⟨e, rfl, hv, hc⟩
  · exfalso
    rw [e] at h2
    cases t with
    | nil => exact hv.1 rfl
    | cons c t =>
      cases (List.cons.inj h2).1
      exact Mime.token_not_mem hv (c := '"') (by decide) List.mem_cons_self
  · have h3 : e ++ '"' :: (rest ++ T) = t ++ '"' :: Y := by simpa using h2
    obtain ⟨g1, g2⟩ := escaped_close hv h3
    exact ⟨fun c h => ⟨hc c h, g1 c h⟩, args_end hrest hY g2⟩

theorem args_clean {f : Duration → Str} {r T Y : Str} {ps : List TimingArg} {m : Metric}
    (hf : ∀ d, m.dur = some d → Token (f d)) (h : TimingArgs r ps) (hT : Stops T) (hY : EndsAt Y)
    (he : r ++ T = (durArg f m.dur ++ descArg m.desc) ++ Y)
    (hd : m.desc = (ps.find? fun p => p.name = s!!"desc").map TimingArg.value) :
    (∀ t, m.desc = some t → ∀ c ∈ t, QuotedChar c ∧ c ≠ '"' ∧ c ≠ '\\') ∧ T = Y := by
  obtain ⟨n, d, t⟩ := m
  simp only at *
  have after : ∀ {r ps}, TimingArgs r ps → r ++ T = descArg t ++ Y →
      t = (ps.find? fun p => p.name = s!!"desc").map TimingArg.value →
      (∀ t', t = some t' → ∀ c ∈ t', QuotedChar c ∧ c ≠ '"' ∧ c ≠ '\\') ∧ T = Y := by
    clear he hd
    intro r ps h he hd
    cases t with
    | none => exact ⟨by simp, args_end h hY he⟩
    | some t =>
      obtain ⟨g1, g2⟩ := desc_clean h hT hY (by simpa [descArg] using he) hd
      refine ⟨fun t' ht => ?_, g2⟩
      cases ht
      exact g1
  cases d with
  | none => exact after h he hd
  | some d =>
    have dt := hf d rfl
    unfold durArg at he
    simp only [List.append_assoc] at he
    obtain ⟨raw, v, rest, ps', hv, hrest, rfl, h2⟩ := first_arg (n := s!!"dur") h hT (Mime.token_of (by decide) (by decide))
      (noLead_of_token dt) he
    rw [List.find?_cons_of_neg (by simp)] at hd
    obtain ⟨-, -, h5⟩ := value_cut hv (.inl ⟨rfl, dt⟩) (args_noTchar hrest (stops_noTchar hT)) (by
      cases t with
      | none => exact stops_noTchar fun c hc => .inr (.inr (hY c hc))
      | some t => exact cons_noTchar (by decide) _) h2
    exact after hrest h5 hd

/-- What is read as the metrics that were put in. -/
theorem texts_clean {f : Duration → Str} {ms : List Metric} (hf : ∀ m ∈ ms, ∀ d, m.dur = some d → Token (f d)) :
    ∀ {w : Str} {ps : List Str} {os : List (Option ReadMetric)}, Ows w → List.Forall₂ (Element MetricText) ps os →
      join [','] ps = w ++ join s!!", " (ms.map (Metric.textOf f)) → List.Forall₂ SameMetric ms (os.filterMap id) →
      ∀ m ∈ ms, QuotableMetric m := by
  induction ms with
  | nil => intro _ _ _ _ _ _ _ m hm; cases hm
  | cons m ms ih =>
    intro w ps os hw hp he hs
    generalize hx : os.filterMap id = xs at hs
    cases hs with
    | @cons _ x _ xs h1 h2 =>
    have htext : m.textOf f = m.name ++ (durArg f m.dur ++ descArg m.desc) := text_args f m
    have hY : ∃ Y, EndsAt Y ∧ join s!!", " ((m :: ms).map (Metric.textOf f)) = m.textOf f ++ Y ∧
        (ms = [] ∨ Y = ',' :: (s!!" " ++ join s!!", " (ms.map (Metric.textOf f)))) := by
      cases ms with
      | nil => exact ⟨[], (by intro c hc; cases hc), by simp [join], .inl rfl⟩
      | cons m' ms =>
        exact ⟨',' :: (s!!" " ++ join s!!", " ((m' :: ms).map (Metric.textOf f))), (by intro c hc; cases hc; rfl), by simp [join], .inr rfl⟩
    obtain ⟨Y, hY1, hY2, hY3⟩ := hY
    have hname : Token m.name := by
      obtain ⟨o, ho, ho'⟩ := List.mem_filterMap.mp (show x ∈ os.filterMap id by rw [hx]; exact List.mem_cons_self)
      obtain ⟨p, -, a, t, b, -, -, -, ht⟩ := forall₂_imp_mem hp.flip o ho
      rw [show o = some x from ho'] at ht
      obtain ⟨r, qs, -, hn, -⟩ := ht
      rw [← h1.1]
      exact hn
    cases hp with
    | nil => cases hx
    | @cons p o ps os hpo hps =>
      obtain ⟨X, hX1, hX2, hX3⟩ := join_comma p ps
      rw [hX2, hY2, htext] at he
      obtain ⟨a, t, b, ha, hb, rfl, ht⟩ := hpo
      cases o with
      | none =>
        exfalso
        simp only at ht
        subst ht
        have he' : (a ++ b) ++ X = w ++ (m.name ++ (durArg f m.dur ++ descArg m.desc ++ Y)) := by simpa using he
        have hab : Ows (a ++ b) := by
          intro c hc
          rcases List.mem_append.mp hc with hc | hc
          · exact ha c hc
          · exact hb c hc
        obtain ⟨-, e⟩ := lead_inj hab hw (ends_noLead hX1) (noLead_of_token hname) he'
        cases hn : m.name with
        | nil => exact hname.1 hn
        | cons c n =>
          have := hX1 c (by rw [e, hn]; rfl)
          subst this
          exact Mime.token_not_mem hname (c := ',') (by decide) (by rw [hn]; exact List.mem_cons_self)
      | some y =>
        obtain ⟨rfl, rfl⟩ : y = x ∧ os.filterMap id = xs := by simpa using hx
        obtain ⟨r, qs, rfl, hn, hr, hdur, hdesc⟩ := ht
        rw [h1.1] at he
        have he' : a ++ (m.name ++ (r ++ (b ++ X))) = w ++ (m.name ++ (durArg f m.dur ++ descArg m.desc ++ Y)) := by
          simpa using he
        obtain ⟨-, e⟩ := lead_inj ha hw (noLead_of_token hname) (noLead_of_token hname) he'
        have e' := List.append_cancel_left e
        rw [h1.2.1] at hdesc
        obtain ⟨g1, g2⟩ := args_clean (hf m List.mem_cons_self) hr (ows_stops hb hX1) hY1 e' hdesc
        intro m' hm'
        rcases List.mem_cons.mp hm' with rfl | hm'
        · exact ⟨hname, g1⟩
        · rcases hY3 with rfl | hY3
          · cases hm'
          · obtain ⟨-, g3⟩ := lead_inj (a' := []) hb (by intro c hc; cases hc) (ends_noLead hX1) (ends_noLead hY1) g2
            rcases hX3 with ⟨-, hX3⟩ | ⟨-, hX3⟩
            · rw [hX3, hY3] at g3; cases g3
            · rw [hX3, hY3] at g3
              exact ih (fun m hm => hf m (List.mem_cons_of_mem _ hm)) (by intro c hc; exact .inl (by simpa using hc)) hps
                (List.cons.inj g3).2 h2 m' hm'

/-! ### the header -/

theorem timing_value (ms : List Metric) : ServerTiming.value ms = .ok (join s!!", " (ms.map (Metric.textOf Metric.millis))) := by
  unfold ServerTiming.value
  rw [writeLoop_eq]
  rfl

/-- Others read the metrics that were put in, and nothing else, exactly when names are tokens and descriptions can be quoted
as they are. Missing: names and descriptions in general, see `C111_violated_metric`, `C111_violated_name` and
`C111_violated_escape`. -/
theorem C111_metrics_iff_partial (ms : List Metric)
    (h : ∀ m ∈ ms, ∀ d, m.dur = some d → d.secs < 2 ^ 64 ∧ d.nanos < 1000000000) (v : HeaderValue)
    (hv : ServerTiming.value ms = .ok v) :
    (∃ xs, List.Forall₂ SameMetric ms xs ∧ OnlyAs (AnyListed MetricText v) xs) ↔ ∀ m ∈ ms, QuotableMetric m := by
  rw [timing_value] at hv
  cases hv
  have hp := fun m hm => printed_millis (h m hm)
  generalize Metric.millis = f at *
  generalize Duration.millisMag = g at *
  constructor
  · rintro ⟨xs, h1, h2⟩
    obtain ⟨os, g1, rfl⟩ := (h2 xs).mpr rfl
    obtain ⟨ps, -, he, hps⟩ := listed_value g1
    refine texts_clean (w := []) (f := f) (fun m hm d hd => ?_) (by intro c hc; cases hc) hps he.symm h1
    obtain ⟨⟨a, k, e1, -⟩, -⟩ := hp m hm d hd
    exact millis_token e1
  · intro hq
    obtain ⟨xs, hxs⟩ := forall₂_exists fun m hm => textOf_written (hp m hm) (hq m hm)
    refine ⟨xs, hxs.imp fun _ _ h => h.1, anyListed_only alone_metric ?_⟩
    rw [List.forall₂_map_left_iff]
    exact hxs.imp fun _ _ h => h.2

example : ∃ xs, List.Forall₂ SameMetric [⟨s!!"db", some ⟨0, 53200000⟩, some s!!"the, \tdata; base"⟩, ⟨s!!"miss", none, none⟩] xs ∧
    ∀ v, ServerTiming.value [⟨s!!"db", some ⟨0, 53200000⟩, some s!!"the, \tdata; base"⟩, ⟨s!!"miss", none, none⟩] = .ok v →
      OnlyAs (AnyListed MetricText v) xs := by
  obtain ⟨xs, h1, h2⟩ := (C111_metrics_iff_partial [⟨s!!"db", some ⟨0, 53200000⟩, some s!!"the, \tdata; base"⟩, ⟨s!!"miss", none, none⟩]
    (by
      intro m hm
      rcases List.mem_cons.mp hm with rfl | hm
      · intro d hd
        cases hd; exact ⟨Nat.two_pow_pos _, by decide⟩
      · rw [List.mem_singleton.mp hm]
        simp) _ (timing_value _)).mpr (by
      intro m hm
      rcases List.mem_cons.mp hm with rfl | hm
      · refine ⟨Mime.token_of (by decide) (by decide), fun t ht => ?_⟩
        cases ht
        unfold QuotedChar
        decide
      · rw [List.mem_singleton.mp hm]
        exact ⟨Mime.token_of (by decide) (by decide), by simp⟩)
  refine ⟨xs, h1, fun v hv => ?_⟩
  rw [timing_value] at hv
  cases hv
  exact h2

theorem near_one {u x x' z B : Nat} (hu : 0 < u) (hB : B = 500000000000000) (b : x < B) (b' : x' < B)
    (h : 2 ^ 50 * gap z (u * x) ≤ u * x) (h' : 2 ^ 50 * gap z (u * x') ≤ u * x') : x = x' := by
  have c : u * x ≤ u * B := Nat.mul_le_mul_left u (Nat.le_of_lt b)
  have c' : u * x' ≤ u * B := Nat.mul_le_mul_left u (Nat.le_of_lt b')
  have d : ∀ {x x'}, x < x' → u * x + u ≤ u * x' := fun {x x'} hlt => by
    rw [← Nat.mul_succ]; exact Nat.mul_le_mul_left u hlt
  rw [hB] at c c'
  unfold gap at h h'
  rcases Nat.lt_trichotomy x x' with hlt | rfl | hlt
  · have := d hlt
    clear b b' hB d hlt
    generalize u * x = y at *
    generalize u * x' = y' at *
    omega
  · rfl
  · have := d hlt
    clear b b' hB d hlt
    generalize u * x = y at *
    generalize u * x' = y' at *
    omega

/-- Two durations below 500000 seconds are not read as the same number. -/
theorem C111_durations {d d' : Duration} {q : Nat} (hn : d.nanos < 1000000000) (hn' : d'.nanos < 1000000000)
    (hs : d.secs < 500000) (hs' : d'.secs < 500000) (h : CloseTo d q) (h' : CloseTo d' q) : d = d' := by
  obtain ⟨B, hB⟩ : ∃ B, B = 500000000000000 := ⟨_, rfl⟩
  have bound : ∀ s n : Nat, s < 500000 → n < 1000000000 → s * 1000000000 + n < B := by intro s n _ _; omega
  have key := near_one (Nat.two_pow_pos _) hB (bound _ _ hs hn) (bound _ _ hs' hn') h h'
  obtain ⟨s, n⟩ := d
  obtain ⟨s', n'⟩ := d'
  clear h h' bound hB
  simp only at *
  congr 1 <;> omega

example : CloseTo ⟨1, 5⟩ (Duration.millisMag ⟨1, 5⟩) := millis_close _ (by decide)

theorem inserted_metric (f : Duration → Str) (n n' t t' : Str) (d : Option Duration) :
    join s!!", " ([⟨n, d, some t⟩, ⟨n', none, some t'⟩].map (Metric.textOf f)) =
      join s!!", " ([⟨n, d, some (t ++ s!!"\", " ++ n' ++ s!!"; desc=\"" ++ t')⟩].map (Metric.textOf f)) := by
  cases d <;> simp [Metric.textOf, join]

/-- A description can bring along further metrics. -/
theorem C111_violated_metric {n n' t t' : Str} {d : Option Duration} (h : MetricOk ⟨n, d, some t⟩) (h' : MetricOk ⟨n', none, some t'⟩)
    (hq : QuotableMetric ⟨n, d, some t⟩) (hq' : QuotableMetric ⟨n', none, some t'⟩) :
    ∃ m, Metric.new n d (some (t ++ s!!"\", " ++ n' ++ s!!"; desc=\"" ++ t')) = .ok m ∧ ∀ v, ServerTiming.value [m] = .ok v →
      ∃ xs, List.Forall₂ SameMetric [⟨n, d, some t⟩, ⟨n', none, some t'⟩] xs ∧ OnlyAs (AnyListed MetricText v) xs := by
  have ha : isAscii n = true := isAscii_iff.mpr h.1
  have hb : isAscii t = true := isAscii_iff.mpr (h.2.1 t rfl)
  have hc : isAscii n' = true := isAscii_iff.mpr h'.1
  have hd : isAscii t' = true := isAscii_iff.mpr (h'.2.1 t' rfl)
  refine ⟨_, by
    unfold Metric.new
    rw [if_pos ha]
    simp only
    rw [if_pos (by simp only [isAscii_append, hb, hc, hd]; decide)], fun v hv => ?_⟩
  refine (C111_metrics_iff_partial _ (fun m hm => ?_) v ?_).mpr fun m hm => ?_
  · rcases List.mem_cons.mp hm with rfl | hm
    · exact h.2.2
    · rw [List.mem_singleton.mp hm]; exact h'.2.2
  · rw [← hv, timing_value, timing_value, inserted_metric]
  · rcases List.mem_cons.mp hm with rfl | hm
    · exact hq
    · rw [List.mem_singleton.mp hm]; exact hq'

example : QuotableMetric ⟨s!!"a", none, some s!!"b c"⟩ := by
  refine ⟨Mime.token_of (by decide) (by decide), fun t ht => ?_⟩
  cases ht
  unfold QuotedChar
  decide

/-- A name can bring along a duration. -/
theorem C111_violated_name {n : Str} {d : Duration} (h : MetricOk ⟨n, some d, none⟩) (hn : Token n) :
    ∃ m, Metric.new (n ++ s!!"; dur=" ++ Metric.millis d) none none = .ok m ∧ ∀ v, ServerTiming.value [m] = .ok v →
      ∃ x, SameMetric ⟨n, some d, none⟩ x ∧ OnlyAs (AnyListed MetricText v) [x] := by
  have ha : isAscii (Metric.textOf Metric.millis ⟨n, some d, none⟩) = true := Metric.text_ascii _ h
  refine ⟨_, by
    unfold Metric.new
    rw [if_pos (by exact ha)], fun v hv => ?_⟩
  obtain ⟨xs, h1, h2⟩ := (C111_metrics_iff_partial [⟨n, some d, none⟩] (fun m hm => by
    rw [List.mem_singleton.mp hm]; exact h.2.2) v (by
    rw [← hv, timing_value, timing_value]
    generalize Metric.millis = f
    simp [Metric.textOf, join])).mpr (fun m hm => by
    rw [List.mem_singleton.mp hm]; exact ⟨hn, by simp⟩)
  cases h1 with
  | cons h1 h3 =>
    cases h3
    exact ⟨_, h1, h2⟩

example : MetricOk ⟨s!!"a", some ⟨1, 5⟩, none⟩ :=
  ⟨isAscii_iff.mp (by decide), by simp, fun d hd => by cases hd; exact ⟨Nat.one_lt_two_pow (by omega), by decide⟩⟩

/-- A backslash in a description is taken for an escape. -/
theorem C111_violated_escape {n a b : Str} {c : Char} (hn : Token n) (hc : QuotedChar c)
    (ha : ∀ x ∈ a ++ b, QuotedChar x ∧ x ≠ '"' ∧ x ≠ '\\') (v : HeaderValue)
    (hv : ServerTiming.value [⟨n, none, some (a ++ '\\' :: c :: b)⟩] = .ok v) :
    OnlyAs (AnyListed MetricText v) [⟨n, none, some (a ++ c :: b)⟩] := by
  have hesc : Escaped (a ++ '\\' :: c :: b) (a ++ c :: b) := by
    have h1 := fun x hx => (ha x (List.mem_append_left _ hx)).2
    have h2 := fun x hx => (ha x (List.mem_append_right a hx)).2
    clear ha hv
    induction a with
    | nil => exact .pair (escaped_clean h2)
    | cons y a ih =>
      have := h1 y List.mem_cons_self
      exact .plain this.1 this.2 (ih fun x hx => h1 x (List.mem_cons_of_mem _ hx))
  have hval : ValueText ('"' :: ((a ++ '\\' :: c :: b) ++ ['"'])) (a ++ c :: b) := by
    refine .inr ⟨_, rfl, hesc, fun x hx => ?_⟩
    rcases List.mem_append.mp hx with hx | hx
    · exact (ha x (List.mem_append_left _ hx)).1
    · rcases List.mem_cons.mp hx with rfl | hx
      · exact hc
      · exact (ha x (List.mem_append_right _ hx)).1
  have sp : Ows s!!" " := by intro c hc; exact .inl (by simpa using hc)
  have ni : Ows [] := by intro c hc; cases hc
  have harg := TimingArgs.cons ni sp (n := s!!"desc") (Mime.token_of (by decide) (by decide)) ni ni hval .nil
  rw [List.append_nil] at harg
  have := anyListed_only alone_metric (ts := [n ++ (s!!"; desc=\"" ++ ((a ++ '\\' :: c :: b) ++ ['"']))])
    (xs := [⟨n, none, some (a ++ c :: b)⟩]) (.cons ⟨_, _, rfl, hn, harg, rfl, rfl⟩ .nil)
  rw [timing_value] at hv
  cases hv
  rw [List.map_cons, List.map_nil, text_args]
  exact this

example : ∀ v, ServerTiming.value [⟨s!!"a", none, some s!!"C:\\new"⟩] = .ok v →
    OnlyAs (AnyListed MetricText v) [⟨s!!"a", none, some s!!"C:new"⟩] :=
  C111_violated_escape (a := s!!"C:") (c := 'n') (b := s!!"ew") (Mime.token_of (by decide) (by decide)) (by unfold QuotedChar; decide)
    (by unfold QuotedChar; decide)

end HT
