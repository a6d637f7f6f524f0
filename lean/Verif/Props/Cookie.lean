import Verif.Spec.Cookie
import Verif.Props.Headers
import Verif.Props.Injection

/-!
C125: cookies as header values.
-/

namespace HT
open Spec

theorem semi_ne (s : Str) : semiPieces s ≠ [] := by
  cases s with
  | nil => exact List.cons_ne_nil _ _
  | cons c s =>
    simp only [semiPieces]
    split
    · exact List.cons_ne_nil _ _
    · split <;> exact List.cons_ne_nil _ _

theorem semi_clean : ∀ {s p : Str}, p ∈ semiPieces s → ';' ∉ p
  | [], p, h => by simp [semiPieces] at h; simp [h]
  | c :: s, p, h => by
    simp only [semiPieces] at h
    split at h
    · rcases List.mem_cons.mp h with rfl | h
      · exact List.not_mem_nil
      · exact semi_clean h
    · next hc =>
      cases hp : semiPieces s with
      | nil => exact absurd hp (semi_ne s)
      | cons q qs =>
        rw [hp] at h
        rcases List.mem_cons.mp h with rfl | h
        · rw [List.mem_cons, not_or]
          exact ⟨fun e => hc e.symm, semi_clean (s := s) (hp ▸ List.mem_cons_self)⟩
        · exact semi_clean (s := s) (hp ▸ List.mem_cons_of_mem _ h)

theorem semi_append {a : Str} (h : ';' ∉ a) (b : Str) : semiPieces (a ++ ';' :: b) = a :: semiPieces b := by
  induction a with
  | nil => simp [semiPieces]
  | cons c a ih =>
    rw [List.mem_cons, not_or] at h
    rw [List.cons_append, semiPieces, if_neg fun e => h.1 e.symm, ih h.2]

theorem semi_self {a : Str} (h : ';' ∉ a) : semiPieces a = [a] := by
  induction a with
  | nil => rfl
  | cons c a ih =>
    rw [List.mem_cons, not_or] at h
    rw [semiPieces, if_neg fun e => h.1 e.symm, ih h.2]

theorem semi_attrs {a : Str} (h : ';' ∉ a) : ∀ {l : List Str}, (∀ t ∈ l, ';' ∉ t) →
    semiPieces (a ++ l.flatMap fun t => s!!"; " ++ t) = a :: l.map fun t => ' ' :: t
  | [], _ => by simpa using semi_self h
  | t :: l, hl => by
    have ht : ';' ∉ ' ' :: t := by
      rw [List.mem_cons, not_or]; exact ⟨by decide, hl t List.mem_cons_self⟩
    simp only [List.flatMap_cons, List.cons_append, List.nil_append, List.map_cons]
    rw [semi_append h, show ' ' :: (t ++ l.flatMap fun t => ';' :: ' ' :: t) = (' ' :: t) ++ l.flatMap fun t => s!!"; " ++ t
      from rfl, semi_attrs ht fun t ht => hl t (List.mem_cons_of_mem _ ht)]

theorem dropWhile_idem {α : Type} (p : α → Bool) (l : List α) : (l.dropWhile p).dropWhile p = l.dropWhile p := by
  induction l with
  | nil => rfl
  | cons a l ih =>
    by_cases h : p a = true
    · rw [List.dropWhile_cons_of_pos h, ih]
    · rw [List.dropWhile_cons_of_neg h, List.dropWhile_cons_of_neg h]

theorem bare_sub (s : Str) : (bare s).Sublist s := by
  have h := ((List.dropWhile_sublist (l := (s.dropWhile fun c => c == ' ' || c == '\t').reverse)
    (fun c => c == ' ' || c == '\t'))).reverse
  rw [List.reverse_reverse] at h
  exact h.trans (List.dropWhile_sublist _)

theorem bare_idem (s : Str) : bare (bare s) = bare s := by
  unfold bare
  generalize hp : (fun c : Char => c == ' ' || c == '\t') = p
  have h1 : ∀ t : Str, (t.dropWhile p).dropWhile p = t.dropWhile p := dropWhile_idem p
  generalize ht : s.dropWhile p = t
  have h0 : t.dropWhile p = t := by rw [← ht, h1]
  -- dropping at the end keeps the first character unless everything goes
  have h2 : (t.reverse.dropWhile p).reverse.dropWhile p = (t.reverse.dropWhile p).reverse := by
    have e : t.reverse.takeWhile p ++ t.reverse.dropWhile p = t.reverse := List.takeWhile_append_dropWhile
    have e2 : t = (t.reverse.dropWhile p).reverse ++ (t.reverse.takeWhile p).reverse := by
      rw [← List.reverse_append, e, List.reverse_reverse]
    cases hr : (t.reverse.dropWhile p).reverse with
    | nil => rfl
    | cons c r =>
      have hc : ¬ p c = true := by
        intro hc
        rw [hr] at e2
        rw [e2, List.cons_append, List.dropWhile_cons_of_pos hc] at h0
        have hl := congrArg List.length h0
        have := (List.dropWhile_sublist (l := r ++ (t.reverse.takeWhile p).reverse) p).length_le
        rw [h0] at this
        simp at this
      exact List.dropWhile_cons_of_neg hc
  rw [h2, List.reverse_reverse, h1]

theorem bare_space (s : Str) : bare (' ' :: s) = bare s := by
  unfold bare
  rw [List.dropWhile_cons_of_pos (by decide)]

/-- C125: a browser takes from the line exactly name, value and attributes of the cookie if and only if they have no
semicolon and no blanks around them, and the name is not empty and has no equals sign. Missing: these are not checked. -/
theorem C125_reads_partial (c : Cookie) :
    browserReads c.toHeaderValue = some (c.name, c.value, c.attrs) ↔ Carried c.name c.value c.attrs := by
  constructor
  · intro h
    unfold browserReads at h
    cases hp : semiPieces c.toHeaderValue with
    | nil => exact absurd hp (semi_ne _)
    | cons pair attrs =>
      rw [hp] at h
      simp only at h
      split at h
      · next hc =>
        simp only [Option.some.injEq, Prod.mk.injEq] at h
        obtain ⟨h1, h2, h3⟩ := h
        have hpair : ';' ∉ pair := semi_clean (s := c.toHeaderValue) (hp ▸ List.mem_cons_self)
        refine ⟨h1 ▸ hc.2, fun he => ?_, ?_⟩
        · rw [← h1] at he
          have := (bare_sub _).subset he
          exact absurd (List.all_eq_true.mp (List.all_takeWhile (p := fun c : Char => decide (c ≠ '=')) (l := pair)) _ this)
            (by decide)
        · intro t ht
          rcases List.mem_cons.mp ht with rfl | ht
          · rw [← h1]
            exact ⟨fun hs => hpair ((List.takeWhile_sublist _).subset ((bare_sub _).subset hs)), bare_idem _⟩
          rcases List.mem_cons.mp ht with rfl | ht
          · rw [← h2]
            exact ⟨fun hs => hpair ((List.dropWhile_sublist _).subset ((List.drop_sublist _ _).subset ((bare_sub _).subset hs))),
              bare_idem _⟩
          · rw [← h3, List.mem_map] at ht
            obtain ⟨a, ha, rfl⟩ := ht
            exact ⟨fun hs => semi_clean (s := c.toHeaderValue) (hp ▸ List.mem_cons_of_mem _ ha) ((bare_sub _).subset hs),
              bare_idem _⟩
      · cases h
  · rintro ⟨hn, he, ht⟩
    have hname := ht c.name (by simp)
    have hvalue := ht c.value (by simp)
    have hattr : ∀ t ∈ c.attrs, ';' ∉ t ∧ bare t = t := fun t h => ht t (by simp [h])
    have hp : semiPieces c.toHeaderValue = (c.name ++ s!!"=" ++ c.value) :: c.attrs.map fun t => ' ' :: t := by
      refine semi_attrs ?_ fun t h => (hattr t h).1
      simp only [List.mem_append, not_or]
      exact ⟨⟨hname.1, by decide⟩, hvalue.1⟩
    unfold browserReads
    rw [hp]
    have t1 : (c.name ++ s!!"=" ++ c.value).takeWhile (· ≠ '=') = c.name := by
      rw [List.append_assoc, List.takeWhile_append_of_pos (by intro a ha; simpa using fun e : a = '=' => he (e ▸ ha))]
      simp
    have t2 : (c.name ++ s!!"=" ++ c.value).dropWhile (· ≠ '=') = '=' :: c.value := by
      rw [List.append_assoc, List.dropWhile_append_of_pos (by intro a ha; simpa using fun e : a = '=' => he (e ▸ ha))]
      simp
    simp only [t1, t2, hname.2, List.drop_succ_cons, List.drop_zero, hvalue.2, List.map_map]
    rw [if_pos ⟨by simp, hn⟩]
    congr 3
    rw [List.map_congr_left (g := id) fun t h => by simp only [Function.comp_apply, bare_space, (hattr t h).2, id], List.map_id]

example : browserReads (Cookie.toHeaderValue ⟨s!!"id", s!!"a=b", [s!!"HttpOnly", s!!"Path=/"]⟩) =
    some (s!!"id", s!!"a=b", [s!!"HttpOnly", s!!"Path=/"]) := (C125_reads_partial _).mpr (by decide)
example : ¬ Carried s!!"id" s!!"a; b" [] := by decide

/-- C125, fails: what follows a semicolon in a value is an attribute. So a value taken from a user sets the domain, the path
or the lifetime of the cookie. -/
theorem C125_violated_attribute (n v a : Str) (l : List Str) (h : Carried n v (a :: l)) :
    browserReads (Cookie.toHeaderValue ⟨n, v ++ s!!"; " ++ a, l⟩) = some (n, v, a :: l) := by
  rw [show Cookie.toHeaderValue ⟨n, v ++ s!!"; " ++ a, l⟩ = Cookie.toHeaderValue ⟨n, v, a :: l⟩ by
    simp [Cookie.toHeaderValue, Cookie.display]]
  exact (C125_reads_partial ⟨n, v, a :: l⟩).mpr h

example : browserReads (Cookie.toHeaderValue ⟨s!!"user", s!!"x; Domain=example.com", [s!!"Secure"]⟩) =
    some (s!!"user", s!!"x", [s!!"Domain=example.com", s!!"Secure"]) := 
  C125_violated_attribute s!!"user" s!!"x" s!!"Domain=example.com" [s!!"Secure"] (by decide)

/-- C125: the value is stored as it was given, so it is ASCII exactly if all parts of the cookie are. Missing for C04: that
they are; and line ends pass. -/
theorem C125_ascii_partial (c : Cookie) :
    Ascii c.toHeaderValue ↔ Ascii c.name ∧ Ascii c.value ∧ ∀ a ∈ c.attrs, Ascii a := by
  have key : ∀ l : List Str, Ascii (l.flatMap fun a => s!!"; " ++ a) ↔ ∀ a ∈ l, Ascii a := by
    intro l
    simp only [Ascii, List.mem_flatMap, List.mem_append]
    constructor
    · intro h a ha x hx
      exact h x ⟨a, ha, .inr hx⟩
    · rintro h x ⟨a, ha, hx | hx⟩
      · exact (by decide : ∀ x ∈ s!!"; ", x.toNat < 128) x hx
      · exact h a ha x hx
  rw [← key]
  simp only [Ascii, Cookie.toHeaderValue, Cookie.display, List.mem_append]
  constructor
  · intro h
    exact ⟨fun x hx => h x (.inl (.inl (.inl hx))), fun x hx => h x (.inl (.inr hx)), fun x hx => h x (.inr hx)⟩
  · rintro ⟨h1, h2, h3⟩ x (((hx | hx) | hx) | hx)
    · exact h1 x hx
    · exact (by decide : ∀ x ∈ s!!"=", x.toNat < 128) x hx
    · exact h2 x hx
    · exact h3 x hx

example : ¬ Ascii (Cookie.toHeaderValue ⟨s!!"a", s!!"é", []⟩) ∧
    Cookie.toHeaderValue ⟨s!!"a", s!!"b\r\nx: y", []⟩ = s!!"a=b\r\nx: y" := by decide

/-- A cookie is stored without checking that it is ASCII. -/
theorem C04_violated_cookie (v : Str) (hv : ¬ Ascii v) (n : Str) (l : List Str) : ¬ Ascii (Cookie.toHeaderValue ⟨n, v, l⟩) :=
  fun h => hv ((C125_ascii_partial _).mp h).2.1

example : ¬ Ascii (Cookie.toHeaderValue ⟨s!!"name", s!!"zoë", [s!!"Secure"]⟩) := C04_violated_cookie _ (by decide) _ _

/-- A cookie is a field text exactly if its parts are; nothing is encoded or refused. -/
theorem C86_cookie_partial (c : Cookie) :
    FieldText c.toHeaderValue ↔ FieldText c.name ∧ FieldText c.value ∧ ∀ a ∈ c.attrs, FieldText a := by
  have key : ∀ l : List Str, FieldText (l.flatMap fun a => s!!"; " ++ a) ↔ ∀ a ∈ l, FieldText a := by
    intro l
    simp only [FieldText, List.mem_flatMap, List.mem_append]
    constructor
    · intro h a ha x hx
      exact h x ⟨a, ha, .inr hx⟩
    · rintro h x ⟨a, ha, hx | hx⟩
      · exact (by decide : FieldText s!!"; ") x hx
      · exact h a ha x hx
  rw [← key]
  simp only [FieldText, Cookie.toHeaderValue, Cookie.display, List.mem_append]
  constructor
  · intro h
    exact ⟨fun x hx => h x (.inl (.inl (.inl hx))), fun x hx => h x (.inl (.inr hx)), fun x hx => h x (.inr hx)⟩
  · rintro ⟨h1, h2, h3⟩ x (((hx | hx) | hx) | hx)
    · exact h1 x hx
    · exact (by decide : FieldText s!!"=") x hx
    · exact h2 x hx
    · exact h3 x hx

example : ¬ FieldText (Cookie.toHeaderValue ⟨s!!"a", s!!"b\r\nx: y", []⟩) := by
  rw [C86_cookie_partial]; decide

/-- C125: after any history, cookies that are appended one after another under any spelling of one name come after the
values it had, one line each, in order, and a browser takes them all. -/
theorem C125_appended (h : List HOp) (n : Str) (hn : Ascii n) (cs : List (Str × Cookie))
    (hk : ∀ p ∈ cs, sameName p.1 n = true) (hc : ∀ p ∈ cs, Carried p.2.name p.2.value p.2.attrs) :
    ∃ before, (HOp.run h).getStr n = .ok before ∧
      (HOp.run (h ++ cs.map fun p => .append p.1 (.value p.2.toHeaderValue))).getStr n =
        .ok (if cs = [] then before else some (before.getD [] ++ cs.map fun p => p.2.toHeaderValue)) ∧
      (cs.map fun p => browserReads p.2.toHeaderValue) = cs.map fun p => some (p.2.name, p.2.value, p.2.attrs) := by
  refine ⟨Spec.lookup h.reverse n, by rw [C02_get_run, if_pos hn], ?_,
    List.map_congr_left fun p hp => (C125_reads_partial _).mpr (hc p hp)⟩
  rw [C02_get_run, if_pos hn]
  congr 1
  clear hc
  induction cs using List.reverseRecOn with
  | nil => simp
  | append_singleton cs p ih =>
    have ih := ih fun q hq => hk q (List.mem_append_left _ hq)
    have hp := hk p (by simp)
    rw [if_neg (by simp)]
    simp only [List.map_append, List.map_cons, List.map_nil, ← List.append_assoc, List.reverse_append, List.reverse_cons,
      List.reverse_nil, List.nil_append, List.cons_append, Spec.lookup, hp, Spec.writeValues]
    rw [List.reverse_append] at ih
    rw [ih]
    by_cases hcs : cs = []
    · simp [hcs]
    · simp [hcs]

example : (HOp.run ([(s!!"Set-Cookie", (⟨s!!"a", s!!"1", []⟩ : Cookie)), (s!!"set-cookie", ⟨s!!"b", s!!"2", [s!!"Path=/"]⟩)].map
    fun p => .append p.1 (.value p.2.toHeaderValue))).getStr s!!"set-cookie" = .ok (some [s!!"a=1", s!!"b=2; Path=/"]) := by
  decide

end HT
