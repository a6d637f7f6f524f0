import Verif.Spec.Login
import Verif.Props.Auth

/-! C126: a login reaches the server as the user's own, for the realm that asked. -/

namespace HT
open Spec

/-- A text is taken apart at its first colon in one way. -/
theorem first_colon {a b u v : Str} (ha : ':' ∉ a) (hb : ':' ∉ b) (h : a ++ ':' :: u = b ++ ':' :: v) : a = b ∧ u = v := by
  induction a generalizing b with
  | nil =>
    cases b with
    | nil => simpa using h
    | cons c b =>
      simp only [List.nil_append, List.cons_append, List.cons.injEq] at h
      exact absurd (h.1 ▸ List.mem_cons_self) hb
  | cons c a ih =>
    cases b with
    | nil =>
      simp only [List.nil_append, List.cons_append, List.cons.injEq] at h
      exact absurd (h.1 ▸ List.mem_cons_self) ha
    | cons d b =>
      simp only [List.cons_append, List.cons.injEq] at h
      obtain ⟨rfl, rfl⟩ := ih (fun m => ha (List.mem_cons_of_mem _ m)) (fun m => hb (List.mem_cons_of_mem _ m)) h.2
      exact ⟨by rw [h.1], rfl⟩

theorem no_quote {r : Str} (h : '"' ∉ r) : r.takeWhile (· ≠ '"') = r := by
  induction r with
  | nil => rfl
  | cons c r ih =>
    rw [List.takeWhile_cons_of_pos (by simpa using fun e : c = '"' => h (e ▸ List.mem_cons_self)),
      ih fun m => h (List.mem_cons_of_mem _ m)]

/-- The client reads the scheme and the realm up to its first quote. -/
theorem C126_asked (a : WwwAuthenticate) (resp : Headers) :
    challenged a resp = .ok (some ⟨a.scheme, a.realm.takeWhile (· ≠ '"')⟩) := by
  obtain ⟨s, r⟩ := a
  show WwwAuthenticate.fromHeaders _ = _
  refine (((C47_reads _).2 [] _ (get_set_self _ _ _)).1 _).mpr ?_
  have ht : '"' ∉ r.takeWhile (· ≠ '"') := by
    intro h
    simpa using List.all_eq_true.mp (List.all_takeWhile (p := (· ≠ '"')) (l := r)) _ h
  have hd : r = r.takeWhile (· ≠ '"') ++ r.dropWhile (· ≠ '"') := List.takeWhile_append_dropWhile.symm
  cases hx : r.dropWhile (· ≠ '"') with
  | nil =>
    rw [hx, List.append_nil] at hd
    rw [← hd] at ht ⊢
    exact WwwAuthenticate.headerValue_text s r r _ ht rfl
  | cons c rest =>
    have hc : c = '"' := by
      have := List.head?_dropWhile_not (p := (· ≠ '"')) (l := r)
      rw [hx] at this
      simpa using this
    rw [hx, hc] at hd
    exact WwwAuthenticate.headerValue_text s r _ (rest ++ s!!"\", charset=\"UTF-8\"") ht (by
      conv => lhs; rw [hd]
      simp)

example : challenged ⟨.basic, s!!"staff"⟩ [] = .ok (some ⟨.basic, s!!"staff"⟩) := C126_asked _ _

/-- The server reads the user up to the first colon of user, colon and password, and the rest as the password. -/
theorem C126_told (u p : Str) (req : Headers) :
    ∃ u' p', told u p req = .ok (some ⟨u', p'⟩) ∧ ':' ∉ u' ∧ u' ++ ':' :: p' = u ++ ':' :: p := by
  by_cases hu : ':' ∈ u
  · obtain ⟨a, b, rfl, ha⟩ := List.eq_append_cons_of_mem hu
    obtain ⟨h', v, h1, -, -, h4⟩ := C46_violated_colon a b p ha req
    exact ⟨a, b ++ ':' :: p, by rw [told, show s!!"authorization" = Authorization.NAME from rfl, h1]; exact h4, ha, by simp⟩
  · obtain ⟨h', v, h1, -, -, h4⟩ := C46_round_trip_partial ⟨u, p⟩ hu req
    exact ⟨u, p, by rw [told, show s!!"authorization" = Authorization.NAME from rfl, h1]; exact h4, hu, rfl⟩

example : told s!!"ann" s!!"a:b" [] = .ok (some ⟨s!!"ann", s!!"a:b"⟩) := by
  obtain ⟨u', p', h, hu, he⟩ := C126_told s!!"ann" s!!"a:b" []
  have hl := first_colon hu (by decide) he
  rw [h, hl.1, hl.2]

/-- A client that is asked for another scheme than Basic gives no password away. -/
theorem C126_other_scheme (w : Wallet) (a : WwwAuthenticate) (ha : a.scheme ≠ .basic) (resp req : Headers) :
    login w a resp req = .ok none := by
  obtain ⟨s, r⟩ := a
  rw [login, C126_asked]
  cases s <;> first | rfl | exact absurd rfl ha

example : (⟨.bearer, s!!"staff"⟩ : WwwAuthenticate).scheme ≠ .basic := by decide

/-- What the server reads, whatever it asked for and whatever the client has: nothing, or what the client has for the realm
up to its first quote, taken apart at the first colon. -/
theorem C126_login (w : Wallet) (r : Str) (resp req : Headers) :
    (w (r.takeWhile (· ≠ '"')) = none ∧ login w ⟨.basic, r⟩ resp req = .ok none) ∨
    ∃ u p u' p', w (r.takeWhile (· ≠ '"')) = some (u, p) ∧ login w ⟨.basic, r⟩ resp req = .ok (some (u', p')) ∧
      ':' ∉ u' ∧ u' ++ ':' :: p' = u ++ ':' :: p := by
  rw [login, C126_asked]
  rw [show (Res.ok (some (⟨.basic, r.takeWhile (· ≠ '"')⟩ : WwwAuthenticate))).bind (answered w req) =
    answered w req (some ⟨.basic, r.takeWhile (· ≠ '"')⟩) from rfl]
  cases hw : w (r.takeWhile (· ≠ '"')) with
  | none => exact .inl ⟨rfl, by simp only [answered, hw]⟩
  | some x =>
    obtain ⟨u, p⟩ := x
    obtain ⟨u', p', h1, h2, h3⟩ := C126_told u p req
    refine .inr ⟨u, p, u', p', rfl, ?_, h2, h3⟩
    simp only [answered, hw, h1]
    rfl

example : (fun r => if r = s!!"staff" then some (s!!"ann", s!!"x") else none : Wallet) (s!!"staff".takeWhile (· ≠ '"')) =
    some (s!!"ann", s!!"x") := by decide

/-- With user names without colons, what the client has for the realm that asks is what the server reads, and nothing if
the client has nothing, exactly for realms without a quote. -/
theorem C126_realm_iff_partial (r : Str) :
    (∀ w, NoColons w → ∀ resp req, login w ⟨.basic, r⟩ resp req = .ok (w r)) ↔ '"' ∉ r := by
  constructor
  · intro h hr
    have hne : r.takeWhile (· ≠ '"') ≠ r := by
      intro he
      have ht : '"' ∉ r.takeWhile (· ≠ '"') := by
        intro h
        simpa using List.all_eq_true.mp (List.all_takeWhile (p := (· ≠ '"')) (l := r)) _ h
      rw [he] at ht
      exact ht hr
    have := h (fun x => if x = r then some ([], []) else none) (by
      intro x u p hx
      dsimp only at hx
      split at hx
      · simp only [Option.some.injEq, Prod.mk.injEq] at hx
        simp [← hx.1]
      · cases hx) [] []
    rcases C126_login (fun x => if x = r then some ([], []) else none) r [] [] with ⟨-, h2⟩ | ⟨u, p, -, -, h1, -⟩
    · rw [h2] at this
      simp at this
    · rw [if_neg hne] at h1
      cases h1
  · intro hr w hw resp req
    have ht : r.takeWhile (· ≠ '"') = r := no_quote hr
    rcases C126_login w r resp req with ⟨h1, h2⟩ | ⟨u, p, u', p', h1, h2, h3, h4⟩
    · rw [ht] at h1
      rw [h1, h2]
    · rw [ht] at h1
      obtain ⟨rfl, rfl⟩ := first_colon h3 (hw r u p h1) h4
      rw [h1, h2]

example : '"' ∉ s!!"staff only" ∧ NoColons fun r => if r = s!!"staff only" then some (s!!"ann", s!!"a:b") else none := by
  refine ⟨by decide, fun r u p h => ?_⟩
  dsimp only at h
  split at h
  · simp only [Option.some.injEq, Prod.mk.injEq] at h
    rw [← h.1]
    decide
  · cases h

/-- Who a user is to the server that asks with a realm without a quote: the user with that password, exactly if the name has
no colon. -/
theorem C126_user_iff_partial (u p : Str) :
    (∀ (w : Wallet) (r : Str) (resp req : Headers), '"' ∉ r → w r = some (u, p) →
      login w ⟨.basic, r⟩ resp req = .ok (some (u, p))) ↔ ':' ∉ u := by
  constructor
  · intro h hu
    have h0 := h (fun _ => some (u, p)) [] [] [] (by simp) rfl
    rcases C126_login (fun _ => some (u, p)) [] [] [] with ⟨h1, -⟩ | ⟨u', p', u1, p1, -, h2, h3, -⟩
    · cases h1
    · rw [h2] at h0
      simp only [Res.ok.injEq, Option.some.injEq, Prod.mk.injEq] at h0
      exact h3 (h0.1 ▸ hu)
  · intro hu w r resp req hr hw
    have ht : r.takeWhile (· ≠ '"') = r := no_quote hr
    rcases C126_login w r resp req with ⟨h1, -⟩ | ⟨u1, p1, u', p', h1, h2, h3, h4⟩
    · rw [ht, hw] at h1
      cases h1
    · rw [ht, hw] at h1
      simp only [Option.some.injEq, Prod.mk.injEq] at h1
      obtain ⟨rfl, rfl⟩ := h1
      obtain ⟨rfl, rfl⟩ := first_colon h3 hu h4
      exact h2

example : ':' ∉ s!!"ann" := by decide

/-- Two logins are the same to the server exactly if user, colon and password make the same text. -/
theorem C126_same_iff (u p u' p' : Str) (req req' : Headers) :
    told u p req = told u' p' req' ↔ u ++ ':' :: p = u' ++ ':' :: p' := by
  obtain ⟨a, b, h1, h2, h3⟩ := C126_told u p req
  obtain ⟨a', b', h1', h2', h3'⟩ := C126_told u' p' req'
  rw [h1, h1', ← h3, ← h3']
  constructor
  · intro h
    simp only [Res.ok.injEq, Option.some.injEq, BasicAuth.mk.injEq] at h
    rw [h.1, h.2]
  · intro h
    obtain ⟨rfl, rfl⟩ := first_colon h2 h2' h
    rfl

example : told s!!"a" s!!"b:c" [] = told s!!"a:b" s!!"c" [] := (C126_same_iff ..).mpr rfl

/-- So no two logins of users without colons in their names are the same. -/
theorem C126_distinct_partial (u p u' p' : Str) (hu : ':' ∉ u) (hu' : ':' ∉ u') (req req' : Headers) :
    told u p req = told u' p' req' ↔ u = u' ∧ p = p' := by
  rw [C126_same_iff]
  exact ⟨first_colon hu hu', by rintro ⟨rfl, rfl⟩; rfl⟩

example : told s!!"ann" s!!"x" [] ≠ told s!!"bob" s!!"x" [] := by
  rw [Ne, C126_distinct_partial _ _ _ _ (by decide) (by decide)]
  decide

/-- C126 is violated: a user with a colon in the name is another user to the server. -/
theorem C126_violated_colon (a b c : Str) (ha : ':' ∉ a) (req : Headers) :
    told (a ++ ':' :: b) c req = .ok (some ⟨a, b ++ ':' :: c⟩) := by
  obtain ⟨u', p', h1, h2, h3⟩ := C126_told (a ++ ':' :: b) c req
  obtain ⟨rfl, rfl⟩ := first_colon h2 ha (v := b ++ ':' :: c) (by simpa using h3)
  exact h1

example : ':' ∉ s!!"ann" := by decide

/-- C126 is violated: a server that asks for a realm with a quote is given what the client has for another realm, the part
before the quote. -/
theorem C126_violated_realm (w : Wallet) (r x u p : Str) (hr : '"' ∉ r) (hw : w r = some (u, p)) (hu : ':' ∉ u)
    (resp req : Headers) : login w ⟨.basic, r ++ '"' :: x⟩ resp req = .ok (some (u, p)) := by
  have ht : (r ++ '"' :: x).takeWhile (· ≠ '"') = r := by
    rw [List.takeWhile_append_of_pos]
    · simp
    · intro c hc
      simp only [decide_eq_true_eq]
      rintro rfl
      exact hr hc
  rcases C126_login w (r ++ '"' :: x) resp req with ⟨h1, -⟩ | ⟨u1, p1, u', p', h1, h2, h3, h4⟩
  · rw [ht, hw] at h1
    cases h1
  · rw [ht, hw] at h1
    simp only [Option.some.injEq, Prod.mk.injEq] at h1
    obtain ⟨rfl, rfl⟩ := h1
    obtain ⟨rfl, rfl⟩ := first_colon h3 hu h4
    exact h2

example : login (fun r => if r = s!!"bank" then some (s!!"ann", s!!"x") else none) ⟨.basic, s!!"bank\" of evil"⟩ [] [] =
    .ok (some (s!!"ann", s!!"x")) :=
  C126_violated_realm _ s!!"bank" s!!" of evil" _ _ (by decide) (by decide) (by decide) _ _

end HT
