import Verif.Spec.Typed
import Verif.Lemmas.FMap
import Verif.Lemmas.Headers
import Verif.Lemmas.Num

/-! Helper lemmas about writing and reading typed headers. -/

namespace HT
open Spec

theorem isAscii_iff {s : Str} : isAscii s = true ↔ ∀ c ∈ s, c.toNat < 128 := by
  simp [isAscii, isAsciiC]

theorem applyHeader_ok (h : Headers) (n : HeaderName) (v : HeaderValue) :
    applyHeader h n (.ok v) = .ok (FMap.set h n [v]) := rfl

theorem get_set_self (h : Headers) (n : HeaderName) (vs : HeaderValues) :
    Headers.get (FMap.set h n vs) n = some vs := by
  unfold Headers.get
  rw [FMap.get_set, if_pos rfl]

theorem readLast_none {α : Type} {h : Headers} {n : HeaderName} {f : HeaderValue → Res α}
    (hn : h.get n = none) : readLast h n f = .ok none := by
  unfold readLast
  rw [hn]

theorem readLast_snoc {α : Type} {h : Headers} {n : HeaderName} {f : HeaderValue → Res α}
    {vs : List HeaderValue} {v : HeaderValue} (hn : h.get n = some (vs ++ [v])) :
    readLast h n f = (f v).map some := by
  unfold readLast
  rw [hn]
  simp [HeaderValues.last]

theorem readLast_set {α : Type} (h : Headers) (n : HeaderName) (f : HeaderValue → Res α)
    (v : HeaderValue) : readLast (FMap.set h n [v]) n f = (f v).map some :=
  readLast_snoc (vs := []) (get_set_self h n [v])

theorem readsLast_readLast {α : Type} (n : HeaderName) (f : HeaderValue → Res α) :
    ReadsLast n (fun h => readLast h n f) f :=
  fun _ => ⟨readLast_none, fun _ _ hv => readLast_snoc hv⟩

/-- The list is empty or has a last element. -/
theorem nil_or_snoc {α : Type} (l : List α) : l = [] ∨ ∃ a b, l = a ++ [b] := by
  rcases List.eq_nil_or_concat l with h | ⟨a, b, h⟩
  · exact .inl h
  · exact .inr ⟨a, b, by simpa using h⟩

theorem readsCleanly_readLast {α : Type} {s : Nat} (n : HeaderName) (f : HeaderValue → Res α)
    (hf : ∀ v, (f v).Clean s) : ReadsCleanly s n (fun h => readLast h n f) := by
  intro h hne
  cases hg : h.get n with
  | none => exact .inl ⟨none, readLast_none hg⟩
  | some vs =>
    rcases nil_or_snoc vs with rfl | ⟨a, b, rfl⟩
    · exact absurd hg hne
    · dsimp only
      rw [readLast_snoc hg]
      rcases hf b with ⟨x, hx⟩ | hx
      · exact .inl ⟨some x, by rw [hx]; rfl⟩
      · exact .inr (by rw [hx]; rfl)

/-- A reader of any kind: enough to know what it does on a collection holding the one value. -/
theorem roundTrips_of {α : Type} {name : HeaderName} {value : Res HeaderValue}
    {read : Headers → Res (Option α)} {x : α} (v : HeaderValue) (hv : value = .ok v)
    (ha : isAscii v = true) (hr : ∀ h : Headers, h.get name = some [v] → read h = .ok (some x)) :
    RoundTrips name value read x := by
  intro h
  refine ⟨FMap.set h name [v], v, by rw [hv]; rfl, isAscii_iff.mp ha, ?_, hr _ (get_set_self _ _ _)⟩
  intro n
  unfold Headers.get
  rw [FMap.get_set]
  by_cases hn : name = n
  · rw [if_pos hn, if_pos hn.symm]
  · rw [if_neg hn, if_neg (fun e => hn e.symm)]

theorem roundTrips_readLast {α : Type} {name : HeaderName} {value : Res HeaderValue}
    {f : HeaderValue → Res α} {x : α} (v : HeaderValue) (hv : value = .ok v)
    (ha : isAscii v = true) (hf : f v = .ok x) :
    RoundTrips name value (fun h => readLast h name f) x :=
  roundTrips_of v hv ha fun h hg => by
    rw [readLast_snoc (vs := []) hg, hf]; rfl

theorem clean_ofOption {α : Type} {s t : Nat} (o : Option α) : ((Res.ofOption s o).status t).Clean t := by
  cases o with
  | none => exact .inr rfl
  | some a => exact .inl ⟨a, rfl⟩

theorem clean_map {α β : Type} {s : Nat} {r : Res α} (f : α → β) (h : r.Clean s) : (r.map f).Clean s := by
  rcases h with ⟨a, rfl⟩ | rfl
  · exact .inl ⟨f a, rfl⟩
  · exact .inr rfl

theorem clean_bind {α β : Type} {s : Nat} {r : Res α} {f : α → Res β} (h : r.Clean s)
    (hf : ∀ a, r = .ok a → (f a).Clean s) : (r.bind f).Clean s := by
  rcases h with ⟨a, rfl⟩ | rfl
  · exact hf a rfl
  · exact .inr rfl

end HT
