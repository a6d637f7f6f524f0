import Verif.Model.Simple

/-!
Iterators over header collections and pairs of strings as headers: `src/headers/{iter,iter_mut,names,into_iter}.rs`,
`src/headers/headers.rs`, `src/headers/header.rs`. The hash map's own iterators hand out what is left of a list of
entries, one at a time, and know how many are left.
-/

namespace HT

/-- What is left of an iterator of the hash map. -/
structure MapIter (α : Type) where
  left : List α

namespace MapIter
variable {α : Type}

/-- `next` of `Iter`, `IterMut`, `Names` and `IntoIter`, src/headers/iter.rs:15-17, iter_mut.rs:15-17, names.rs:15-17,
into_iter.rs:15-17. -/
def next (it : MapIter α) : Option α × MapIter α :=
  match it.left with
  | [] => (none, it)
  | a :: rest => (some a, ⟨rest⟩)

/-- `size_hint` of `Iter`, `IterMut` and `IntoIter`, src/headers/iter.rs:20-22, iter_mut.rs:20-22, into_iter.rs:20-22. -/
def sizeHint (it : MapIter α) : Nat × Option Nat := (it.left.length, some it.left.length)

/-- `size_hint` of `Names`: the default, as src/headers/names.rs:12-18 has none. -/
def sizeHintNames (_it : MapIter α) : Nat × Option Nat := (0, none)

/-- The next `n` items, or fewer at the end, with the iterator afterwards. -/
def take : Nat → MapIter α → List α × MapIter α
  | 0, it => ([], it)
  | n + 1, it =>
    match it.next with
    | (none, it') => ([], it')
    | (some a, it') => let r := take n it'; (a :: r.1, r.2)

end MapIter

namespace Headers

/-- `Headers::iter` and `IntoIterator for &Headers`, src/headers/headers.rs:96-100, 171-179. Also `IntoIterator for
Headers`, 157-169, which hands out the entries themselves. -/
def iter (m : Headers) : MapIter (HeaderName × HeaderValues) := ⟨m⟩

/-- `Headers::names`, src/headers/headers.rs:111-115. -/
def names (m : Headers) : MapIter HeaderName := ⟨FMap.keys m⟩

/-- `for (name, values) in headers.iter_mut() { f }`, src/headers/headers.rs:104-108, 181-189: the collection
afterwards. -/
def iterMut (m : Headers) (f : HeaderName → HeaderValues → HeaderValues) : Headers := m.map fun e => (e.1, f e.1 e.2)

end Headers

/-- `Header for (&str, &str)`, src/headers/header.rs:25-34. -/
def pairName (p : Str × Str) : Res HeaderName := HeaderName.ofStr p.1

/-- `header_value` of a pair, src/headers/header.rs:30-33. -/
def pairValue (p : Str × Str) : Res HeaderValue :=
  match HeaderValue.fromBytes (utf8Encode p.2) with
  | .ok v => .ok v
  | _ => .panic

/-- `apply_header` of a pair: the name is computed first. -/
def applyPair (h : Headers) (p : Str × Str) : Res Headers :=
  (pairName p).bind fun n => applyHeader h n (pairValue p)

end HT
