import Verif.Core.Utf8

/-!
Model of `src/headers/{header_name,header_value,header_values,headers,values,to_header_values}.rs`.
-/

namespace HT

/-! ### Finite maps (`std::collections::HashMap`) -/

/-- A `HashMap` as its list of entries. The order of the list stands for one visiting order of
the hash map; theorems about iteration quantify over all permutations. -/
abbrev FMap (κ ν : Type) := List (κ × ν)

namespace FMap
variable {κ ν : Type} [DecidableEq κ]

/-- `HashMap::get`. -/
def get (m : FMap κ ν) (k : κ) : Option ν :=
  match m with
  | [] => none
  | (k', v) :: m => if k' = k then some v else get m k

/-- `HashMap::insert` (new map; the returned old value is `get`). -/
def set (m : FMap κ ν) (k : κ) (v : ν) : FMap κ ν :=
  match m with
  | [] => [(k, v)]
  | (k', v') :: m => if k' = k then (k, v) :: m else (k', v') :: set m k v

/-- `HashMap::remove` (new map; the returned old value is `get`). -/
def erase (m : FMap κ ν) (k : κ) : FMap κ ν :=
  match m with
  | [] => []
  | (k', v') :: m => if k' = k then m else (k', v') :: erase m k

/-- `HashMap::keys` in one visiting order. -/
def keys (m : FMap κ ν) : List κ := m.map Prod.fst

/-- `HashMap::values` in one visiting order. -/
def vals (m : FMap κ ν) : List ν := m.map Prod.snd

end FMap

/-! ### Header names (src/headers/header_name.rs) -/

/-- `HeaderName(Cow<'static, str>)`, src/headers/header_name.rs:11. Equality and hash are derived
from the string (line 10). -/
abbrev HeaderName := Str

namespace HeaderName

/-- `u8::to_ascii_lowercase`, used by `make_ascii_lowercase`. -/
def lowerB (b : Byte) : Byte := if 65 ≤ b.val ∧ b.val ≤ 90 then byte (b.val + 32) else b

/-- `HeaderName::from_bytes`, src/headers/header_name.rs:19-26 (`ensure!` gives status 500).
`from_utf8_unchecked` on ASCII bytes reads each byte as one character. -/
def fromBytes (bs : List Byte) : Res HeaderName :=
  if bs.all (fun b => b.val < 128) then
    .ok ((bs.map lowerB).map fun b => Char.ofNat b.val)
  else .err 500

/-- `HeaderName::from_string`, src/headers/header_name.rs:33-35. -/
def fromString (s : Str) : Res HeaderName := fromBytes (utf8Encode s)

/-- `HeaderName::from_str`, src/headers/header_name.rs:81-84. -/
def fromStr (s : Str) : Res HeaderName :=
  if isAscii s then .ok (lower s) else .err 500

/-- `From<&str> for HeaderName`, src/headers/header_name.rs:99-103: `expect` panics on error. -/
def ofStr (s : Str) : Res HeaderName :=
  match fromStr s with
  | .ok n => .ok n
  | _ => .panic

/-- `HeaderName::from_lowercase_str`, src/headers/header_name.rs:58-60: no check, no change. -/
def fromLowercaseStr (s : Str) : HeaderName := s

/-- `HeaderName::as_str` and `Display`, src/headers/header_name.rs:38-40, 69-73. -/
def asStr (n : HeaderName) : Str := n

/-- `PartialEq<str>` (and the `&str`, `String`, `&String` variants),
src/headers/header_name.rs:105-139. -/
def eqStr (n : HeaderName) (other : Str) : Bool :=
  match fromStr other with
  | .ok o => n == o
  | _ => false

end HeaderName

/-! ### Header values (src/headers/header_value.rs) -/

/-- `HeaderValue`, src/headers/header_value.rs:12-15. -/
abbrev HeaderValue := Str

namespace HeaderValue

/-- `HeaderValue::from_bytes`, src/headers/header_value.rs:23-29. -/
def fromBytes (bs : List Byte) : Res HeaderValue :=
  if bs.all (fun b => b.val < 128) then .ok (bs.map fun b => Char.ofNat b.val) else .err 500

/-- `HeaderValue::from_str` and `TryFrom<&str>`, src/headers/header_value.rs:76-96. -/
def fromStr (s : Str) : Res HeaderValue := if isAscii s then .ok s else .err 500

end HeaderValue

/-! ### Lists of header values (src/headers/header_values.rs) -/

/-- `HeaderValues`, src/headers/header_values.rs:12-14. -/
abbrev HeaderValues := List HeaderValue

namespace HeaderValues

/-- `HeaderValues::last`, src/headers/header_values.rs:39-43. -/
def last (vs : HeaderValues) : Res HeaderValue := Res.unwrap vs.getLast?

/-- `AsRef<HeaderValue>`, `Deref`: `inner[0]`, src/headers/header_values.rs:138-162. -/
def first (vs : HeaderValues) : Res HeaderValue := Res.unwrap vs.head?

/-- `From<HeaderValues> for HeaderValue`, src/headers/header_value.rs:134-142: reverse, pop. -/
def intoValue (vs : HeaderValues) : Res HeaderValue := Res.unwrap vs.reverse.getLast?

/-- `HeaderValues::contains`, src/headers/header_values.rs:34-36. -/
def contains (vs : HeaderValues) (v : HeaderValue) : Bool := List.elem v vs

/-- `HeaderValues::get`, src/headers/header_values.rs:23-25. -/
def get (vs : HeaderValues) (i : Nat) : Option HeaderValue := vs[i]?

/-- Indexing `values[i]`, src/headers/header_values.rs:59-66. -/
def index (vs : HeaderValues) (i : Nat) : Res HeaderValue := Res.unwrap vs[i]?

/-- `HeaderValues::append`, src/headers/header_values.rs:18-20: moves all values of `other`,
returns the new pair (`self`, `other`). -/
def append (vs other : HeaderValues) : HeaderValues × HeaderValues := (vs ++ other, [])

/-- `PartialEq<str>` (and `&str`, `String`, `&String`), src/headers/header_values.rs:102-130.
`&&` short-circuits before the index. -/
def eqStr (vs : HeaderValues) (s : Str) : Bool :=
  vs.length == 1 && (match vs with | v :: _ => v == s | [] => false)

/-- `Iterator::eq` of the two iterators, std. -/
def iterEq : HeaderValues → List Str → Bool
  | [], [] => true
  | v :: vs, s :: ss => v == s && iterEq vs ss
  | _, _ => false

/-- `PartialEq<[&str]>`, src/headers/header_values.rs:114-118. -/
def eqSlice (vs : HeaderValues) (ss : List Str) : Bool := iterEq vs ss

end HeaderValues

/-! ### The `Values` iterator (src/headers/values.rs) -/

/-- `Values<'a>`, src/headers/values.rs:8-12. `inner` is what remains of the hash map's own
values iterator. -/
structure Values where
  inner : Option (List HeaderValues)
  slot : Option HeaderValues
  cursor : Nat

namespace Values

/-- `Values::new`, src/headers/values.rs:16-22. -/
def new (vals : List HeaderValues) : Values := ⟨some vals, none, 0⟩

/-- `Values::new_values`, src/headers/values.rs:25-31. -/
def newValues (vs : HeaderValues) : Values := ⟨none, some vs, 0⟩

/-- `Values::next`, src/headers/values.rs:37-62; each recursive call is one turn of the `loop`. -/
def next (it : Values) : Option HeaderValue × Values :=
  match _h1 : it.slot, _h2 : it.inner with
  | none, none => (none, it)
  | none, some [] => (none, it)
  | none, some (vs :: rest) => next ⟨some rest, some vs, 0⟩
  | some vs, inner =>
    match vs[it.cursor]? with
    | some item => (some item, ⟨inner, some vs, it.cursor + 1⟩)
    | none => next ⟨inner, none, it.cursor⟩
termination_by 2 * (it.inner.getD []).length + (if it.slot.isSome then 1 else 0)
decreasing_by all_goals (simp_all; try omega)

/-- `Values::size_hint`, src/headers/values.rs:65-70 (the hash map's iterator is exact). -/
def sizeHint (it : Values) : Nat × Option Nat :=
  match it.inner with
  | some rest => (rest.length, some rest.length)
  | none => (0, none)

/-- Values still to come (ghost, used for termination of `collect`). -/
def remaining (it : Values) : List HeaderValue :=
  (match it.slot with | some vs => vs.drop it.cursor | none => []) ++ (it.inner.getD []).flatten

theorem next_spec (it : Values) :
    match it.next with
    | (some v, it') => it.remaining = v :: it'.remaining
    | (none, it') => it.remaining = [] ∧ it'.remaining = [] := by
  fun_induction next it with
  | case1 it h1 h2 => simp [remaining, h1, h2]
  | case2 it h1 h2 => simp [remaining, h1, h2]
  | case3 it vs rest h1 h2 ih =>
    have : it.remaining = (⟨some rest, some vs, 0⟩ : Values).remaining := by
      simp [remaining, h1, h2]
    rw [this]; exact ih
  | case4 it vs h1 item h2 =>
    simp [remaining, h1]
    rw [← List.cons_append]
    congr 1
    obtain ⟨hlt, he⟩ := List.getElem?_eq_some_iff.mp h2
    rw [← he, ← List.drop_eq_getElem_cons hlt]
  | case5 it vs h1 h2 ih =>
    have : it.remaining = (⟨it.inner, none, it.cursor⟩ : Values).remaining := by
      simp [remaining, h1]
      simpa using h2
    rw [this]; exact ih

/-- Draining the iterator with a `for` loop or `collect`. -/
def collect (it : Values) : List HeaderValue :=
  match _h : it.next with
  | (some v, it') => v :: collect it'
  | (none, _) => []
termination_by it.remaining.length
decreasing_by
  have := next_spec it
  rw [_h] at this
  simp only at this
  rw [this]; simp

end Values

/-! ### Values arguments (src/headers/to_header_values.rs) -/

/-- What may be passed as `impl ToHeaderValues`: a string (checked), a `HeaderValue` (or a typed
header's value), a slice of header values, or another header's `HeaderValues`. -/
inductive HvArg where
  | str (s : Str)
  | value (v : HeaderValue)
  | slice (vs : List HeaderValue)
  | values (vs : HeaderValues)

/-- `ToHeaderValues::to_header_values(..)?.collect()`, src/headers/to_header_values.rs:18-81 and
`FromIterator` src/headers/header_values.rs:68-80. Errors of the string case are re-wrapped by `?`
and get status 500. -/
def HvArg.toValues : HvArg → Res HeaderValues
  | .str s => (HeaderValue.fromStr s).map fun v => [v]
  | .value v => .ok [v]
  | .slice vs => .ok vs
  | .values vs => .ok (Values.newValues vs).collect

/-! ### Headers (src/headers/headers.rs) -/

/-- `Headers`, src/headers/headers.rs:31-33. -/
abbrev Headers := FMap HeaderName HeaderValues

namespace Headers

/-- `Headers::new`, src/headers/headers.rs:37-41. -/
def new : Headers := []

/-- `Headers::insert` once the name is converted, src/headers/headers.rs:48-56. Returns the new
collection and the call's result. -/
def insert (m : Headers) (n : HeaderName) (a : HvArg) : Headers × Res (Option HeaderValues) :=
  match a.toValues with
  | .ok vs => (FMap.set m n vs, .ok (FMap.get m n))
  | .err e => (m, .err e)
  | .panic => (m, .panic)

/-- `Headers::append` once the name is converted, src/headers/headers.rs:62-78. -/
def append (m : Headers) (n : HeaderName) (a : HvArg) : Headers × Res Unit :=
  match FMap.get m n with
  | some hs =>
    match a.toValues with
    | .ok vs => (FMap.set m n (HeaderValues.append hs vs).1, .ok ())
    | .err e => (m, .err e)
    | .panic => (m, .panic)
  | none =>
    let r := insert m n a
    (r.1, r.2.map fun _ => ())

/-- `Headers::get` once the name is converted, src/headers/headers.rs:81-83. -/
def get (m : Headers) (n : HeaderName) : Option HeaderValues := FMap.get m n

/-- `Headers::remove` once the name is converted, src/headers/headers.rs:91-93. -/
def remove (m : Headers) (n : HeaderName) : Headers × Option HeaderValues :=
  (FMap.erase m n, FMap.get m n)

/-- `Headers::get_mut(n)` followed by a change `f` of the list, src/headers/headers.rs:86-88. -/
def modify (m : Headers) (n : HeaderName) (f : HeaderValues → HeaderValues) : Headers :=
  match FMap.get m n with
  | some hs => FMap.set m n (f hs)
  | none => m

/-- `Headers::values`, src/headers/headers.rs:118-120. -/
def values (m : Headers) : Values := Values.new (FMap.vals m)

/-- `Index<HeaderName>`, src/headers/headers.rs:132-134. -/
def index (m : Headers) (n : HeaderName) : Res HeaderValues := Res.unwrap (get m n)

/-- `Index<&str>`, src/headers/headers.rs:146-149. -/
def indexStr (m : Headers) (s : Str) : Res HeaderValues :=
  match HeaderName.fromStr s with
  | .ok n => Res.unwrap (get m n)
  | _ => .panic

/-- `headers.insert(&str, ..)`: `name.into()` (may panic) happens first. -/
def insertStr (m : Headers) (s : Str) (a : HvArg) : Headers × Res (Option HeaderValues) :=
  match HeaderName.ofStr s with
  | .ok n => insert m n a
  | .err e => (m, .err e)
  | .panic => (m, .panic)

/-- `headers.append(&str, ..)`. -/
def appendStr (m : Headers) (s : Str) (a : HvArg) : Headers × Res Unit :=
  match HeaderName.ofStr s with
  | .ok n => append m n a
  | .err e => (m, .err e)
  | .panic => (m, .panic)

/-- `headers.get(&str)`. -/
def getStr (m : Headers) (s : Str) : Res (Option HeaderValues) :=
  (HeaderName.ofStr s).map fun n => get m n

/-- `headers.remove(&str)`. -/
def removeStr (m : Headers) (s : Str) : Headers × Res (Option HeaderValues) :=
  match HeaderName.ofStr s with
  | .ok n => ((remove m n).1, .ok (remove m n).2)
  | .err e => (m, .err e)
  | .panic => (m, .panic)

/-- `headers.get_mut(&str)` followed by a change of the list through the reference. -/
def modifyStr (m : Headers) (s : Str) (f : HeaderValues → HeaderValues) : Headers × Res Unit :=
  match HeaderName.ofStr s with
  | .ok n => (modify m n f, .ok ())
  | .err e => (m, .err e)
  | .panic => (m, .panic)

end Headers

/-! ### Histories of calls -/

/-- One call on a header collection. Names are given as `&str`. -/
inductive HOp where
  | insert (n : Str) (a : HvArg)
  | append (n : Str) (a : HvArg)
  | remove (n : Str)
  /-- `if let Some(v) = headers.get_mut(n) { v.append(&mut vs) }` -/
  | extend (n : Str) (vs : HeaderValues)
  /-- `if let Some(v) = headers.get_mut(n) { if let Some(x) = v.get_mut(i) { *x = v } }`,
  src/headers/header_values.rs:28-30. -/
  | setAt (n : Str) (i : Nat) (v : HeaderValue)
  /-- `if let Some(v) = headers.get_mut(n) { other.append(v) }`: the values move to another list. -/
  | drain (n : Str) (other : HeaderValues)

/-- The collection after a call. A call that fails or panics may be caught by the caller, who can
keep using the collection. -/
def HOp.step (m : Headers) : HOp → Headers
  | .insert n a => (m.insertStr n a).1
  | .append n a => (m.appendStr n a).1
  | .remove n => (m.removeStr n).1
  | .extend n vs => (m.modifyStr n fun hs => (HeaderValues.append hs vs).1).1
  | .setAt n i v => (m.modifyStr n fun hs => hs.set i v).1
  | .drain n other => (m.modifyStr n fun hs => (HeaderValues.append other hs).2).1

/-- The collection after a history, oldest call first. -/
def HOp.run (h : List HOp) : Headers := h.foldl HOp.step Headers.new

end HT
