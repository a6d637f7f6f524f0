import Verif.Spec.Mime

/-!
The WHATWG MIME Sniffing standard: "parse a MIME type" (4.4) and "serialize a MIME type" (4.5), with "collect a sequence of
code points" of Infra and "collect an HTTP quoted string" of Fetch. The input is read at a position, as in the text of the
standard; step numbers are those of the standard.
-/

namespace HT.Spec.Whatwg

/-- HTTP token code point. -/
instance (c : Char) : Decidable (TChar c) := by unfold TChar; infer_instance
/-- HTTP quoted-string token code point. -/
instance (c : Char) : Decidable (QuotedChar c) := by unfold QuotedChar; infer_instance

/-- HTTP whitespace: line feed, carriage return, tab, space. -/
def isWs (c : Char) : Bool := c ∈ ['\n', '\r', '\t', ' ']

/-- Remove trailing HTTP whitespace. -/
def stripEnd (s : Str) : Str := (s.reverse.dropWhile isWs).reverse

/-- Collect a sequence of code points meeting a condition: the code points and the new position. -/
def collect (cond : Char → Bool) (s : Str) (pos : Nat) : Str × Nat :=
  let run := (s.drop pos).takeWhile cond
  (run, pos + run.length)

theorem collect_pos (cond : Char → Bool) (s : Str) (pos : Nat) : pos ≤ (collect cond s pos).2 := Nat.le_add_right _ _

/-- Collect an HTTP quoted string with the extract-value flag, from the position after the opening quote on; `value` is what
was collected so far. -/
def quoted (s : Str) (pos : Nat) (value : Str) : Str × Nat :=
  let run := collect (fun c => c ≠ '"' ∧ c ≠ '\\') s pos
  match h : s[run.2]? with
  | none => (value ++ run.1, run.2)
  | some c =>
    if c = '\\' then
      match s[run.2 + 1]? with
      | none => (value ++ run.1 ++ ['\\'], run.2 + 1)
      | some d =>
        have : run.2 < s.length := (List.getElem?_eq_some_iff.mp h).1
        have : pos ≤ run.2 := collect_pos _ _ _
        quoted s (run.2 + 2) (value ++ run.1 ++ [d])
    else (value ++ run.1, run.2 + 1)
termination_by s.length - pos
decreasing_by all_goals (dsimp +zetaDelta only at *; omega)

theorem quoted_pos (s : Str) (pos : Nat) (value : Str) : pos ≤ (quoted s pos value).2 := by
  induction hn : s.length - pos using Nat.strongRecOn generalizing pos value with
  | ind n ih =>
    have hc := collect_pos (fun c => decide (c ≠ '"' ∧ c ≠ '\\')) s pos
    rw [quoted]
    simp only
    split
    · exact hc
    · rename_i c h
      have hl := (List.getElem?_eq_some_iff.mp h).1
      split
      · split
        · exact Nat.le_succ_of_le hc
        · rename_i d _
          have := ih _ (by omega) ((collect (fun c => decide (c ≠ '"' ∧ c ≠ '\\')) s pos).2 + 2)
            (value ++ (collect (fun c => decide (c ≠ '"' ∧ c ≠ '\\')) s pos).1 ++ [d]) rfl
          omega
      · exact Nat.le_succ_of_le hc

/-- Step 11 without its last part: the names and values met from a position on, in order. -/
def parameters (s : Str) (pos : Nat) : List (Str × Str) :=
  if _hp : pos < s.length then
    -- 11.1, 11.2
    let p := (collect isWs s (pos + 1)).2
    have _h1 : pos + 1 ≤ p := collect_pos _ _ _
    -- 11.3, 11.4
    let name := collect (fun c => c ≠ ';' ∧ c ≠ '=') s p
    have _h2 : p ≤ name.2 := collect_pos _ _ _
    -- 11.5, 11.6
    match s[name.2]? with
    | none => []
    | some c =>
      if c = ';' then parameters s name.2
      else
        match s[name.2 + 1]? with
        | none => []
        | some d =>
          if d = '"' then
            -- 11.8
            let q := quoted s (name.2 + 2) []
            have _h3 : name.2 + 2 ≤ q.2 := quoted_pos _ _ _
            let rest := collect (fun c => c ≠ ';') s q.2
            have _h4 : q.2 ≤ rest.2 := collect_pos _ _ _
            (lower name.1, q.1) :: parameters s rest.2
          else
            -- 11.9
            let v := collect (fun c => c ≠ ';') s (name.2 + 1)
            have _h3 : name.2 + 1 ≤ v.2 := collect_pos _ _ _
            if stripEnd v.1 = [] then parameters s v.2
            else (lower name.1, stripEnd v.1) :: parameters s v.2
  else []
termination_by s.length - pos
decreasing_by all_goals (dsimp +zetaDelta only at *; omega)

/-! ### Quoted values that are not closed -/

/-- Of a quoted string that is not closed, from the position after the opening quote on: where its last run begins, that is
after the last backslash and the character after it, or after the opening quote. -/
def lastRun (s : Str) (pos : Nat) : Option Nat :=
  let run := collect (fun c => c ≠ '"' ∧ c ≠ '\\') s pos
  match h : s[run.2]? with
  | none => some pos
  | some c =>
    if c = '\\' then
      match s[run.2 + 1]? with
      | none => none
      | some _ =>
        have : run.2 < s.length := (List.getElem?_eq_some_iff.mp h).1
        have : pos ≤ run.2 := collect_pos _ _ _
        lastRun s (run.2 + 2)
    else none
termination_by s.length - pos
decreasing_by all_goals (dsimp +zetaDelta only at *; omega)

/-- `lastRun` of the quoted value that is not closed, if there is one in the parameters from a position on; the positions are
those of `parameters`. -/
def dangling (s : Str) (pos : Nat) : Option Nat :=
  if _hp : pos < s.length then
    let p := (collect isWs s (pos + 1)).2
    have _h1 : pos + 1 ≤ p := collect_pos _ _ _
    let name := collect (fun c => c ≠ ';' ∧ c ≠ '=') s p
    have _h2 : p ≤ name.2 := collect_pos _ _ _
    match s[name.2]? with
    | none => none
    | some c =>
      if c = ';' then dangling s name.2
      else
        match s[name.2 + 1]? with
        | none => none
        | some d =>
          if d = '"' then
            match lastRun s (name.2 + 2) with
            | some q => some q
            | none =>
              let q := quoted s (name.2 + 2) []
              have _h3 : name.2 + 2 ≤ q.2 := quoted_pos _ _ _
              let rest := collect (fun c => c ≠ ';') s q.2
              have _h4 : q.2 ≤ rest.2 := collect_pos _ _ _
              dangling s rest.2
          else
            let v := collect (fun c => c ≠ ';') s (name.2 + 1)
            have _h3 : name.2 + 1 ≤ v.2 := collect_pos _ _ _
            dangling s v.2
  else none
termination_by s.length - pos
decreasing_by all_goals (dsimp +zetaDelta only at *; omega)

/-- The parameters that are met once more if reading goes on at the first semicolon of the last run of a value that is not
closed, as though that run had not been read. -/
def rereadFrom (s : Str) (pos : Nat) : List (Str × Str) :=
  match dangling s pos with
  | none => []
  | some q => parameters s (collect (fun c => c ≠ ';') s q).2

/-- Step 11.10: set a parameter unless it is not valid or already there. -/
def addParameter (ps : List (Str × Str)) (p : Str × Str) : List (Str × Str) :=
  if p.1 ≠ [] ∧ (∀ c ∈ p.1, TChar c) ∧ (∀ c ∈ p.2, QuotedChar c) ∧ p.1 ∉ ps.map (·.1) then ps ++ [p] else ps

/-- Steps 1 to 10: type, subtype, and the parameters met; `none` is failure. -/
def parts (input : Str) : Option (Str × Str × List (Str × Str)) :=
  -- 1
  let s := stripEnd (input.dropWhile isWs)
  -- 3, 4
  let type := collect (fun c => c ≠ '/') s 0
  if type.1 = [] ∨ ¬ ∀ c ∈ type.1, TChar c then none
  -- 5
  else if s.length ≤ type.2 then none
  else
    -- 6, 7, 8, 9
    let sub := collect (fun c => c ≠ ';') s (type.2 + 1)
    let subtype := stripEnd sub.1
    if subtype = [] ∨ ¬ ∀ c ∈ subtype, TChar c then none
    else some (lower type.1, lower subtype, parameters s sub.2)

/-- `rereadFrom` for a whole text: the parameters begin after the subtype. -/
def reread (input : Str) : List (Str × Str) :=
  let s := stripEnd (input.dropWhile isWs)
  let type := collect (fun c => c ≠ '/') s 0
  rereadFrom s (collect (fun c => c ≠ ';') s (type.2 + 1)).2

/-- Parse a MIME type: type, subtype and parameters in order. -/
def parse (input : Str) : Option (Str × Str × List (Str × Str)) :=
  (parts input).map fun r => (r.1, r.2.1, r.2.2.foldl addParameter [])

/-- Serialize a MIME type. -/
def serialize (type subtype : Str) (ps : List (Str × Str)) : Str :=
  ps.foldl (fun out p =>
    let value := if p.2 = [] ∨ ¬ ∀ c ∈ p.2, TChar c then
        ['"'] ++ (p.2.map fun c => if c = '"' ∨ c = '\\' then ['\\', c] else [c]).flatten ++ ['"']
      else p.2
    out ++ s!!";" ++ p.1 ++ s!!"=" ++ value) (type ++ s!!"/" ++ subtype)

/-- The value of a parameter. -/
def lookup (ps : List (Str × Str)) (n : Str) : Option Str := (ps.find? fun e => e.1 = n).map (·.2)

end HT.Spec.Whatwg
