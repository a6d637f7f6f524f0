import Verif.Model.Auth
import Verif.Model.Content
import Verif.Model.Forwarded
import Verif.Model.Lists
import Verif.Model.ServerTiming

/-! How much a message can make its reader hold: numbers of items and of characters read against what was sent. -/

namespace HT.Spec

/-- The lines of a header in a message. -/
def linesOf (h : Headers) (name : HeaderName) : List Str := (h.get name).getD []

/-- How often a character is in some lines. -/
def occurrences (c : Char) (lines : List Str) : Nat := (lines.map (·.count c)).sum

/-- The number of characters of some lines. -/
def chars (lines : List Str) : Nat := (lines.map List.length).sum

/-- Items of the given sizes are no more than was sent: one item per line and one more per comma at most, and at most `k`
characters held per character sent, commas not counted. -/
structure NoMore (k : Nat) (lines : List Str) (sizes : List Nat) : Prop where
  items : sizes.length ≤ lines.length + occurrences ',' lines
  text : sizes.sum + k * occurrences ',' lines ≤ k * chars lines

/-- The sizes of the members of a list and of its wildcard, if it is there. -/
def starSizes {α : Type} (size : α → Nat) (star : Nat) (l : StarList α) : List Nat :=
  l.entries.map size ++ if l.wildcard then [star] else []

/-- The same for a list of proposals. -/
def proposalSizes {α : Type} (size : α → Nat) (a : AcceptList α) : List Nat :=
  a.entries.map (fun p => size p.item) ++ if a.wildcard then [1] else []

/-- The size of a metric: its name and its description. -/
def metricSize (m : Metric) : Nat := m.name.length + (m.desc.getD []).length

/-- The size of a parameter with its semicolon and equals sign. -/
def paramSize (p : Str × Str) : Nat := p.1.length + p.2.length + 2

/-- The size of a media type: type, slash and subtype, and the parameters. -/
def mimeSize (m : Mime) : Nat :=
  m.basetype.length + 1 + m.subtype.length + (m.params.map paramSize).sum +
    if m.isUtf8 then paramSize (s!!"charset", s!!"utf-8") else 0

/-- The size of forwarding information, with the names it is sent under. -/
def forwardedSize (f : Forwarded) : Nat :=
  (f.forwardedFor.map fun v => v.length + 4).sum + ((f.by'.map fun v => v.length + 3).getD 0) +
    ((f.host.map fun v => v.length + 5).getD 0) + ((f.proto.map fun v => v.length + 6).getD 0)

end HT.Spec
