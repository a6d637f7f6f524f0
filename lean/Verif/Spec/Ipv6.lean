import Verif.Spec.Forwarded
import Verif.Spec.Num

/-! IPv6 addresses as text (RFC 4291, 2.2) and their canonical text (RFC 5952). An address is its eight groups. -/

namespace HT.Spec

/-- Eight groups of 16 bits. -/
def IsV6 (a : List Nat) : Prop := a.length = 8 ∧ ∀ x ∈ a, x < 65536

/-- The digit has this value. -/
def HexDigitIs (c : Char) (d : Nat) : Prop :=
  ('0' ≤ c ∧ c ≤ '9' ∧ d = c.toNat - 48) ∨ ('a' ≤ c ∧ c ≤ 'f' ∧ d = c.toNat - 87) ∨ ('A' ≤ c ∧ c ≤ 'F' ∧ d = c.toNat - 55)

/-- One to four hexadecimal digits of this value. -/
def HexGroup (w : Str) (n : Nat) : Prop :=
  w ≠ [] ∧ w.length ≤ 4 ∧ ∃ ds, List.Forall₂ HexDigitIs w ds ∧ n = ds.foldl (fun a d => a * 16 + d) 0

/-- A decimal number up to 255, of at most three digits, without needless zeros. -/
def Octet (w : Str) (n : Nat) : Prop :=
  w ≠ [] ∧ w.length ≤ 3 ∧ (∀ c ∈ w, '0' ≤ c ∧ c ≤ '9') ∧ (w = ['0'] ∨ w.head? ≠ some '0') ∧ n = decValue w ∧ n < 256

/-- Four such numbers, as two groups. -/
def Dotted (w : Str) (x y : Nat) : Prop :=
  ∃ a b c d p q r s, Octet a p ∧ Octet b q ∧ Octet c r ∧ Octet d s ∧ w = a ++ '.' :: (b ++ '.' :: (c ++ '.' :: d)) ∧
    x = p * 256 + q ∧ y = r * 256 + s

/-- What stands between colons, and the groups it means: the last one may be dotted. -/
def Groups (ws : List Str) (ns : List Nat) : Prop :=
  List.Forall₂ HexGroup ws ns ∨
  ∃ ws' ns' w x y, ws = ws' ++ [w] ∧ ns = ns' ++ [x, y] ∧ List.Forall₂ HexGroup ws' ns' ∧ Dotted w x y

/-- The text means the address: all groups, or some at the beginning and some at the end with `::` for one or more
groups of zeros. -/
def V6Text (s : Str) (a : List Nat) : Prop :=
  a.length = 8 ∧
  ((∃ ws, s = join s!!":" ws ∧ Groups ws a) ∨
   ∃ ws ns vs ms k, s = join s!!":" ws ++ s!!"::" ++ join s!!":" vs ∧ List.Forall₂ HexGroup ws ns ∧ Groups vs ms ∧
     1 ≤ k ∧ a = ns ++ List.replicate k 0 ++ ms)

/-- A group with as few digits as possible, in small letters. -/
def ShortGroup (w : Str) (n : Nat) : Prop :=
  HexGroup w n ∧ (w = ['0'] ∨ w.head? ≠ some '0') ∧ ∀ c ∈ w, ¬ ('A' ≤ c ∧ c ≤ 'F')

/-- There are zeros from `i` on, `k` of them. -/
def ZeroRun (a : List Nat) (i k : Nat) : Prop := i + k ≤ a.length ∧ ∀ t, i ≤ t → t < i + k → a[t]? = some 0

/-- The canonical text: short groups, `::` for the first of the longest runs of zeros if it has more than one, and dotted
exactly for addresses that stand for IPv4 ones. -/
def CanonicalV6 (s : Str) (a : List Nat) : Prop :=
  (∃ x y w, a = [0, 0, 0, 0, 0, 65535, x, y] ∧ s = s!!"::ffff:" ++ w ∧ Dotted w x y) ∨
  ((∀ x y, a ≠ [0, 0, 0, 0, 0, 65535, x, y]) ∧
    (((∀ i k, ZeroRun a i k → k ≤ 1) ∧ ∃ ws, s = join s!!":" ws ∧ List.Forall₂ ShortGroup ws a) ∨
     ∃ ws ns vs ms k, s = join s!!":" ws ++ s!!"::" ++ join s!!":" vs ∧ List.Forall₂ ShortGroup ws ns ∧
       List.Forall₂ ShortGroup vs ms ∧ a = ns ++ List.replicate k 0 ++ ms ∧ 1 < k ∧
       ∀ i j, ZeroRun a i j → j ≤ k ∧ (j = k → ns.length ≤ i)))

/-- How an entry of `X-Forwarded-For` is kept: addresses of IPv6 in brackets and in canonical form, anything else as it is,
without the blanks around it. -/
def KeptAs (entry kept : Str) : Prop :=
  (∃ a s, V6Text (trim entry) a ∧ CanonicalV6 s a ∧ kept = s!!"[" ++ s ++ s!!"]") ∨
  ((∀ a, ¬ V6Text (trim entry) a) ∧ kept = trim entry)

end HT.Spec
