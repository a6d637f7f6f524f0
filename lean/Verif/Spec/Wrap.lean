import Verif.Model.Wrap
import Verif.Spec.Body
import Verif.Spec.Headers

/-!
Specification vocabulary for C91.
-/

namespace HT.Spec

variable {σ : Type}

/-- Calls on a connection. -/
inductive DOp where
  | read (n : Nat)
  | write (bs : List Byte)
  | flush
  | close

/-- What a call on a connection answers. -/
inductive DAns where
  | read (p : IoPoll)
  | write (p : Option (Except Unit Nat))
  | done (p : Option (Except Unit Unit))

/-- A sequence of calls: the answers and the state afterwards. -/
def talk (D : DuplexI σ) (s : σ) : List DOp → List DAns × σ
  | [] => ([], s)
  | .read n :: os => let r := D.pollRead s n; let rs := talk D r.2 os; (.read r.1 :: rs.1, rs.2)
  | .write bs :: os => let r := D.pollWrite s bs; let rs := talk D r.2 os; (.write r.1 :: rs.1, rs.2)
  | .flush :: os => let r := D.pollFlush s; let rs := talk D r.2 os; (.done r.1 :: rs.1, rs.2)
  | .close :: os => let r := D.pollClose s; let rs := talk D r.2 os; (.done r.1 :: rs.1, rs.2)

/-- The bytes a transport accepted in a sequence of calls, in order. -/
def accepted : List DOp → List DAns → List Byte
  | .write bs :: os, .write (some (.ok n)) :: as => bs.take n ++ accepted os as
  | _ :: os, _ :: as => accepted os as
  | _, _ => []

/-- Everything that can be seen of the headers of `x` is what the history `h` left: by name, by index, by the iterators
(each present header once, all values in order), and a change of all values in place changes exactly them. -/
structure ShowsHistory {μ : Type} (V : HeaderViews μ) (x : μ) (h : List HOp) : Prop where
  get : ∀ n, V.get x n = if Ascii n then .ok (lookup h.reverse n) else .panic
  index : ∀ n vs, V.index x n = .ok vs ↔ Ascii n ∧ lookup h.reverse n = some vs
  index_panics : ∀ n, (∀ vs, V.index x n ≠ .ok vs) → V.index x n = .panic
  iter : ∀ k, (V.iter x).sizeHint.1 ≤ k → ∀ n vs,
    (n, vs) ∈ ((V.iter x).take k).1 ↔ Ascii n ∧ NoUpper n ∧ lookup h.reverse n = some vs
  once : ∀ k, (((V.iter x).take k).1.map Prod.fst).Nodup
  names : ∀ k, ((V.names x).take k).1 = ((V.iter x).take k).1.map Prod.fst
  values : (V.values x).collect = (((V.iter x).take (V.iter x).sizeHint.1).1.map Prod.snd).flatten
  iterMut : ∀ f n, Ascii n → NoUpper n → V.get (V.iterMut x f) n = .ok ((lookup h.reverse n).map (f n))

end HT.Spec
