import Verif.Model.Lists
import Verif.Model.Simple

/-! A client that looks for a method a resource takes. -/

namespace HT.Spec

/-- The answer 405 to a method the resource does not take: it tells with `Allow` which ones it takes. -/
def refusal (takes : List Method) (h : Headers) : Res Headers := applyHeader h s!!"allow" (Allow.value takes)

/-- The client asks with one method after another, from `t` on, and leaves out those that a refusal did not name. What the
resource takes may change from one request to the next; `base` are the other headers of its answers. The result is the
method that was taken and how many requests there were before it. -/
def discover (takes : Nat → List Method) (base : Nat → Headers) (t : Nat) (known : Method → Bool) :
    List Method → Res (Option (Nat × Method))
  | [] => .ok none
  | m :: ms =>
    if known m = false then discover takes base t known ms
    else if m ∈ takes t then .ok (some (t, m))
    else (refusal (takes t) (base t)).bind fun h => (Allow.fromHeaders h).bind fun o =>
      discover takes base (t + 1) (fun x => known x && (o.map (decide <| x ∈ ·)).getD true) ms

end HT.Spec
