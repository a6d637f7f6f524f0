import Verif.Model.Lists

/-! Making entity tags (src/conditional/etag.rs). -/

namespace HT.ETag

/-- `ETag::new`, src/conditional/etag.rs:43-46. `debug` says whether debug assertions are compiled in. -/
def new (debug : Bool) (s : Str) : Res ETag :=
  if debug && s.contains '\\' then .panic else .ok (.strong s)

/-- `ETag::new_weak`, src/conditional/etag.rs:49-52. -/
def newWeak (debug : Bool) (s : Str) : Res ETag :=
  if debug && s.contains '\\' then .panic else .ok (.weak s)

/-- `ETag::is_strong`, src/conditional/etag.rs:70-72. -/
def isStrong : ETag → Bool
  | strong _ => true
  | weak _ => false

/-- `ETag::is_weak`, src/conditional/etag.rs:75-77. -/
def isWeak : ETag → Bool
  | strong _ => false
  | weak _ => true

end HT.ETag
