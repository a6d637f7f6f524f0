import Verif.Model.Lists
import Verif.Spec.Num
import Verif.Spec.Headers

/-! Specification of comma-separated list headers, entity tags and cache directives. -/

namespace HT.Spec

/-- The members of a list header: the pieces between commas of every value in order, each without
surrounding whitespace. -/
def listItems (vs : List Str) : List Str := vs.flatMap fun v => (split ',' v).map trim

/-- The opaque content of an entity tag. -/
def etagBody : ETag → Str
  | .strong s => s
  | .weak s => s

/-- How an entity tag is spelled. -/
def etagText : ETag → Str
  | .strong s => '"' :: (s ++ ['"'])
  | .weak s => 'W' :: '/' :: '"' :: (s ++ ['"'])

/-- RFC 7232: no quote, no control character or space, no DEL. -/
def EtagLegal (e : ETag) : Prop := ∀ c ∈ etagBody e, ' ' < c ∧ c ≠ '"' ∧ c.toNat ≠ 127

/-- Directives that are one word. -/
def cacheFlags : List (Str × CacheDirective) := [
  (s!!"immutable", .immutable), (s!!"must-revalidate", .mustRevalidate), (s!!"no-cache", .noCache),
  (s!!"no-store", .noStore), (s!!"no-transform", .noTransform), (s!!"only-if-cached", .onlyIfCached),
  (s!!"private", .priv), (s!!"proxy-revalidate", .proxyRevalidate), (s!!"public", .publ)]

/-- Directives with a number of seconds. -/
def cacheTimed : List (Str × (Duration → CacheDirective)) := [
  (s!!"max-age", .maxAge), (s!!"max-stale", fun d => .maxStale (some d)), (s!!"min-fresh", .minFresh),
  (s!!"s-maxage", .sMaxAge), (s!!"stale-if-error", .staleIfError),
  (s!!"stale-while-revalidate", .staleWhileRevalidate)]

/-- What one member of a Cache-Control list denotes; `none` for a member to be skipped. Names are matched
up to case; a word directive may carry an ignored argument. -/
inductive CachePart : Str → Option CacheDirective → Prop where
  | flag {n d a rest} : (n, d) ∈ cacheFlags → sameName a n = true → (rest = [] ∨ ∃ r, rest = '=' :: r) →
      CachePart (a ++ rest) (some d)
  | bareStale {a} : sameName a s!!"max-stale" = true → CachePart a (some (.maxStale none))
  | timed {n f a v rest k} : (n, f) ∈ cacheTimed → sameName a n = true → Numeral v k → k < 2 ^ 64 →
      (rest = [] ∨ ∃ r, rest = '=' :: r) → CachePart (a ++ '=' :: (v ++ rest)) (some (f ⟨k, 0⟩))
  | unknown {a rest} : '=' ∉ a → (∀ e ∈ cacheFlags, sameName a e.1 = false) →
      (∀ e ∈ cacheTimed, sameName a e.1 = false) → (rest = [] ∨ ∃ r, rest = '=' :: r) →
      CachePart (a ++ rest) none

/-- A directive with its durations cut to whole seconds. -/
def wholeSeconds : CacheDirective → CacheDirective
  | .maxAge d => .maxAge ⟨d.secs, 0⟩
  | .maxStale (some d) => .maxStale (some ⟨d.secs, 0⟩)
  | .minFresh d => .minFresh ⟨d.secs, 0⟩
  | .sMaxAge d => .sMaxAge ⟨d.secs, 0⟩
  | .staleIfError d => .staleIfError ⟨d.secs, 0⟩
  | .staleWhileRevalidate d => .staleWhileRevalidate ⟨d.secs, 0⟩
  | d => d

/-- The seconds of every duration fit a 64-bit number (true of every Rust value). -/
def SecsFit : CacheDirective → Prop
  | .maxAge d | .maxStale (some d) | .minFresh d | .sMaxAge d | .staleIfError d
  | .staleWhileRevalidate d => d.secs < 2 ^ 64
  | _ => True

end HT.Spec
