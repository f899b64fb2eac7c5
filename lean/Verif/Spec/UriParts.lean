import Verif.Spec.PercentEncoding

/-
RFC 3986 section 3: where the query and the fragment of a URI are.
-/

namespace OAuth.Spec

/-- RFC 3986 sections 3.4 and 3.5 (and appendix B): the query is between the first `?` and the first `#`
after it (or the end), the fragment is after the first `#`; `base` is the rest. -/
structure UriParts (uri base : Bytes) (query fragment : Option Bytes) : Prop where
  text : uri = base ++ ((query.map (b!"?" ++ ·)).getD [] ++ (fragment.map (b!"#" ++ ·)).getD [])
  base : ∀ b ∈ base, b ≠ 0x3F ∧ b ≠ 0x23
  query : ∀ q, query = some q → ∀ b ∈ q, b ≠ 0x23

/-- The query of a URI after `?` and `form` were put behind it: the form, if the URI had neither query nor
fragment; the old query, `?` and the form, if it had only a query; and as before if it had a fragment. -/
def queryAfter (query fragment : Option Bytes) (form : Bytes) : Option Bytes :=
  match query, fragment with
  | none, none => some form
  | some q, none => some (q ++ b!"?" ++ form)
  | q, some _ => q

end OAuth.Spec
