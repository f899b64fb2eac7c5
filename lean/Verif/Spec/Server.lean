import Verif.Spec.Authorization
import Verif.Spec.Hmac
import Verif.Spec.Rfc5849

/-
Specification: what the example server takes from a request and what it checks.
-/

namespace OAuth.Spec

/-- The first value of a parameter. -/
def first (name : Bytes) (ps : List (Bytes × Bytes)) : Option Bytes :=
  (ps.find? fun p => p.1 == name).map (·.2)

/-- The parameters of the `Authorization` headers of a request: those of the first header with scheme
`OAuth`, with `dec` applied to names and values. -/
inductive HeaderParams (emptyOk : Bool) (dec : Bytes → Bytes) : List Bytes → List (Bytes × Bytes) → Prop
  | none : HeaderParams emptyOk dec [] []
  /-- Another scheme, or no scheme at all. -/
  | skip {h : Bytes} {hs : List Bytes} {ps : List (Bytes × Bytes)} :
      h.takeWhile tchar ≠ b!"OAuth" → HeaderParams emptyOk dec hs ps →
      HeaderParams emptyOk dec (h :: hs) ps
  /-- The scheme alone. -/
  | empty {hs : List Bytes} : HeaderParams emptyOk dec (b!"OAuth" :: hs) []
  | params {text : Bytes} {hs : List Bytes} {items : List (Bytes × Bytes)} :
      IsParamList emptyOk text items →
      HeaderParams emptyOk dec ((b!"OAuth " ++ text) :: hs) (items.map fun p => (dec p.1, dec p.2))

/-- The text RFC 5849 section 3.4.1 asks to sign, except that parameters are sorted before they are
encoded. -/
def rawOrderBase (method uri : Bytes) (ps : List (Bytes × Bytes)) : Bytes :=
  encode (upper method) ++ b!"&" ++ encode uri ++ b!"&" ++
    encode (join b!"&" ((sortPairs ps).map fun p => encode p.1 ++ b!"=" ++ encode p.2))

/-- Without the signature. -/
def unsigned (ps : List (Bytes × Bytes)) : List (Bytes × Bytes) :=
  ps.filter fun p => p.1 != b!"oauth_signature"

end OAuth.Spec
