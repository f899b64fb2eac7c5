import Verif.Spec.Authorization

/-
Specification: where the outputs are sent. RFC 7235 section 2.1 (credentials), RFC 7230 section 3.2
(field values), RFC 3986 section 3.4 (queries).
-/

namespace OAuth.Spec

/-- A text that any HTTP implementation takes as the value of a header field: spaces and visible ASCII
characters, without space at the ends. -/
def IsFieldValue (s : Bytes) : Prop :=
  (∀ b ∈ s, 0x20 ≤ b ∧ b ≤ 0x7E) ∧ s.head? ≠ some 0x20 ∧ s.getLast? ≠ some 0x20

/-- `credentials = auth-scheme 1*SP #auth-param`, with the scheme and the parameters as they stand. -/
def IsCredentials (s scheme : Bytes) (params : List (Bytes × Bytes)) : Prop :=
  ∃ spaces list, s = scheme ++ spaces ++ list ∧ IsToken scheme ∧ spaces ≠ [] ∧
    (∀ b ∈ spaces, b = 0x20) ∧ IsParamList true list params

/-- RFC 3986 appendix A: `unreserved / sub-delims / ":" / "@" / "/" / "?"`. -/
def queryChar (b : UInt8) : Bool :=
  (0x41 ≤ b && b ≤ 0x5A) || (0x61 ≤ b && b ≤ 0x7A) || (0x30 ≤ b && b ≤ 0x39) ||
    b == 0x2D || b == 0x2E || b == 0x5F || b == 0x7E ||
    b == 0x21 || b == 0x24 || b == 0x26 || b == 0x27 || b == 0x28 || b == 0x29 || b == 0x2A ||
    b == 0x2B || b == 0x2C || b == 0x3B || b == 0x3D ||
    b == 0x3A || b == 0x40 || b == 0x2F || b == 0x3F

/-- `HEXDIG` -/
def uriHex (b : UInt8) : Bool :=
  (0x30 ≤ b && b ≤ 0x39) || (0x41 ≤ b && b ≤ 0x46) || (0x61 ≤ b && b ≤ 0x66)

/-- `query = *( pchar / "/" / "?" )`. -/
inductive IsQuery : Bytes → Prop
  | nil : IsQuery []
  | char {b : UInt8} {s : Bytes} : queryChar b = true → IsQuery s → IsQuery (b :: s)
  | escape {h l : UInt8} {s : Bytes} : uriHex h = true → uriHex l = true → IsQuery s →
      IsQuery (0x25 :: h :: l :: s)

end OAuth.Spec
