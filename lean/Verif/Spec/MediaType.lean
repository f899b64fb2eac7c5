import Verif.Spec.Authorization
import Verif.Spec.Uri

/-
Specification: media types (RFC 7231, section 3.1.1.1), as far as needed to recognize forms.
-/

namespace OAuth.Spec

/-- `*( OWS ";" OWS parameter )` with `parameter = token "=" ( token / quoted-string )`. -/
inductive MediaParams : Bytes → Prop
  | nil : MediaParams []
  | cons {w w' name value v rest : Bytes} : IsBlank w → IsBlank w' → IsToken name →
      IsParamValue true value v → MediaParams rest →
      MediaParams (w ++ (0x3B :: (w' ++ (name ++ (0x3D :: (value ++ rest))))))

/-- The content type of a form: "The type, subtype, and parameter name tokens are case-insensitive." -/
def IsFormType (v : Bytes) : Prop :=
  ∃ t params, v = t ++ params ∧ lower t = b!"application/x-www-form-urlencoded" ∧ MediaParams params

end OAuth.Spec
