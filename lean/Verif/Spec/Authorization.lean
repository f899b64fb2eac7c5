import Verif.Model.Basic

/-
Specification: the grammar of `Authorization` headers (RFC 7235 section 2.1 and appendix C, RFC 7230
section 3.2.6), as relations between texts and what they mean.
-/

namespace OAuth.Spec

/-- RFC 7230 section 3.2.6: `tchar`. -/
def tchar (b : UInt8) : Bool :=
  (0x41 ≤ b && b ≤ 0x5A) || (0x61 ≤ b && b ≤ 0x7A) || (0x30 ≤ b && b ≤ 0x39) ||
    b == 0x21 || b == 0x23 || b == 0x24 || b == 0x25 || b == 0x26 || b == 0x27 || b == 0x2A ||
    b == 0x2B || b == 0x2D || b == 0x2E || b == 0x5E || b == 0x5F || b == 0x60 || b == 0x7C || b == 0x7E

/-- `token = 1*tchar`. -/
def IsToken (s : Bytes) : Prop := s ≠ [] ∧ ∀ b ∈ s, tchar b = true

/-- `OWS = *( SP / HTAB )`. -/
def IsBlank (s : Bytes) : Prop := ∀ b ∈ s, b = 0x20 ∨ b = 0x09

/-- `qdtext = HTAB / SP / %x21 / %x23-5B / %x5D-7E / obs-text`. -/
def qdtext (b : UInt8) : Bool :=
  b == 0x09 || b == 0x20 || b == 0x21 || (0x23 ≤ b && b ≤ 0x5B) || (0x5D ≤ b && b ≤ 0x7E) || 0x80 ≤ b

/-- What may follow a backslash: `HTAB / SP / VCHAR / obs-text`. -/
def quotable (b : UInt8) : Bool := b == 0x09 || (0x20 ≤ b && b ≤ 0x7E) || 0x80 ≤ b

/-- `*( qdtext / quoted-pair )` and the text it stands for. -/
inductive QuotedText : Bytes → Bytes → Prop
  | nil : QuotedText [] []
  | text {b : UInt8} {q v : Bytes} : qdtext b = true → QuotedText q v → QuotedText (b :: q) (b :: v)
  | pair {b : UInt8} {q v : Bytes} : quotable b = true → QuotedText q v →
      QuotedText (0x5C :: b :: q) (b :: v)

/-- `token / quoted-string`. `emptyOk` says whether `""` is taken. -/
def IsParamValue (emptyOk : Bool) (text value : Bytes) : Prop :=
  (IsToken text ∧ value = text) ∨
    ∃ q, text = 0x22 :: (q ++ [0x22]) ∧ QuotedText q value ∧ (q = [] → emptyOk = true)

/-- `auth-param = token BWS "=" BWS ( token / quoted-string )`. -/
def IsAuthParam (emptyOk : Bool) (text key value : Bytes) : Prop :=
  ∃ w w' v, text = key ++ (w ++ (0x3D :: (w' ++ v))) ∧ IsToken key ∧ IsBlank w ∧ IsBlank w' ∧
    IsParamValue emptyOk v value

/-- `*( OWS "," OWS auth-param )`. -/
inductive IsParamTail (emptyOk : Bool) : Bytes → List (Bytes × Bytes) → Prop
  | nil : IsParamTail emptyOk [] []
  | cons {w w' text key value rest : Bytes} {items : List (Bytes × Bytes)} :
      IsBlank w → IsBlank w' → IsAuthParam emptyOk text key value →
      IsParamTail emptyOk rest items →
      IsParamTail emptyOk (w ++ (0x2C :: (w' ++ (text ++ rest)))) ((key, value) :: items)

/-- `#auth-param = [ auth-param *( OWS "," OWS auth-param ) ]`. -/
inductive IsParamList (emptyOk : Bool) : Bytes → List (Bytes × Bytes) → Prop
  | nil : IsParamList emptyOk [] []
  | cons {text key value rest : Bytes} {items : List (Bytes × Bytes)} :
      IsAuthParam emptyOk text key value → IsParamTail emptyOk rest items →
      IsParamList emptyOk (text ++ rest) ((key, value) :: items)

/-- The text of the list could go on: after `items`, `rest` begins with another item. -/
def Continues (emptyOk : Bool) (items : List (Bytes × Bytes)) (rest : Bytes) : Prop :=
  ∃ w w' text key value after, IsAuthParam emptyOk text key value ∧ IsBlank w ∧ IsBlank w' ∧
    rest = (if items = [] then [] else w ++ (0x2C :: w')) ++ (text ++ after)

end OAuth.Spec
