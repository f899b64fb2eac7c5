import Verif.Model.Server
import Verif.Spec.Server
import Verif.Spec.Wire

/-
Specification vocabulary: what the example server has received.
-/

namespace OAuth.Server

open Spec

/-- What names and values of a header are decoded to. -/
def dec (s : Bytes) : Bytes := Utf8.lossy (Spec.percentDecode s)

/-- Items with the bytes of their values. -/
def plainItems (items : List (Bytes × Cow)) : List (Bytes × Bytes) := items.map fun i => (i.1, i.2.bytes)

/-- The form in a request: the body if it is said to be one, and otherwise nothing. `none` is a body that
does not arrive. -/
def formOf (req : HttpRequest) : Option Bytes :=
  if req.contentType = some b!"application/x-www-form-urlencoded" then req.body else some []

/-- The pairs of a form or query (URL Standard), as text. -/
def pairsOf (s : Bytes) : List Parameter := (urlencoded s).map fun p => (Utf8.lossy p.1, Utf8.lossy p.2)

/-- The parameters of a request: those of its headers, form and query. -/
def Received (L : Lib) (req : HttpRequest) (ps : List Parameter) : Prop :=
  ∃ form header, formOf req = some form ∧
    HeaderParams L.emptyOk dec req.authorization header ∧
    ps = header ++ (pairsOf form ++ pairsOf (req.query.getD []))

/-- The same as bytes, before they are made text. -/
def ReceivedBytes (L : Lib) (req : HttpRequest) (rs : List (Bytes × Bytes)) : Prop :=
  ∃ form header, formOf req = some form ∧
    HeaderParams L.emptyOk Spec.percentDecode req.authorization header ∧
    rs = header ++ (urlencoded form ++ urlencoded (req.query.getD []))

/-- The character U+FFFD in the bytes of a text. -/
def HasReplacement (s : Bytes) : Prop := [0xEF, 0xBF, 0xBD] <:+: s

end OAuth.Server
