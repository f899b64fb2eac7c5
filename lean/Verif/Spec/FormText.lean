import Verif.Spec.Form

/-
Specification: "application/x-www-form-urlencoded serializing" of the URL Standard.
-/

namespace OAuth.Spec

/-- The bytes that stand for themselves: ASCII letters and digits, `*`, `-`, `.` and `_`. -/
def formPlain : Bytes := b!"ABCDEFGHIJKLMNOPQRSTUVWXYZabcdefghijklmnopqrstuvwxyz0123456789*-._"

/-- One byte: `+` for a space, an escape with upper-case digits for the rest. -/
def urlencodedText (s : Bytes) : Bytes :=
  s.flatMap fun b =>
    if b ∈ formPlain then [b]
    else if b = 0x20 then b!"+"
    else [0x25, hexChar (b.toNat / 16), hexChar (b.toNat % 16)]

/-- Names and values joined by `=`, pairs by `&`. -/
def urlencodedOf (ps : List (Bytes × Bytes)) : Bytes :=
  join b!"&" (ps.map fun p => urlencodedText p.1 ++ b!"=" ++ urlencodedText p.2)

end OAuth.Spec
