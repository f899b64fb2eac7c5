import Verif.Model.Basic

/-
UTF-8 (RFC 3629): the bytes of a text are those of its characters one after the other, where `Char` is
Lean's type of Unicode scalar values and `String.utf8EncodeChar` Lean's encoding of one.
-/

namespace OAuth.Spec

def textBytes (cs : List Char) : Bytes := cs.flatMap String.utf8EncodeChar

/-- The bytes of a Rust `str`. -/
def IsText (s : Bytes) : Prop := ∃ cs, s = textBytes cs

/-- The beginning of the encoding of a character, or all of it. -/
def BeginsChar (u : Bytes) : Prop := ∃ c, u <+: String.utf8EncodeChar c

/-- Unicode section 3.9, "U+FFFD Substitution of Maximal Subparts" (also the URL and Encoding Standards):
where no character begins, the longest beginning of one is replaced by U+FFFD, and a byte that does not
begin any character is replaced too. -/
inductive Substituted : Bytes → Bytes → Prop
  | nil : Substituted [] []
  | char (c : Char) {s t : Bytes} : Substituted s t →
      Substituted (String.utf8EncodeChar c ++ s) (String.utf8EncodeChar c ++ t)
  | subpart {u s t : Bytes} :
      (∀ c, ¬ String.utf8EncodeChar c <+: u ++ s) →
      u ≠ [] → (BeginsChar u ∨ u.length = 1) →
      (∀ u', u' <+: u ++ s → BeginsChar u' → u'.length ≤ u.length) →
      Substituted s t → Substituted (u ++ s) (String.utf8EncodeChar '�' ++ t)

end OAuth.Spec
