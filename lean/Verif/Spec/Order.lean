import Verif.Model.Basic

/-
Specification: the order of parameters, in terms of Lean's own lexicographic order on lists.
-/

namespace OAuth.Spec

/-- Ascending order of (name, value) pairs: by name bytes, then by value bytes. -/
def pairLe (a b : Bytes × Bytes) : Prop := a.1 < b.1 ∨ (a.1 = b.1 ∧ a.2 ≤ b.2)

/-- Every earlier pair is at most every later one. -/
def Ascending (l : List (Bytes × Bytes)) : Prop := l.Pairwise pairLe

/-- The visible content of a list of displayable pairs. -/
def shown {α : Type} (text : α → Bytes) (l : List (Bytes × α)) : List (Bytes × Bytes) :=
  l.map fun p => (p.1, text p.2)

end OAuth.Spec
