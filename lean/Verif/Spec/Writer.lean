import Verif.Model.Basic

/-
Specification vocabulary: a sequence of writes, each of which succeeds.
-/

namespace OAuth.Spec

/-- The writer accepts the fragments one after another, ending in the given state. -/
inductive Writes {W : Type} (wr : Writer W) : W → List Bytes → W → Prop
  | done (d : W) : Writes wr d [] d
  | step {d d1 d2 : W} {c : Bytes} {cs : List Bytes} (h : wr.writeStr d c = some d1)
      (rest : Writes wr d1 cs d2) : Writes wr d (c :: cs) d2

end OAuth.Spec
