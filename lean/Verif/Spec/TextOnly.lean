import Verif.Spec.Calls
import Verif.Model.SignatureMethod

/-
Specification vocabulary: serializers and signing algorithms that do not look at how a value's text
is fragmented.
-/

namespace OAuth.Spec

/-- Same text, same way of ending. -/
def sameText (a b : Display) : Prop := a.text = b.text ∧ a.outcome = b.outcome

/-- The serializer treats values with the same text alike. -/
structure TextOnly {σ ω : Type} (S : Serializer σ ω) : Prop where
  parameter : ∀ s k v v', sameText v v' → S.parameter s k v = S.parameter s k v'
  parameterEncoded : ∀ s k v v', sameText v v' →
    S.parameterEncoded s k v = S.parameterEncoded s k v'

/-- The signing algorithm treats parameter values with the same text alike. -/
def SignTextOnly {S : Type} (sg : Sign S) : Prop :=
  ∀ s k v v', sameText v v' → sg.parameter s k v = sg.parameter s k v'

/-- Two calls that differ in the fragmentation of the value at most. -/
inductive SameCall : Call → Call → Prop
  | parameter {k v v'} : sameText v v' → SameCall (.parameter k v) (.parameter k v')
  | parameterEncoded {k v v'} : sameText v v' →
      SameCall (.parameterEncoded k v) (.parameterEncoded k v')
  | oauth {p} : SameCall (.oauth p) (.oauth p)

/-- Two sequences of calls that differ in the fragmentation of values at most. -/
inductive SameCalls : List Call → List Call → Prop
  | nil : SameCalls [] []
  | cons {c c' cs cs'} : SameCall c c' → SameCalls cs cs' → SameCalls (c :: cs) (c' :: cs')

end OAuth.Spec
