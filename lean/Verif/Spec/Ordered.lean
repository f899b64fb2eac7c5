import Verif.Model.Basic

/-
Specification: what an ordered map holds after a history of operations.
-/

namespace OAuth.Spec

/-- An operation on a map. -/
inductive MapOp (K V : Type)
  | insert (k : K) (v : V)
  | remove (k : K)
  | extend (l : List (K × V))

variable {K V : Type}

/-- The value given last to a key equal to `k`. -/
def lastGiven (cmp : K → K → Ordering) (k : K) (l : List (K × V)) : Option V :=
  (l.reverse.find? fun e => cmp k e.1 == .eq).map (·.2)

/-- The value held for `k` when the collected pairs were `l` and the operations since `ops`: that of the
last operation which concerns `k`. -/
def held (cmp : K → K → Ordering) (l : List (K × V)) (ops : List (MapOp K V)) (k : K) : Option V :=
  ops.foldl (fun now op =>
    match op with
    | .insert k' v => if cmp k k' = .eq then some v else now
    | .remove k' => if cmp k k' = .eq then none else now
    | .extend l => match lastGiven cmp k l with
      | some v => some v
      | none => now) (lastGiven cmp k l)

/-- A less b in the order given implies that the text of a comes before that of b. -/
def OrderOfText {K : Type} (cmp : K → K → Ordering) (text : K → Bytes) : Prop :=
  ∀ a b, cmp a b = .lt → text a < text b

end OAuth.Spec
