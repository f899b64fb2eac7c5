import Verif.Model.HelperTypes
import Verif.Spec.DeriveCode

/-
Which functions a field's `fmt` and `skip_if` may name: those that can be called with a reference to the
field, as in `f(&self.field, formatter)` and `f(&self.field)`.
-/

namespace OAuth.Spec

open Derive

variable {T : Type}

/-- `f(r)` compiles, where `r` has the type `&t` and the function takes `&U`: `U` is the first type of the
chain that it can be, and satisfies the bounds. -/
def TakesRef (P : Program T) (head bound : T → Bool) (t : T) : Prop :=
  ∃ before u after, P.chain t = before ++ u :: after ∧ (∀ v ∈ before, head v = false) ∧
    head u = true ∧ bound u = true

/-- The path is a function that formats (a reference to) `t`. -/
def Formats (P : Program T) (p : ExprPath) (t : T) : Prop :=
  ∃ head bound, P.item p = some ⟨[.ref head, .formatter], .fmtResult, bound⟩ ∧ TakesRef P head bound t

/-- The path is a predicate on (references to) `t`. -/
def Decides (P : Program T) (p : ExprPath) (t : T) : Prop :=
  ∃ head bound, P.item p = some ⟨[.ref head], .bool, bound⟩ ∧ TakesRef P head bound t

/-- The type is an option of `u`, or the first one that it dereferences to is. -/
def OptionOf (P : Program T) (t u : T) : Prop :=
  ∃ before o after, P.chain t = before ++ o :: after ∧ (∀ v ∈ before, P.option v = none) ∧
    P.option o = some u

/-- The (content) type of a field suits its attributes. -/
def TypeSuits (P : Program T) (f : Field) (t : T) : Prop :=
  (∀ p, f.info.fmt = some p → Formats P p t) ∧ (f.info.fmt = none → P.display t = true) ∧
    ∀ p, f.info.skipIf = some p → Decides P p t

/-- The type of a field is as its attributes say. -/
def FieldTyped (P : Program T) (f : Field) : Prop :=
  (TreatedAsOption f → ∃ u, OptionOf P (P.field f.ident) u ∧ TypeSuits P f u) ∧
    (¬ TreatedAsOption f → TypeSuits P f (P.field f.ident))

end OAuth.Spec
