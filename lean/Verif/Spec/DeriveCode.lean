import Verif.Model.DeriveCode
import Verif.Spec.Derive

/-
When the code generated by `#[derive(Request)]` should compile, after the documentation of the attributes
(oauth1-request/src/lib.rs l.133-206) and tests/ui/typeck.rs: what each field asks of its type.
-/

namespace OAuth.Spec

open OAuth.Derive

/-- Tokens of the item do not have the syntax context of the expansion. -/
structure Foreign (sp : Spans) : Prop where
  ty : ∀ f, sp.ty f ≠ 0
  fmt : ∀ f, sp.fmt f ≠ 0
  skipIf : ∀ f, sp.skipIf f ≠ 0

/-- The (unwrapped) type suits the attributes: it can be displayed, by the given function if there is
one, and the predicate applies to it. -/
def Suits {T : Type} (Γ : Typing T) (f : Field) (t : T) : Prop :=
  (∀ p, f.info.fmt = some p → Γ.fmtOk p t = true) ∧ (f.info.fmt = none → Γ.display t = true) ∧
    ∀ p, f.info.skipIf = some p → Γ.predOk p t = true

/-- The type of a field is as its attributes say: an option if it is treated as one, with a suitable
content, or else suitable itself. -/
def WellTyped {T : Type} (Γ : Typing T) (f : Field) : Prop :=
  (TreatedAsOption f → ∃ t, Γ.unOption (Γ.field f.ident) = some t ∧ Suits Γ f t) ∧
    (¬ TreatedAsOption f → Suits Γ f (Γ.field f.ident))

/-- The local variables, with those of the helper functions, of the method generated for the fields of which `has` holds. -/
inductive Binds (has : Field → Prop) : Bytes → Prop
  | serializer : Binds has b!"serializer"
  | helper {f : Field} : has f → f.info.fmt ≠ none ∨ f.info.skipIf ≠ none → Binds has b!"helper"
  | f {f : Field} : has f → f.info.fmt ≠ none ∨ f.info.skipIf ≠ none → Binds has b!"f"
  | t {f : Field} : has f → f.info.fmt ≠ none → Binds has b!"t"
  | tmp {f : Field} : has f → f.info.skip = false → Binds has b!"tmp"
  | value {f : Field} : has f → f.info.skip = false → TreatedAsOption f → Binds has b!"value"
  | fmt {f : Field} : has f → f.info.skip = false → f.info.fmt ≠ none → Binds has b!"fmt"

end OAuth.Spec
