import Verif.Model.DeriveNames
import Verif.Spec.DeriveScope

/-
What the names in the generated item are meant to refer to: names from the struct to what they refer to in
the struct, names from the macro to what the macro declares, or to the standard library.
-/

namespace OAuth.Spec

open OAuth.Derive

/-- What a name refers to in the declaration of the struct: a type parameter, or what is in scope. -/
def meaningInStruct (sur : Surroundings) (g : Generics) (n : Bytes) : Meaning :=
  if n ∈ typeParams g then .param .impl_ n
  else if sur.item n then .item n else if sur.std n then .std n else .nothing

/-- What the macro means by a name. -/
def meantByMacro (n : Bytes) : Meaning :=
  if n = b!"_oauth1_request" then .generated .constBlock n
  else if n = b!"_S" then .param .method n
  else if n ∈ [b!"DeriveRequestAssertion", b!"Display", b!"Formatter", b!"Result", b!"Fmt"] then
    .generated .helperBlock n
  else if n ∈ [b!"T", b!"F"] then .param .helperItem n
  else .std n

/-- What is meant by a name in the generated item. An argument for a const parameter must not be the name
of a type, for then it would be taken as one (The Rust Reference, "Const generics"). -/
def meant (sur : Surroundings) (g : Generics) : Role → Bytes → Meaning
  | .attribute, n => meaningInStruct sur g n
  | .declaration, n => meaningInStruct sur g n
  | .struct_, n => .item n
  | .typeArg, n => .param .impl_ n
  | .constArg, _ => .nothing
  | .generated, n => meantByMacro n

/-- Every name refers to what is meant by it. -/
def NoCapture (sur : Surroundings) (g : Generics) (uses : List NameUse) : Prop :=
  ∀ u ∈ uses, u.meaning sur = meant sur g u.role u.name

/-- The same for the `impl` that goes with errors: the only names from the macro are that of the import and
that of the parameter of the method. -/
def meantInFallback (sur : Surroundings) (g : Generics) : Role → Bytes → Meaning
  | .generated, n => if n = b!"_oauth1_request" then .generated .constBlock n else .param .method n
  | r, n => meant sur g r n

/-- Every name in it refers to what is meant by it. -/
def NoCaptureInFallback (sur : Surroundings) (g : Generics) (uses : List NameUse) : Prop :=
  ∀ u ∈ uses, u.meaning sur = meantInFallback sur g u.role u.name

/-- The standard library's meaning of a name is that of the place where the struct is. -/
def MeansStd (sur : Surroundings) (g : Generics) (n : Bytes) : Prop :=
  n ∉ typeParams g ∧ sur.item n = false ∧ sur.std n = true

/-- The texts in the declaration of the struct's parameters, without defaults. -/
def declarationTexts (g : Generics) : List Bytes :=
  g.params.flatMap (fun | .lifetime _ bs => bs | .type _ bs _ => bs | .const _ ty _ => [ty]) ++ g.whereClause

end OAuth.Spec
