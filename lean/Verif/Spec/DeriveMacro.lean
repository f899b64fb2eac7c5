import Verif.Spec.Derive

/-
Structs written by a `macro_rules!` macro. What comes through a variable of such a macro (`$t:ty`,
`$e:expr`, `$l:literal`, `$p:path`) is enclosed in invisible parentheses, a "group".
-/

namespace OAuth.Spec

open OAuth.Derive

/-- The expression itself. -/
def bareExpr : Expr → Expr
  | .group e => bareExpr e
  | e => e

/-- The type itself. -/
def bareTy : Ty → Ty
  | .group t => bareTy t
  | t => t

/-- The item, with its value itself. -/
def bareMeta (m : Meta) : Meta where
  path := m.path
  kind := match m.kind with
    | .nameValue e => .nameValue (bareExpr e)
    | k => k

/-- The elements of the two lists are related one by one. -/
inductive Each {α β : Type} (R : α → β → Prop) : List α → List β → Prop
  | nil : Each R [] []
  | cons {a b as bs} : R a b → Each R as bs → Each R (a :: as) (b :: bs)

variable {τ : Type}

/-- The second attribute is the first one written out. -/
structure AttrWrittenOut (S : Syn τ) (a b : Attribute τ) : Prop where
  path : b.path = a.path
  items : argItems S b = (argItems S a).map (List.map bareMeta)

/-- The second field is the first one written out. -/
structure FieldWrittenOut (S : Syn τ) (f g : SynField τ) : Prop where
  ident : g.ident = f.ident
  ty : g.ty = bareTy f.ty
  attrs : Each (AttrWrittenOut S) f.attrs g.attrs

/-- The second struct is the first one written out. -/
structure WrittenOut (S : Syn τ) (attrs : List (Attribute τ)) (fs : List (SynField τ))
    (attrs' : List (Attribute τ)) (fs' : List (SynField τ)) : Prop where
  attrs : Each (AttrWrittenOut S) attrs attrs'
  fields : Each (FieldWrittenOut S) fs fs'

/-- No value in these attributes came through a variable. -/
def NoVariable (S : Syn τ) (attrs : List (Attribute τ)) : Prop :=
  ∀ m ∈ attributeItems S attrs, ∀ e, m.kind ≠ .nameValue (.group e)

end OAuth.Spec
