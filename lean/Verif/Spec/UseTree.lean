import Verif.Model.UsePath

/-
The grammar of `use` declarations, as in the Rust reference (chapters "Use declarations" and "Paths"):

    UseDeclaration    : `use` UseTree `;`
    UseTree           : (SimplePath? `::`)? `*`
                      | (SimplePath? `::`)? `{` .. `}`
                      | SimplePath ( `as` ( IDENTIFIER | `_` ) )?
    SimplePath        : `::`? SimplePathSegment (`::` SimplePathSegment)*
    SimplePathSegment : IDENTIFIER | `super` | `self` | `crate` | `$crate`

What is between the braces is not restricted here, which makes the grammar more permissive.
-/

namespace OAuth.Spec

open Derive

/-- The names with a meaning of their own that a simple path may contain. -/
def pathKeywords : List Bytes := [b!"super", b!"self", b!"crate", b!"$crate"]

/-- SimplePathSegment; `isIdent` tells which names are identifiers and not keywords. -/
def IsSimpleSegment (isIdent : Bytes → Prop) (n : Bytes) : Prop := isIdent n ∨ n ∈ pathKeywords

inductive SimplePath (isIdent : Bytes → Prop) : List PTok → Prop
  | one {n} : IsSimpleSegment isIdent n → SimplePath isIdent [.ident n]
  | global {n} : IsSimpleSegment isIdent n → SimplePath isIdent [.pathSep, .ident n]
  | snoc {p n} : SimplePath isIdent p → IsSimpleSegment isIdent n →
      SimplePath isIdent (p ++ [.pathSep, .ident n])

/-- (SimplePath? `::`)? -/
inductive UsePrefix (isIdent : Bytes → Prop) : List PTok → Prop
  | nothing : UsePrefix isIdent []
  | sep : UsePrefix isIdent [.pathSep]
  | path {p} : SimplePath isIdent p → UsePrefix isIdent (p ++ [.pathSep])

inductive UseTree (isIdent : Bytes → Prop) : List PTok → Prop
  | glob {p} : UsePrefix isIdent p → UseTree isIdent (p ++ [.punct '*'.toUInt8])
  | braces {p t} : UsePrefix isIdent p → UseTree isIdent (p ++ [.group '{'.toUInt8 t])
  | plain {p} : SimplePath isIdent p → UseTree isIdent p
  | renamed {p n} : SimplePath isIdent p → isIdent n ∨ n = b!"_" →
      UseTree isIdent (p ++ [.ident b!"as", .ident n])

/-- UseDeclaration. -/
def IsUseDeclaration (isIdent : Bytes → Prop) (t : List PTok) : Prop :=
  ∃ u, UseTree isIdent u ∧ t = .ident b!"use" :: u ++ [.punct ';'.toUInt8]

/-- What is known of the identifiers that are not keywords: `_oauth1_request` is one, the
keyword `Self` is not. -/
structure Identifiers (isIdent : Bytes → Prop) : Prop where
  alias : isIdent b!"_oauth1_request"
  self_ : ¬ isIdent b!"Self"

/-- The path can be written in an expression: each segment is an identifier, `Self`, or one of the
names that a simple path may contain as well (the reference, "Paths in expressions"). -/
def IsExprPath (isIdent : Bytes → Prop) (p : PathExpr) : Prop :=
  ∀ s ∈ p.first :: p.rest, IsSimpleSegment isIdent s.ident ∨ s.ident = b!"Self"

/-- How a path is written in an expression (the reference, "Paths in expressions"): its segments with `::`
between them, the generic arguments of a segment behind a further `::`; in front of it nothing, `::`, or a type in
`<` `>` and `::`; in front of all that any outer attributes. -/
inductive WrittenSegment : PathSegment → List PTok → Prop
  | plain {n} : WrittenSegment ⟨n, none⟩ [.ident n]
  | generic {n a} : WrittenSegment ⟨n, some a⟩
      ([.ident n, .pathSep, .punct '<'.toUInt8] ++ a ++ [.punct '>'.toUInt8])

inductive WrittenPath : PathExpr → List PTok → Prop
  | one {s t} : WrittenSegment s t → WrittenPath ⟨[], none, false, s, []⟩ t
  | global {s t} : WrittenSegment s t → WrittenPath ⟨[], none, true, s, []⟩ ([.pathSep] ++ t)
  | qualified {q s t} : WrittenSegment s t → WrittenPath ⟨[], some q, false, s, []⟩
      ([.punct '<'.toUInt8] ++ q ++ [.punct '>'.toUInt8, .pathSep] ++ t)
  | snoc {p s t t'} : WrittenPath p t → WrittenSegment s t' →
      WrittenPath { p with rest := p.rest ++ [s] } (t ++ [.pathSep] ++ t')
  | attr {p a t} : WrittenPath p t → WrittenPath { p with attrs := a :: p.attrs }
      ([.punct '#'.toUInt8, .group '['.toUInt8 a] ++ t)

/-- The path is one that can be imported: without attributes, without a type in front of it, without
generic arguments, and without `Self`. -/
structure Importable (p : PathExpr) : Prop where
  attrs : p.attrs = []
  qself : p.qself = none
  args : ∀ s ∈ p.first :: p.rest, s.args = none
  self_ : ∀ s ∈ p.first :: p.rest, s.ident ≠ b!"Self"

/-- `names` as a simple path, with `::` in front if it is `global`. -/
def simplePathTokens (global : Bool) (names : List Bytes) : List PTok :=
  (if global then [.pathSep] else []) ++ [PTok.pathSep].intercalate (names.map fun n => [.ident n])

/-- The declaration that gives what is at the path the name `alias`. -/
def useAs (global : Bool) (names : List Bytes) (alias : Bytes) : List PTok :=
  [.ident b!"use"] ++ simplePathTokens global names ++ [.ident b!"as", .ident alias, .punct ';'.toUInt8]

end OAuth.Spec
