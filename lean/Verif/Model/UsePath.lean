import Verif.Model.Derive

/-
The path given as `#[oauth1(crate = path)]`, token by token, and the `use` item made from it.
`Model/Derive` has a path as one text (`Expr.path`), and the import as `Import.use` of that text; here
the same path is what `syn::ExprPath` holds.

Simplifications: the tokens of a group (`[..]`, `(..)`, `{..}`) are one text, which nothing here looks
into. A type in front of a path (`<T as Trait>::x`) is kept as the tokens between `<` and `>`, so the
position at which `syn::QSelf` splits the path is not a separate number.
-/

namespace OAuth.Derive

/-- A token of Rust, as far as a path and a `use` item are concerned. -/
inductive PTok
  | ident (name : Bytes)
  /-- `::` -/
  | pathSep
  | punct (c : UInt8)
  | lit (text : Bytes)
  | group (open_ : UInt8) (text : Bytes)
  deriving DecidableEq, Repr

/-- `syn::PathSegment` of an expression: a name, and what is between `::<` and `>` after it. -/
structure PathSegment where
  ident : Bytes
  args : Option (List PTok) := none
  deriving DecidableEq, Repr

/-- `syn::ExprPath` (meta.rs l.210-218 takes every expression that is one). The macro has the feature
`full` of `syn` (oauth1-request-derive/Cargo.toml l.22), with which an expression may begin with
attributes. A path has at least one segment. -/
structure PathExpr where
  attrs : List Bytes := []
  qself : Option (List PTok) := none
  leadingColon : Bool := false
  first : PathSegment
  rest : List PathSegment := []
  deriving DecidableEq, Repr

/-- `PathSegment::to_tokens` in an expression. -/
def PathSegment.tokens (s : PathSegment) : List PTok :=
  .ident s.ident :: match s.args with
    | none => []
    | some a => .pathSep :: .punct '<'.toUInt8 :: a ++ [.punct '>'.toUInt8]

/-- `ExprPath::to_tokens`. -/
def PathExpr.tokens (p : PathExpr) : List PTok :=
  p.attrs.flatMap (fun a => [.punct '#'.toUInt8, .group '['.toUInt8 a]) ++
  (match p.qself with
    | some q => .punct '<'.toUInt8 :: q ++ [.punct '>'.toUInt8, .pathSep]
    | none => if p.leadingColon then [.pathSep] else []) ++
  p.first.tokens ++ p.rest.flatMap (fun s => .pathSep :: s.tokens)

/-- lib.rs l.92-95: `use #krate as _oauth1_request;`. -/
def useItem (krate : PathExpr) : List PTok :=
  .ident b!"use" :: krate.tokens ++
    [.ident b!"as", .ident b!"_oauth1_request", .punct ';'.toUInt8]

end OAuth.Derive
