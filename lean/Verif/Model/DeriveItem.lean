import Verif.Model.Derive

/-
oauth1-request-derive: the item around the generated method body (lib.rs): the generic parameters of the
`impl` and of the method. `Model/Derive.lean` has the rest of the macro.

Bounds, types, defaults and predicates are known by their text. Attributes of parameters are left out.
-/

namespace OAuth
namespace Derive

variable {τ : Type}

/-- `syn::GenericParam`. -/
inductive GenericParam
  /-- `'name: bounds`, with the name including the apostrophe. -/
  | lifetime (name : Bytes) (bounds : List Bytes)
  /-- `name: bounds = default`. -/
  | type (name : Bytes) (bounds : List Bytes) (default : Option Bytes)
  /-- `const name: ty = default`. -/
  | const (name ty : Bytes) (default : Option Bytes)
  deriving DecidableEq, Repr

/-- The name a parameter is declared with. -/
def GenericParam.name : GenericParam → Bytes
  | .lifetime n _ => n
  | .type n _ _ => n
  | .const n _ _ => n

/-- `syn::Generics`. -/
structure Generics where
  params : List GenericParam
  whereClause : List Bytes
  deriving DecidableEq, Repr

/-- lib.rs l.167-173 `add_trait_bounds`, one step of the loop. -/
def GenericParam.addBound : GenericParam → GenericParam
  | .type n bounds d => .type n (bounds ++ [b!"::core::fmt::Display"]) d
  | p => p

/-- lib.rs l.167-173 `add_trait_bounds`. -/
def addTraitBounds (g : Generics) : Generics := { g with params := g.params.map .addBound }

/-- `syn`: the parameter is a lifetime. -/
def GenericParam.isLifetime : GenericParam → Bool
  | .lifetime .. => true
  | _ => false

/-- `syn::ImplGenerics` prints no defaults. -/
def GenericParam.dropDefault : GenericParam → GenericParam
  | .lifetime n b => .lifetime n b
  | .type n b _ => .type n b none
  | .const n t _ => .const n t none

/-- `syn::ImplGenerics` and `syn::TypeGenerics` print lifetimes before the other parameters. -/
def lifetimesFirst (ps : List GenericParam) : List GenericParam :=
  ps.filter GenericParam.isLifetime ++ ps.filter (fun p => !p.isLifetime)

/-- `impl #impl_generics _oauth1_request::Request for #name #ty_generics #where_clause`, and the type
parameter of its method `serialize`. -/
structure ImplHeader where
  params : List GenericParam
  self_ : Bytes
  args : List Bytes
  whereClause : List Bytes
  methodParam : Bytes
  deriving DecidableEq, Repr

/-- `syn::DeriveInput`. -/
structure Item (τ : Type) extends Input τ where
  name : Bytes
  generics : Generics

/-- lib.rs l.120-121 `add_trait_bounds` and `Generics::split_for_impl` (syn), as used in l.128-130 and
l.150-152. -/
def implHeader (name : Bytes) (generics : Generics) (methodParam : Bytes) : ImplHeader :=
  let g := addTraitBounds generics
  { params := (lifetimesFirst g.params).map .dropDefault
    self_ := name
    args := (lifetimesFirst g.params).map GenericParam.name
    whereClause := g.whereClause
    methodParam }

/-- The tokens the macro returns, with the header of the `impl`. -/
inductive ItemExpansion
  | errors (es : List Err) (fallback : Option ImplHeader)
  | impl (header : ImplHeader) (import_ : Import) (body : List Stmt)
  deriving DecidableEq, Repr

/-- lib.rs l.54-165 `expand_derive_oauth1_authorize`. The type parameter of the method is `S` in the
`impl` that goes with errors (l.132) and `_S` otherwise (l.156). -/
def expandItem (cfg : Cfg) (S : Syn τ) (lookup : CrateLookup) (isIdent : Bytes → Bool)
    (item : Item τ) : Except Panic ItemExpansion := do
  match ← expand cfg S lookup isIdent item.toInput with
  | .errors es fallback =>
    .ok (.errors es (if fallback then some (implHeader item.name item.generics b!"S") else none))
  | .impl i body => .ok (.impl (implHeader item.name item.generics b!"_S") i body)

end Derive
end OAuth
