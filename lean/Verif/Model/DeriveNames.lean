import Verif.Model.DeriveCode
import Verif.Model.DeriveItem

/-!
# The names of types, traits and modules in the generated item

`Model/DeriveCode.lean` has the variables of the generated method. This file has the names that are looked
up in the type namespace, each with the scopes it is in.
(oauth1-request-derive/src/lib.rs l.120-164, method_body.rs l.33-53, method_body/helper.rs l.36-78)

Simplifications: what a path, bound, type or predicate of the struct looks up is a parameter (`Texts`);
absolute paths (`::core::…`) look up nothing; the path of `use … as _oauth1_request` is not included (it is
looked up without regard to the import it makes), nor are lifetimes, methods, macros and attributes.
-/

namespace OAuth
namespace Derive

/-- Which part of the generated item declares a name. -/
inductive Owner
  /-- `const _: () = { … };` -/
  | constBlock
  /-- The `impl`, whose type parameters are those of the struct. -/
  | impl_
  /-- `fn serialize<_S>` -/
  | method
  /-- `let helper = { … };` -/
  | helperBlock
  /-- The items in that block. -/
  | helperItem
  deriving DecidableEq, Repr

/-- A scope. -/
inductive Rib
  /-- A block with items or imports of these names. -/
  | items (o : Owner) (names : List Bytes)
  /-- Type parameters of these names. -/
  | params (o : Owner) (names : List Bytes)
  /-- The border of an item: the parameters further out cannot be used within (E0401). -/
  | border
  deriving DecidableEq, Repr

/-- Where a name in the generated item comes from. -/
inductive Role
  /-- From the attributes of a field. -/
  | attribute
  /-- From the generic parameters of the struct and its `where` clause. -/
  | declaration
  /-- The name of the struct. -/
  | struct_
  /-- The name of a type parameter, as an argument of the struct. -/
  | typeArg
  /-- The name of a const parameter, as an argument of the struct. -/
  | constArg
  /-- From the macro. -/
  | generated
  deriving DecidableEq, Repr

/-- A name, and the scopes around it, the innermost first. -/
structure NameUse where
  role : Role
  name : Bytes
  ribs : List Rib
  deriving DecidableEq, Repr

/-- The names a text of the struct (a path, bound, type or predicate) looks up in the type namespace:
`["a", "B"]` for `a::b::<B>`. -/
abbrev Texts := Bytes → List Bytes

/-- method_body.rs l.43-52 and helper.rs l.36-78: the names in `{ struct DeriveRequestAssertion; … }`. -/
def helperNames (ribs : List Rib) (fmt skipIf : Bool) : List NameUse :=
  let block : List Rib := .items .helperBlock (b!"DeriveRequestAssertion" ::
    if fmt then [b!"Display", b!"Formatter", b!"Result", b!"Fmt"] else []) :: ribs
  let item : List Rib := .border :: block
  let generic : List Rib := .params .helperItem [b!"T", b!"F"] :: item
  let use (ribs : List Rib) (n : Bytes) : NameUse := ⟨.generated, n, ribs⟩
  -- helper.rs l.37-66
  (if fmt then
    -- struct Fmt<T, F>(T, F);
    [b!"T", b!"F"].map (use generic) ++
    -- impl<T: Copy, F> Display for Fmt<T, F> where F: Fn(T, &mut Formatter<'_>) -> Result
    [b!"Copy", b!"Display", b!"Fmt", b!"T", b!"F", b!"F", b!"Fn", b!"T", b!"Formatter",
      b!"Result"].map (use generic) ++
    -- fn fmt(&self, f: &mut Formatter<'_>) -> Result
    [b!"Formatter", b!"Result"].map (use generic) ++
    -- impl DeriveRequestAssertion
    [use item b!"DeriveRequestAssertion"] ++
    -- fn fmt<'a, F, T: ?Sized>(&self, f: F, t: &'a T) -> Fmt<&'a T, F>
    -- where F: Fn(&T, &mut Formatter<'_>) -> Result
    [b!"Sized", b!"F", b!"T", b!"Fmt", b!"T", b!"F", b!"F", b!"Fn", b!"T", b!"Formatter",
      b!"Result"].map (use generic) ++
    -- fn fmt_impls_fn<F, T: ?Sized>(&self, f: F) -> impl Fn(&T, &mut Formatter<'_>) -> Result
    -- where F: Fn(&T, &mut Formatter<'_>) -> Result
    [b!"Sized", b!"F", b!"Fn", b!"T", b!"Formatter", b!"Result", b!"F", b!"Fn", b!"T", b!"Formatter",
      b!"Result"].map (use generic)
  else []) ++
  -- helper.rs l.69-77
  (if skipIf then
    -- impl DeriveRequestAssertion
    [use item b!"DeriveRequestAssertion"] ++
    -- fn skip_if_impls_fn<F, T: ?Sized>(&self, f: F) -> impl Fn(&T) -> bool where F: Fn(&T) -> bool
    [b!"Sized", b!"F", b!"Fn", b!"T", b!"bool", b!"F", b!"Fn", b!"T", b!"bool"].map (use generic)
  else [])

/-- The names in an expression of the method body. -/
def RExpr.typeNames (t : Texts) (ribs : List Rib) : RExpr → List NameUse
  | .var _ => []
  | .path p _ => (t p).map fun n => ⟨.attribute, n, ribs⟩
  | .addrOfField _ _ => []
  | .asRef e => e.typeNames t ribs
  | .newHelper a b => helperNames ribs a b
  | .fmtImplsFn _ e => e.typeNames t ribs
  | .fmt _ f e => f.typeNames t ribs ++ e.typeNames t ribs
  | .skipIfImplsFn _ e => e.typeNames t ribs
  | .call f e => f.typeNames t ribs ++ e.typeNames t ribs
  | .not e => e.typeNames t ribs
  | .letIn _ e body => e.typeNames t ribs ++ body.typeNames t ribs

/-- The names in the method body. -/
def Code.typeNames (t : Texts) (ribs : List Rib) : Code → List NameUse
  | .nil => []
  | .letS _ e rest => e.typeNames t ribs ++ rest.typeNames t ribs
  | .oauth _ _ rest => rest.typeNames t ribs
  | .parameter _ _ _ e rest => e.typeNames t ribs ++ rest.typeNames t ribs
  | .ite c body rest => c.typeNames t ribs ++ body.typeNames t ribs ++ rest.typeNames t ribs
  | .ifLet _ e body rest => e.typeNames t ribs ++ body.typeNames t ribs ++ rest.typeNames t ribs
  | .block body rest => body.typeNames t ribs ++ rest.typeNames t ribs
  | .fin _ => []

/-- The type parameters among generic parameters. -/
def typeNamesOf (ps : List GenericParam) : List Bytes :=
  ps.filterMap fun | .type n _ _ => some n | _ => none

/-- The texts in the declaration of a generic parameter (bounds by lifetimes look up nothing). -/
def GenericParam.texts : GenericParam → List Bytes
  | .lifetime _ bs => bs
  | .type _ bs d => bs ++ d.toList
  | .const _ ty d => ty :: d.toList

/-- The names in `#name #ty_generics` (lib.rs l.151). -/
def GenericParam.argUse (ribs : List Rib) : GenericParam → List NameUse
  | .lifetime .. => []
  | .type n _ _ => [⟨.typeArg, n, ribs⟩]
  | .const n _ _ => [⟨.constArg, n, ribs⟩]

/-- lib.rs l.147-163: `const _: () = { #use_oauth1_request impl … { fn serialize<_S>… { #body } } };`. -/
def itemNames (t : Texts) (h : ImplHeader) (code : Code) : List NameUse :=
  let outer : List Rib :=
    [.params .impl_ (typeNamesOf h.params), .items .constBlock [b!"_oauth1_request"]]
  let inner : List Rib := .params .method [h.methodParam] :: outer
  let use (ribs : List Rib) (n : Bytes) : NameUse := ⟨.generated, n, ribs⟩
  -- impl #impl_generics _oauth1_request::Request for #name #ty_generics #where_clause
  (h.params.flatMap fun p => p.texts.flatMap fun x => (t x).map fun n => ⟨.declaration, n, outer⟩) ++
  [use outer b!"_oauth1_request", ⟨.struct_, h.self_, outer⟩] ++
  h.params.flatMap (GenericParam.argUse outer) ++
  (h.whereClause.flatMap fun x => (t x).map fun n => ⟨.declaration, n, outer⟩) ++
  -- fn serialize<_S>(&self, mut serializer: _S) -> _S::Output
  -- where _S: _oauth1_request::serializer::Serializer
  [use inner h.methodParam, use inner h.methodParam, use inner h.methodParam,
    use inner b!"_oauth1_request"] ++
  code.typeNames t inner

/-- lib.rs l.125-140: `const _: () = { #use_oauth1_request impl … { fn serialize<S>… { unimplemented!(); } } };`,
which goes with errors. Its header is written as that above. -/
def fallbackNames (t : Texts) (h : ImplHeader) : List NameUse := itemNames t h .nil

/-! ### Looking names up -/

/-- What is in scope where the struct is. -/
structure Surroundings where
  /-- A type, trait, module or import of this name is in scope. -/
  item : Bytes → Bool
  /-- The name is in the prelude, or that of a primitive type. -/
  std : Bytes → Bool

/-- What a name refers to. -/
inductive Meaning
  /-- An item the macro generates. -/
  | generated (o : Owner) (n : Bytes)
  /-- A type parameter. -/
  | param (o : Owner) (n : Bytes)
  /-- A type parameter that cannot be used where the name is: an error. -/
  | inaccessible (n : Bytes)
  /-- What the user declared or imported under the name. -/
  | item (n : Bytes)
  /-- What the standard library or the language has under the name. -/
  | std (n : Bytes)
  | nothing
  deriving DecidableEq, Repr

/-- Name resolution in the type namespace: from the innermost scope outwards, then what is in scope where
the struct is, then the prelude and the primitive types. -/
def lookup (sur : Surroundings) : Bool → List Rib → Bytes → Meaning
  | _, [], n => if sur.item n then .item n else if sur.std n then .std n else .nothing
  | crossed, .items o ns :: ribs, n => if n ∈ ns then .generated o n else lookup sur crossed ribs n
  | crossed, .params o ns :: ribs, n =>
    if n ∈ ns then (if crossed then .inaccessible n else .param o n) else lookup sur crossed ribs n
  | _, .border :: ribs, n => lookup sur true ribs n

/-- What the name refers to. -/
def NameUse.meaning (sur : Surroundings) (u : NameUse) : Meaning := lookup sur false u.ribs u.name

end Derive
end OAuth
