import Verif.Model.DeriveItem
import Verif.Spec.Derive

/-
Rust's rules for the names in the code generated by `#[derive(Request)]` (The Rust Reference: Keywords,
Identifiers, Names): which field an identifier after `self.` denotes, and which names a generic parameter
must not have. Every name in the generated code except local variables resolves at the call site
(`Span::mixed_site`, `Span::call_site`), so that it can clash with names of the struct.
-/

namespace OAuth.Spec

open OAuth.Derive

/-- The keywords of Rust (strict and reserved, edition 2021): these tokens are not identifiers. -/
def keywords : List Bytes :=
  [b!"as", b!"async", b!"await", b!"break", b!"const", b!"continue", b!"crate", b!"dyn", b!"else",
   b!"enum", b!"extern", b!"false", b!"fn", b!"for", b!"if", b!"impl", b!"in", b!"let", b!"loop",
   b!"match", b!"mod", b!"move", b!"mut", b!"pub", b!"ref", b!"return", b!"self", b!"Self", b!"static",
   b!"struct", b!"super", b!"trait", b!"true", b!"type", b!"unsafe", b!"use", b!"where", b!"while",
   b!"abstract", b!"become", b!"box", b!"do", b!"final", b!"macro", b!"override", b!"priv", b!"try",
   b!"typeof", b!"unsized", b!"virtual", b!"yield"]

/-- `r#name`. -/
def raw (name : Bytes) : Bytes := b!"r#" ++ name

/-- Two identifier tokens are the same identifier: `r#name` is `name`. -/
def SameIdent (a b : Bytes) : Prop := a = b ∨ a = raw b ∨ raw a = b

/-- `self.token` is an access to the field declared as `declared`. -/
def Denotes (token declared : Bytes) : Prop := token ∉ keywords ∧ SameIdent token declared

/-- The fields of `self` a place, an expression or a statement mentions. -/
def Place.mentions : Place → List Bytes
  | .bound => []
  | .field i => [i]

/-- See `Place.mentions`. -/
def Shown.mentions : Shown → List Bytes
  | .plain p => Place.mentions p
  | .formatted _ p => Place.mentions p

/-- See `Place.mentions`. -/
def Stmt.mentions : Stmt → List Bytes
  | .oauth _ => []
  | .parameter _ _ d => Shown.mentions d
  | .unlessPred _ p body => Place.mentions p ++ Stmt.mentions body
  | .ifSome i body => i :: Stmt.mentions body

/-- Every field access in the method body is one to a field of the struct. -/
def FieldsResolve (declared : List Bytes) (body : List Stmt) : Prop :=
  ∀ s ∈ body, ∀ t ∈ Stmt.mentions s, ∃ d ∈ declared, Denotes t d

/-- Names of the type parameters. -/
def typeParams (g : Generics) : List Bytes :=
  g.params.filterMap fun | .type n _ _ => some n | _ => none

/-- Names of the const parameters. -/
def constParams (g : Generics) : List Bytes :=
  g.params.filterMap fun | .const n _ _ => some n | _ => none

/-- The generated method has a type parameter of its own, which must differ from those of the `impl`
(E0403; lifetimes have a separate namespace), and the trait is found in `_oauth1_request`, which must not
be hidden by a type parameter, nor hide the struct. -/
structure HeaderResolves (h : ImplHeader) : Prop where
  method : ∀ p ∈ h.params, (∀ n b, p ≠ .lifetime n b) → p.name ≠ h.methodParam
  trait : ∀ p ∈ h.params, ∀ n b d, p = .type n b d → n ≠ b!"_oauth1_request"
  struct : h.self_ ≠ b!"_oauth1_request"

/-- Generic parameters in the order Rust asks for: lifetimes before the others. -/
def LifetimesFirst (ps : List GenericParam) : Prop :=
  ps.Pairwise fun a b => (∃ n bs, b = .lifetime n bs) → ∃ n bs, a = .lifetime n bs

/-- How a parameter of the struct is declared by the `impl`: with its own bounds, for types followed by `Display`,
and without default. -/
inductive DeclaredAs : GenericParam → GenericParam → Prop
  | lifetime (n : Bytes) (bs : List Bytes) : DeclaredAs (.lifetime n bs) (.lifetime n bs)
  | type (n : Bytes) (bs : List Bytes) (d : Option Bytes) :
      DeclaredAs (.type n bs d) (.type n (bs ++ [b!"::core::fmt::Display"]) none)
  | const (n t : Bytes) (d : Option Bytes) : DeclaredAs (.const n t d) (.const n t none)

/-- The fields of a struct that compiles: identifiers (possibly raw), no two the same. -/
structure LegalFields (declared : List Bytes) : Prop where
  ident : ∀ d ∈ declared, d ∉ keywords
  /-- `r#` is followed by an identifier without `#`. -/
  once : ∀ d ∈ declared, ∀ n, d ≠ raw (raw n)
  distinct : declared.Pairwise fun a b => ¬ SameIdent a b

/-- The field is marked `skip`. -/
def Skipped {τ : Type} (S : Syn τ) (f : SynField τ) : Prop :=
  ∃ m ∈ attributeItems S f.attrs, SetsTo m .skip

/-! ### Generic parameters -/

/-- A choice of arguments for the generic parameters of a struct, and which bounds hold of which
argument, and which predicates of a `where` clause hold. -/
structure Instance where
  arg : Bytes → Bytes
  bound : Bytes → Bytes → Prop
  predicate : Bytes → Prop

/-- The bounds on one parameter hold. -/
def Instance.Satisfies (i : Instance) : GenericParam → Prop
  | .lifetime n bs => ∀ b ∈ bs, i.bound (i.arg n) b
  | .type n bs _ => ∀ b ∈ bs, i.bound (i.arg n) b
  | .const .. => True

/-- The bounds and the `where` clause hold. -/
def Instance.Allowed (i : Instance) (params : List GenericParam) (whereClause : List Bytes) : Prop :=
  (∀ p ∈ params, i.Satisfies p) ∧ ∀ w ∈ whereClause, i.predicate w

end OAuth.Spec
