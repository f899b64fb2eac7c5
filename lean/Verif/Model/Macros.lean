import Verif.Model.Basic

/-!
# The macros of oauth1-request/src/util.rs

`cfg_type_param_hack!` (util.rs l.10-43), `doc_auto_cfg!` (util.rs l.49-78), `doc_coerce_expr!` (util.rs
l.81-98), `options!` (util.rs l.100-122) and `impl_setters!` (util.rs l.124-150): what they turn their input
into, one rule of the macro after the other, and which items the compiler keeps.

Simplifications: the input is given as what the fragments of the first rule match (names, bounds, defaults,
bodies and items by their text), not token by token; a fragment that matches no rule makes the macro fail
(`none`).
-/

namespace OAuth
namespace Macros

/-- A predicate of `#[cfg(…)]`. -/
inductive Pred
  /-- `feature = "…"`, `docsrs`, `debug_assertions`, … -/
  | atom (text : Bytes)
  | not (p : Pred)
  | all (p q : Pred)
  | any (p q : Pred)
  deriving DecidableEq, Repr

/-- Whether it holds in a build for which the given atoms hold. -/
def Pred.eval (build : Bytes → Bool) : Pred → Bool
  | .atom t => build t
  | .not p => !p.eval build
  | .all p q => p.eval build && q.eval build
  | .any p q => p.eval build || q.eval build

/-! ### `cfg_type_param_hack!` -/

/-- `$T:ident $(: $TB:path)? $(= $D:ty)?` -/
structure TypeParam where
  name : Bytes
  bound : Option Bytes := none
  default : Option Bytes := none
  deriving DecidableEq, Repr

/-- `#[$($cfg:tt)+]` before a parameter. -/
inductive ParamAttr
  | cfg (p : Pred)
  | other (text : Bytes)
  deriving DecidableEq, Repr

/-- `$(#[$attr:meta])* $vis:vis $kw:ident $Name:ident<$($a:lifetime),* …> $body:tt $(;)?` -/
structure Shell where
  attrs : List Bytes
  vis : Bytes
  kw : Bytes
  name : Bytes
  lifetimes : List Bytes
  body : Bytes
  semicolon : Bool
  deriving DecidableEq, Repr

/-- What the macro expands to: items, some of them behind `#[cfg(…)]`. -/
inductive Tree
  | item (s : Shell) (params : List TypeParam)
  /-- `#[cfg(p)]` before the invocation that expands to `t`. -/
  | cfg (p : Pred) (t : Tree)
  | both (t u : Tree)
  deriving DecidableEq, Repr

/-- util.rs l.23-42: the `@inner` rules, in order. -/
def cfgTypeParamInner (s : Shell) : List TypeParam → List (Option ParamAttr × TypeParam) → Option Tree
  | accum, (some (.cfg p), q) :: rest => do
    let t ← cfgTypeParamInner s (accum ++ [q]) rest
    let u ← cfgTypeParamInner s accum rest
    some (.both (.cfg p t) (.cfg (.not p) u))
  | accum, (none, q) :: rest => cfgTypeParamInner s (accum ++ [q]) rest
  | _, (some (.other _), _) :: _ => none
  | accum, [] => some (.item s accum)

/-- util.rs l.11-22: the first rule. -/
def cfgTypeParamHack (s : Shell) (params : List (Option ParamAttr × TypeParam)) : Option Tree :=
  cfgTypeParamInner s [] params

/-- The items that the compiler keeps. -/
def Tree.items (build : Bytes → Bool) : Tree → List (Shell × List TypeParam)
  | .item s ps => [(s, ps)]
  | .cfg p t => if p.eval build then t.items build else []
  | .both t u => t.items build ++ u.items build

/-! ### `doc_auto_cfg!` and `doc_coerce_expr!` -/

/-- An attribute (outer doc comments are `#[doc = …]`). -/
inductive Attr
  | cfg (p : Pred)
  /-- `#[cfg_attr(docsrs, doc(cfg(p)))]` -/
  | docCfg (p : Pred)
  | doc (expr : Bytes)
  | other (text : Bytes)
  deriving DecidableEq, Repr

/-- A piece of the input: an attribute, or an item without its attributes. -/
inductive Piece
  | attr (a : Attr)
  | item (text : Bytes)
  deriving DecidableEq, Repr

/-- util.rs l.82-93: the rules of `doc_coerce_expr!` for one item: values of `doc` go through `$doc:expr`,
until another attribute comes; the rest is taken as an item, with the attributes it has. -/
def docCoerceInner (accum : List Attr) : List Attr → Bytes → List Attr × Bytes
  | .doc e :: attrs, i => docCoerceInner (accum ++ [.doc e]) attrs i
  | attrs, i => (accum ++ attrs, i)

/-- util.rs l.95-97. -/
def docCoerceExpr (attrs : List Attr) (i : Bytes) : List Attr × Bytes := docCoerceInner [] attrs i

/-- util.rs l.51-74: the `@inner` rules, in order. Attributes with nothing after them match none. -/
def docAutoCfgInner : List Attr → List Piece → Option (List (List Attr × Bytes))
  | accum, .attr (.cfg p) :: x :: rest => docAutoCfgInner (accum ++ [.docCfg p, .cfg p]) (x :: rest)
  | accum, .attr a :: x :: rest => docAutoCfgInner (accum ++ [a]) (x :: rest)
  | accum, .item i :: rest => do
    let items ← docAutoCfgInner [] rest
    some (docCoerceExpr accum i :: items)
  | [], [] => some []
  | _, _ => none

/-- util.rs l.75-77. -/
def docAutoCfg (pieces : List Piece) : Option (List (List Attr × Bytes)) := docAutoCfgInner [] pieces

/-! ### `options!` and `impl_setters!` -/

/-- The type of a field, as the rules of `impl_setters!` distinguish them. -/
inductive FieldTy
  | option (t : Bytes)
  | bool
  | other (t : Bytes)
  deriving DecidableEq, Repr

/-- The type of the argument of a setter. -/
inductive ArgTy
  /-- `impl Into<Option<t>>` -/
  | intoOption (t : Bytes)
  | bool
  deriving DecidableEq, Repr

/-- `pub fn name(&mut self, name: arg) -> &mut Self { self.name = name; self }`, with `.into()` or not. -/
structure Setter where
  name : Bytes
  arg : ArgTy
  into : Bool
  deriving DecidableEq, Repr

/-- util.rs l.125-148: the rules of `impl_setters!`, in order. -/
def implSetters : List (Bytes × FieldTy) → List Setter
  | (n, .option t) :: rest => ⟨n, .intoOption t, true⟩ :: implSetters rest
  | (n, .bool) :: rest => ⟨n, .bool, false⟩ :: implSetters rest
  | (n, .other t) :: rest => ⟨n, .intoOption t, false⟩ :: implSetters rest
  | [] => []

/-- util.rs l.100-121 `options!`: the fields of the struct, and the setters in its `impl`. -/
def options (fields : List (Bytes × FieldTy)) : List (Bytes × FieldTy) × List Setter :=
  (fields, implSetters fields)

/-- A value. -/
inductive Value
  | some (v : Bytes)
  | none
  | bool (b : Bool)
  /-- Of the type itself, not of an option. -/
  | plain (v : Bytes)
  deriving DecidableEq, Repr

/-- Running a setter whose argument (after `.into()`, if it has one) is `v`. -/
def Setter.run (s : Setter) (v : Value) (self : Bytes → Value) : Bytes → Value :=
  fun n => if n = s.name then v else self n

end Macros
end OAuth
