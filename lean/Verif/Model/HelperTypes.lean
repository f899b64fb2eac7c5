import Verif.Model.DeriveCode

/-
How `rustc` types the calls of the helper functions in the generated code
(oauth1-request-derive/src/method_body/helper.rs l.36-78). `Model/DeriveCode` has one bit for each path and
type (`Typing.fmtOk`, `Typing.predOk`, and `Typing.unOption` for `Option::as_ref`); here these bits are
computed from the signatures of the functions and the order of the arguments.

The rules, as the reference ("Coercions") and the compiler have them: the arguments of a call are checked
from left to right; each may determine type variables of the signature, also through the where clause about
a function that has been passed; an argument of the type `&X` is coerced to a parameter of the type `&Y`
where `Y` is the first of the types to which `X` dereferences that agrees with what is known of `Y` by then.
Bounds of generic functions are checked last, and play no part in that choice.

Simplifications: types are abstract; a type variable is known by the set of types that it can still be.
Coercions other than dereferencing (unsizing) have to be part of `chain`.
-/

namespace OAuth
namespace Derive

variable {T : Type}

/-- The type of a parameter of a function named in an attribute. -/
inductive ParamTy (T : Type)
  /-- `&U`, with any lifetime. `head` tells the types that `U` can be without regard to bounds: one type,
  those of a form such as `Vec<_>`, or all if `U` is a parameter of the function. -/
  | ref (head : T → Bool)
  /-- `&mut Formatter<'_>` -/
  | formatter
  | other

inductive RetTy
  | bool
  /-- `core::fmt::Result` -/
  | fmtResult
  | other
  deriving DecidableEq

/-- The signature of a function; `bound` is whether the bounds on `U` hold for a type. -/
structure Sig (T : Type) where
  params : List (ParamTy T)
  ret : RetTy
  bound : T → Bool

/-- What the compiler knows of the program around the item. -/
structure Program (T : Type) where
  /-- Declared types of the fields. -/
  field : Bytes → T
  /-- `U` if the type is `Option<U>`. -/
  option : T → Option T
  display : T → Bool
  /-- The type, what it dereferences to, and so on. -/
  chain : T → List T
  /-- The function a path names, if it does. -/
  item : ExprPath → Option (Sig T)
  constant : Bytes → Bool

/-- The where clauses: `F: Fn(&T, &mut Formatter<'_>) -> Result` (helper.rs l.55, l.62) and
`F: Fn(&T) -> bool` (helper.rs l.73). -/
inductive Clause
  | display
  | predicate

/-- A value that is a function of a reference: what is known of the type referred to, and the bounds that
are left to check. -/
structure FnValue (T : Type) where
  head : T → Bool
  bound : T → Bool

/-- Whether a function satisfies a where clause, for which types. -/
def Sig.satisfies (s : Sig T) : Clause → Option (FnValue T)
  | .display => match s.params, s.ret with
    | [.ref h, .formatter], .fmtResult => some ⟨h, s.bound⟩
    | _, _ => none
  | .predicate => match s.params, s.ret with
    | [.ref h], .bool => some ⟨h, s.bound⟩
    | _, _ => none

/-- A parameter of `DeriveRequestAssertion::fmt`. -/
inductive HelperParam
  /-- `f: F` -/
  | function
  /-- `t: &'a T` -/
  | reference
  deriving DecidableEq

/-- helper.rs l.53 (with the comment of l.51-52 on the order). -/
def fmtParams : List HelperParam := [.function, .reference]

inductive HelperArg (T : Type)
  | function (f : FnValue T)
  | reference (t : T)

/-- The variable `T` of a signature: the types that it can still be, and its type once it is determined;
the bounds to check. -/
structure Infer (T : Type) where
  possible : T → Bool := fun _ => true
  solved : Option T := none
  bounds : List (T → Bool) := []

/-- One argument. -/
def Infer.arg [DecidableEq T] (P : Program T) (st : Infer T) :
    HelperParam → HelperArg T → Option (Infer T)
  | .function, .function f =>
    some { st with possible := fun t => st.possible t && f.head t, bounds := f.bound :: st.bounds }
  | .reference, .reference t => match (P.chain t).find? st.possible with
    | some u => some { st with possible := fun v => decide (v = u), solved := some u }
    | none => none
  | _, _ => none

/-- All arguments, from left to right. -/
def Infer.args [DecidableEq T] (P : Program T) :
    Infer T → List HelperParam → List (HelperArg T) → Option (Infer T)
  | st, [], [] => some st
  | st, p :: ps, a :: as => match st.arg P p a with
    | some st => st.args P ps as
    | none => none
  | _, _, _ => none

/-- After the last argument: the variable has a type, which it can be, and which has the bounds. -/
def Infer.done (st : Infer T) : Bool :=
  match st.solved with
  | some u => st.possible u && st.bounds.all (· u)
  | none => false

/-- helper.rs l.60-65 `fmt_impls_fn(path)` and l.71-76 `skip_if_impls_fn(path)`: the function again, with the
same type variable. -/
def implsFn (P : Program T) (c : Clause) (p : ExprPath) : Option (FnValue T) :=
  match P.item p with
  | some s => s.satisfies c
  | none => none

/-- method_body.rs l.96-111: `let fmt = helper.fmt_impls_fn(path); let tmp = ..; helper.fmt(fmt, tmp)`,
where `tmp` has the type `&t`. The arguments are in the order that the parameters `ps` have. -/
def fmtCallWith [DecidableEq T] (ps : List HelperParam) (P : Program T) (p : ExprPath) (t : T) : Bool :=
  match implsFn P .display p with
  | some f =>
    let as := ps.map fun | .function => .function f | .reference => .reference t
    match Infer.args P {} ps as with
    | some st => st.done
    | none => false
  | none => false

def fmtCall [DecidableEq T] (P : Program T) (p : ExprPath) (t : T) : Bool :=
  fmtCallWith fmtParams P p t

/-- method_body.rs l.133-144: `helper.skip_if_impls_fn(path)({ let tmp = ..; tmp })`. -/
def predCall (P : Program T) (p : ExprPath) (t : T) : Bool :=
  match implsFn P .predicate p with
  | some f => match (P.chain t).find? f.head with
    | some u => f.bound u
    | none => false
  | none => false

/-- method_body.rs l.152-157: the content if `::core::option::Option::as_ref(tmp)` can be called; its
parameter is `&Option<_>`. -/
def asRefCall (P : Program T) (t : T) : Option T :=
  match (P.chain t).find? (fun u => (P.option u).isSome) with
  | some u => P.option u
  | none => none

/-- The same as `Typing`. -/
def Program.typing [DecidableEq T] (P : Program T) : Typing T where
  field := P.field
  unOption := asRefCall P
  display := P.display
  fmtOk := fmtCall P
  predOk := predCall P
  constant := P.constant

end Derive
end OAuth
