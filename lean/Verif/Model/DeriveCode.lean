import Verif.Model.Derive

/-!
# The generated method body, binding by binding

`Model/Derive.lean` renders the code generated for a field by one statement whose operands are places.
This file renders the tokens themselves: blocks, `let`s, identifiers with their hygiene, and the paths
given in attributes, together with a dynamic and a static semantics of that fragment of Rust.
(oauth1-request-derive/src/method_body.rs l.23-181, method_body/helper.rs l.36-78)

Simplifications: spans matter only through their hygiene; the type arguments inferred for the helper
functions are not represented, a function fits a use or does not (`Typing`); a pattern that is a constant
counts as an error, although it could match a value of a type with only one value.
-/

namespace OAuth
namespace Derive

/-- An identifier: its text and the syntax context of its span. Local variables are hygienic (the Rust
Reference, "Macros By Example", Hygiene): a use refers to a binding of the same text and context. -/
structure Id where
  name : Bytes
  ctx : Nat
  deriving DecidableEq, Repr

/-- `Ident::new(name, Span::mixed_site())`: `0` stands for the context of this expansion. -/
def mixedSite (name : Bytes) : Id := ⟨name, 0⟩

/-- Contexts of the tokens that come from the item: the type of a field (`f.ty.span()`), and the paths
in its attributes. -/
structure Spans where
  ty : Field → Nat
  fmt : Field → Nat
  skipIf : Field → Nat

/-- Generated expressions. -/
inductive RExpr
  | var (x : Id)
  /-- A path from an attribute; `ctx` is the context of its first segment. -/
  | path (p : ExprPath) (ctx : Nat)
  /-- `&x.ident` -/
  | addrOfField (x : Id) (ident : Bytes)
  /-- `::core::option::Option::as_ref(e)` -/
  | asRef (e : RExpr)
  /-- `{ struct DeriveRequestAssertion; #fmt #skip_if DeriveRequestAssertion }` -/
  | newHelper (fmt skipIf : Bool)
  /-- `h.fmt_impls_fn(e)` -/
  | fmtImplsFn (h : Id) (e : RExpr)
  /-- `h.fmt(f, e)` -/
  | fmt (h : Id) (f e : RExpr)
  /-- `h.skip_if_impls_fn(e)` -/
  | skipIfImplsFn (h : Id) (e : RExpr)
  /-- `f(e)` -/
  | call (f e : RExpr)
  | not (e : RExpr)
  /-- `{ let x = e; body }` -/
  | letIn (x : Id) (e body : RExpr)
  deriving DecidableEq, Repr

/-- Generated statements in sequence. A `let` scopes over the statements after it. -/
inductive Code
  | nil
  | letS (x : Id) (e : RExpr) (rest : Code)
  /-- `ser.serialize_oauth_x();` -/
  | oauth (ser : Id) (p : OAuthParameter) (rest : Code)
  /-- `ser.serialize_parameter(name, e);` or `serialize_parameter_encoded` -/
  | parameter (ser : Id) (encoded : Bool) (name : Bytes) (e : RExpr) (rest : Code)
  /-- `if c { body }` -/
  | ite (c : RExpr) (body rest : Code)
  /-- `if let ::core::option::Option::Some(x) = e { body }` -/
  | ifLet (x : Id) (e : RExpr) (body rest : Code)
  /-- `{ body }` -/
  | block (body rest : Code)
  /-- `ser.end()`, the value of the method body. -/
  | fin (ser : Id)
  deriving DecidableEq, Repr

/-- `TokenStream::extend`: the statements of the second argument come after those of the first, within
the scope of its bindings. -/
def Code.append : Code → Code → Code
  | .nil, d => d
  | .letS x e rest, d => .letS x e (rest.append d)
  | .oauth ser p rest, d => .oauth ser p (rest.append d)
  | .parameter ser enc name e rest, d => .parameter ser enc name e (rest.append d)
  | .ite c body rest, d => .ite c body (rest.append d)
  | .ifLet x e body rest, d => .ifLet x e body (rest.append d)
  | .block body rest, d => .block body (rest.append d)
  | .fin ser, _ => .fin ser

/-- method_body.rs l.25. -/
def this : Id := mixedSite b!"self"
/-- method_body.rs l.26. -/
def serId : Id := mixedSite b!"serializer"
/-- method_body.rs l.27. -/
def helperId : Id := mixedSite b!"helper"
/-- method_body.rs l.29. -/
def bindId : Id := mixedSite b!"value"

/-- method_body.rs l.73-168: the tokens for one field, from `ty_is_option` on; l.64 for `tmp`. -/
def fieldCode (sp : Spans) (f : Field) : Code :=
  let tmp : Id := ⟨b!"tmp", sp.ty f⟩
  let tyIsOption := f.info.option.getD (isOption f.ty)
  let unwrapped : RExpr := if tyIsOption then .var bindId else .addrOfField this f.ident
  let stmts : Code := .letS tmp unwrapped .nil
  let (stmts, display) : Code × RExpr := match f.info.fmt with
    | some fmt =>
      let fmt : RExpr := .fmtImplsFn helperId (.path fmt (sp.fmt f))
      (.letS (mixedSite b!"fmt") fmt stmts, .fmt helperId (.var (mixedSite b!"fmt")) (.var tmp))
    | none => (stmts, .var tmp)
  let stmts := stmts.append (.parameter serId f.info.encoded f.name display .nil)
  let stmts := match f.info.skipIf with
    | some p =>
      let skipIf : RExpr := .skipIfImplsFn helperId (.path p (sp.skipIf f))
      .ite (.not (.call skipIf (.letIn tmp unwrapped (.var tmp)))) stmts .nil
    | none => stmts
  let stmts := if tyIsOption then
      .ifLet bindId (.letIn tmp (.addrOfField this f.ident) (.asRef (.var tmp))) stmts .nil
    else stmts
  if f.info.skipIf.isNone && !tyIsOption then .block stmts .nil else stmts

/-- method_body.rs l.67-69, l.172-174: `#ser.#next_param();`, with util.rs l.24-32, which `expect`s a
parameter. -/
def oauthCode (p : OAuthParameter) : Except Panic Code :=
  match p with
  | .none => .error .derive
  | p => .ok (.oauth serId p .nil)

/-- method_body.rs l.66-71. -/
def codeLess (cfg : Cfg) (name : Bytes) :
    Nat → OAuthParameter → Code → Except Panic (OAuthParameter × Code)
  | 0, _, _ => .error .fuel
  | fuel + 1, p, tokens =>
    if p.ltStr name then do
      let t ← oauthCode p
      let p ← p.next cfg
      codeLess cfg name fuel p (tokens.append t)
    else .ok (p, tokens)

/-- method_body.rs l.55-169. -/
def codeFields (cfg : Cfg) (sp : Spans) :
    List Field → OAuthParameter → Code → Except Panic (OAuthParameter × Code)
  | [], p, tokens => .ok (p, tokens)
  | f :: fs, p, tokens =>
    if f.info.skip then codeFields cfg sp fs p tokens
    else do
      let (p, tokens) ← codeLess cfg f.name 9 p tokens
      codeFields cfg sp fs p (tokens.append (fieldCode sp f))

/-- method_body.rs l.171-176. -/
def codeRest (cfg : Cfg) : Nat → OAuthParameter → Code → Except Panic Code
  | 0, _, _ => .error .fuel
  | fuel + 1, p, tokens =>
    if p ≠ .none then do
      let t ← oauthCode p
      let p ← p.next cfg
      codeRest cfg fuel p (tokens.append t)
    else .ok tokens

/-- method_body.rs l.23-181 `MethodBody::to_tokens`. -/
def methodCode (cfg : Cfg) (sp : Spans) (fields : List Field) : Except Panic Code := do
  let hasFmt := fields.any (fun f => f.info.fmt.isSome)
  let hasSkipIf := fields.any (fun f => f.info.skipIf.isSome)
  let tokens : Code := if hasFmt || hasSkipIf
    then .letS helperId (.newHelper hasFmt hasSkipIf) .nil else .nil
  let (p, tokens) ← codeFields cfg sp fields .default tokens
  let tokens ← codeRest cfg 9 p tokens
  .ok (tokens.append (.fin serId))

/-- The tokens the macro returns. -/
inductive CodeExpansion
  /-- `compile_error!`s; `fallback` tells whether an `unimplemented!()` impl is added. -/
  | errors (es : List Err) (fallback : Bool)
  /-- An `impl Request` with the given method body. -/
  | impl (import_ : Import) (code : Code)
  deriving DecidableEq, Repr

/-- lib.rs l.54-165 `expand_derive_oauth1_authorize`, like `expand` but with the tokens of the method. -/
def expandCode {τ : Type} (cfg : Cfg) (S : Syn τ) (sp : Spans) (lookup : CrateLookup)
    (isIdent : Bytes → Bool) (input : Input τ) : Except Panic CodeExpansion :=
  match input.fields with
  | none => .ok (.errors [.notNamedStruct] false)
  | some fields => do
    let (fields, cx) ← newFields S fields []
    let fields := sortByName fields
    let cx := checkDuplicates fields [] cx
    let (info, cx) ← ContainerMeta.new S input.attrs cx
    let (import_, cx) ← importOf lookup isIdent info cx
    if cx ≠ [] then .ok (.errors cx true)
    else do
      let code ← methodCode cfg sp fields
      .ok (.impl import_ code)

/-! ### Running it -/

/-- Values of the fragment. `V` is the type of what references point at. -/
inductive RVal (V : Type)
  | this
  | ser
  /-- `DeriveRequestAssertion`, with the methods of `FmtHelper` and of `SkipIfHelper` if they are
  included. -/
  | helper (fmt skipIf : Bool)
  | ref (v : V)
  | opt (o : Option V)
  /-- What a path means outside the generated code. -/
  | item (p : ExprPath)
  | fmtFn (g : V → Display)
  | predFn (g : V → Bool)
  | disp (d : Display)
  | bool (b : Bool)

/-- Local variables in scope, the innermost first. -/
abbrev Env (α : Type) := List (Id × α)

/-- Name resolution of local variables. -/
def Env.get {α : Type} : Env α → Id → Option α
  | [], _ => none
  | (y, v) :: env, x => if x = y then some v else Env.get env x

/-- Evaluation; an error means that the code is not valid Rust. A path of one segment that is the name of
a local variable in scope refers to that variable. -/
def RExpr.eval {V : Type} (sc : Scope V) (self : Bytes → V) : Env (RVal V) → RExpr → Except Panic (RVal V)
  | env, .var x => match env.get x with
    | some v => .ok v
    | none => .error .derive
  | env, .path p ctx => match env.get ⟨p, ctx⟩ with
    | some v => .ok v
    | none => .ok (.item p)
  | env, .addrOfField x ident => match env.get x with
    | some .this => .ok (.ref (self ident))
    | _ => .error .derive
  | env, .asRef e => do
    match ← e.eval sc self env with
    | .ref v => .ok (.opt (sc.asRef v))
    | _ => .error .derive
  | _, .newHelper a b => .ok (.helper a b)
  | env, .fmtImplsFn h e => do
    -- helper.rs l.60-65
    match env.get h, ← e.eval sc self env with
    | some (.helper true _), .item p => .ok (.fmtFn (sc.fmt p))
    | _, _ => .error .derive
  | env, .fmt h f e => do
    -- helper.rs l.39-58: a `Display` that calls `f` on the reference
    match env.get h, ← f.eval sc self env, ← e.eval sc self env with
    | some (.helper true _), .fmtFn g, .ref v => .ok (.disp (g v))
    | _, _, _ => .error .derive
  | env, .skipIfImplsFn h e => do
    -- helper.rs l.71-76
    match env.get h, ← e.eval sc self env with
    | some (.helper _ true), .item p => .ok (.predFn (sc.pred p))
    | _, _ => .error .derive
  | env, .call f e => do
    match ← f.eval sc self env, ← e.eval sc self env with
    | .predFn g, .ref v => .ok (.bool (g v))
    | _, _ => .error .derive
  | env, .not e => do
    match ← e.eval sc self env with
    | .bool b => .ok (.bool !b)
    | _ => .error .derive
  | env, .letIn x e body => do
    let v ← e.eval sc self env
    body.eval sc self ((x, v) :: env)

/-- The value passed to a method of the serializer, as a `Display`. -/
def RVal.shown {V : Type} (sc : Scope V) : RVal V → Except Panic Display
  | .ref v => .ok (sc.display v)
  | .disp d => .ok d
  | _ => .error .derive

/-- The serializer a variable refers to. -/
def Env.isSer {V : Type} (env : Env (RVal V)) (x : Id) : Except Panic Unit :=
  match env.get x with
  | some .ser => .ok ()
  | _ => .error .derive

/-- Runs statements; the result is the state of the serializer, and whether `end` was reached. -/
def Code.exec {V σ ω : Type} (sc : Scope V) (self : Bytes → V) (S : Serializer σ ω) :
    Env (RVal V) → Code → σ → M (σ × Bool)
  | _, .nil, s => pure (s, false)
  | env, .letS x e rest, s => do
    let v ← e.eval sc self env
    rest.exec sc self S ((x, v) :: env) s
  | env, .oauth ser p rest, s => do
    env.isSer ser
    let s ← p.serialize S s
    rest.exec sc self S env s
  | env, .parameter ser encoded name e rest, s => do
    env.isSer ser
    let v ← e.eval sc self env
    let d ← v.shown sc
    let s ← if encoded then S.parameterEncoded s name d else S.parameter s name d
    rest.exec sc self S env s
  | env, .ite c body rest, s => do
    match ← c.eval sc self env with
    | .bool true => do
      let (s, _) ← body.exec sc self S env s
      rest.exec sc self S env s
    | .bool false => rest.exec sc self S env s
    | _ => throw .derive
  | env, .ifLet x e body rest, s => do
    match ← e.eval sc self env with
    | .opt (some v) => do
      let (s, _) ← body.exec sc self S ((x, .ref v) :: env) s
      rest.exec sc self S env s
    | .opt none => rest.exec sc self S env s
    | _ => throw .derive
  | env, .block body rest, s => do
    let (s, _) ← body.exec sc self S env s
    rest.exec sc self S env s
  | env, .fin ser, s => do
    env.isSer ser
    pure (s, true)

/-- lib.rs l.156-161: `fn serialize<_S>(&self, mut serializer: _S) -> _S::Output` around the body, whose
value is that of the final `serializer.end()`. -/
def codeRequest {V : Type} (sc : Scope V) (self : Bytes → V) (code : Code) : Request := ⟨fun S s => do
  let (s, fin) ← code.exec sc self S [(serId, .ser), (this, .this)] s
  if fin then S.end s else throw .derive⟩

/-! ### Type checking it -/

/-- What the compiler knows about the types and functions the item mentions. `T` is the type of types. -/
structure Typing (T : Type) where
  /-- Declared types of the fields. -/
  field : Bytes → T
  /-- `U` if the type is `Option<U>` (or one whose references coerce to `&Option<U>`). -/
  unOption : T → Option T
  /-- Whether the type implements `Display`. -/
  display : T → Bool
  /-- Whether the path names a function that is `Fn(&U, &mut Formatter) -> fmt::Result` for some `U`
  such that `&T` coerces to `&U`. -/
  fmtOk : ExprPath → T → Bool
  /-- Whether the path names a function that is `Fn(&U) -> bool` for some `U` such that `&T` coerces to
  `&U`. -/
  predOk : ExprPath → T → Bool
  /-- Whether the name, where the item is, is that of a constant, a static, or a unit or tuple struct.
  An identifier pattern of that name is no binding (the Rust Reference, "Identifier patterns"; the
  hygiene of `Span::mixed_site()` does not extend to items). -/
  constant : Bytes → Bool

/-- Types of expressions of the fragment. -/
inductive TVal (T : Type)
  | this
  | ser
  | helper (fmt skipIf : Bool)
  /-- `&T` -/
  | ref (t : T)
  /-- `Option<&T>` -/
  | opt (t : T)
  /-- The type of a function item. -/
  | item (p : ExprPath)
  | fmtFn (p : ExprPath)
  | predFn (p : ExprPath)
  /-- `Fmt<&T, F>`. -/
  | disp
  | bool

variable {T : Type}

/-- The type of an expression, if it has one. -/
def RExpr.type (Γ : Typing T) : Env (TVal T) → RExpr → Option (TVal T)
  | env, .var x => env.get x
  | env, .path p ctx => match env.get ⟨p, ctx⟩ with
    | some v => some v
    | none => some (.item p)
  | env, .addrOfField x ident => match env.get x with
    | some .this => some (.ref (Γ.field ident))
    | _ => none
  | env, .asRef e => match e.type Γ env with
    | some (.ref t) => (Γ.unOption t).map .opt
    | _ => none
  | _, .newHelper a b =>
    -- helper.rs l.46, l.54, l.60, l.71: the functions have parameters `f` and `t`
    if ((a || b) && Γ.constant b!"f") || (a && Γ.constant b!"t") then none else some (.helper a b)
  | env, .fmtImplsFn h e => match env.get h, e.type Γ env with
    | some (.helper true _), some (.item p) => some (.fmtFn p)
    | _, _ => none
  | env, .fmt h f e => match env.get h, f.type Γ env, e.type Γ env with
    | some (.helper true _), some (.fmtFn p), some (.ref t) => if Γ.fmtOk p t then some .disp else none
    | _, _, _ => none
  | env, .skipIfImplsFn h e => match env.get h, e.type Γ env with
    | some (.helper _ true), some (.item p) => some (.predFn p)
    | _, _ => none
  | env, .call f e => match f.type Γ env, e.type Γ env with
    | some (.predFn p), some (.ref t) => if Γ.predOk p t then some .bool else none
    | _, _ => none
  | env, .not e => match e.type Γ env with
    | some .bool => some .bool
    | _ => none
  | env, .letIn x e body => match e.type Γ env with
    | some t => if Γ.constant x.name then none else body.type Γ ((x, t) :: env)
    | none => none

/-- The bound `V: Display` of the methods of `Serializer` (oauth1-request/src/serializer.rs l.111-125). -/
def TVal.shown (Γ : Typing T) : TVal T → Bool
  | .ref t => Γ.display t
  | .disp => true
  | _ => false

/-- Whether a variable is the serializer. -/
def Env.hasSer (env : Env (TVal T)) (x : Id) : Bool :=
  match env.get x with
  | some .ser => true
  | _ => false

/-- Whether statements type-check. -/
def Code.check (Γ : Typing T) : Env (TVal T) → Code → Bool
  | _, .nil => true
  | env, .letS x e rest => match e.type Γ env with
    | some t => !Γ.constant x.name && rest.check Γ ((x, t) :: env)
    | none => false
  | env, .oauth ser _ rest => env.hasSer ser && rest.check Γ env
  | env, .parameter ser _ _ e rest => env.hasSer ser && (match e.type Γ env with
    | some t => t.shown Γ
    | none => false) && rest.check Γ env
  | env, .ite c body rest => (match c.type Γ env with
    | some .bool => true
    | _ => false) && body.check Γ env && rest.check Γ env
  | env, .ifLet x e body rest => (match e.type Γ env with
    | some (.opt t) => !Γ.constant x.name && body.check Γ ((x, .ref t) :: env)
    | _ => false) && rest.check Γ env
  | env, .block body rest => body.check Γ env && rest.check Γ env
  | env, .fin ser => env.hasSer ser

/-- The generated method type-checks. -/
def Code.typechecks (Γ : Typing T) (code : Code) : Bool :=
  !Γ.constant serId.name && code.check Γ [(serId, .ser), (this, .this)]

end Derive
end OAuth
