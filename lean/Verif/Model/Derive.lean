import Verif.Model.Request

/-
oauth1-request-derive: the macro `#[derive(Request)]`.

The macro is modelled from the syntax tree `syn` hands to it down to the method body it generates, and
the generated statements have an interpreter (`Stmt.exec`). Spans are left out; the generic parameters of
the `impl` are in `Model/DeriveItem.lean`.
-/

namespace OAuth
namespace Derive

/-- `syn::Path`: each segment is an identifier and whether it carries generic arguments. -/
structure Path where
  leadingColon : Bool := false
  segments : List (Bytes × Bool)
  deriving DecidableEq, Repr

/-- `syn::Path::get_ident`: the path is a single plain identifier. -/
def Path.getIdent (p : Path) : Option Bytes :=
  match p.leadingColon, p.segments with
  | false, [(i, false)] => some i
  | _, _ => none

/-- A path used as an expression (`syn::ExprPath`), known by its text. -/
abbrev ExprPath := Bytes

/-- `syn::Expr`, as far as the macro distinguishes expressions. -/
inductive Expr
  | path (p : ExprPath)
  | litBool (b : Bool)
  | litStr (s : Bytes)
  /-- `Expr::Group`: an expression that came through a variable of a `macro_rules!` macro. -/
  | group (e : Expr)
  | other
  deriving DecidableEq, Repr

/-- meta.rs l.165-169 `MetaKind`. -/
inductive MetaKind
  | path
  | list
  | nameValue (e : Expr)
  deriving DecidableEq, Repr

/-- meta.rs l.159-162 `Meta`. -/
structure Meta where
  path : Path
  kind : MetaKind
  deriving DecidableEq, Repr

/-- The error messages of the macro. -/
inductive Err
  /-- An error reported by `syn`'s parser. -/
  | syn
  /-- meta.rs l.135, l.143: unknown attribute. -/
  | unknown
  /-- meta.rs l.84: expected meta word. -/
  | expectedWord
  /-- meta.rs l.109: expected name-value meta. -/
  | expectedNameValue
  /-- meta.rs l.215: expected path. -/
  | expectedPath
  /-- meta.rs l.229: expected boolean literal. -/
  | expectedBool
  /-- meta.rs l.242: expected string literal. -/
  | expectedStr
  /-- meta.rs l.248: parameter name must be URI-safe. -/
  | notUriSafe
  /-- meta.rs l.87, l.116: duplicate attribute. -/
  | duplicateAttribute (name : Bytes)
  /-- lib.rs l.85: duplicate parameter. -/
  | duplicateParameter (name : Bytes)
  /-- lib.rs l.110: the lookup of the crate failed. -/
  | crateLookup
  /-- lib.rs l.61: expected a struct with named fields. -/
  | notNamedStruct
  deriving DecidableEq, Repr

/-- ctxt.rs l.7-33 `Ctxt`: the errors collected so far, in order (`Error::combine` appends). -/
abbrev Ctxt := List Err

/-- ctxt.rs l.16-22 `add_error`. -/
def Ctxt.addError (cx : Ctxt) (e : Err) : Ctxt := cx ++ [e]

/-! ### meta.rs: parsing -/

/-- The operations of `syn::parse::ParseBuffer` used in meta.rs, on token streams `τ`. -/
structure Syn (τ : Type) where
  isEmpty : τ → Bool
  parsePath : τ → Option (Path × τ)
  peekParen : τ → Bool
  parseGroup : τ → Option τ
  peekEq : τ → Bool
  parseEq : τ → Option τ
  parseExpr : τ → Option (Expr × τ)
  parseComma : τ → Option τ
  /-- Number of tokens left. -/
  size : τ → Nat

variable {τ : Type}

/-- meta.rs l.192-208 `Meta::parse`. The inner `Except` is `syn::Result`, the outer one panics. -/
def Meta.parse (S : Syn τ) (input : τ) : Except Panic (Except Err (Meta × τ)) :=
  match S.parsePath input with
  | none => .ok (.error .syn)
  | some (path, input) =>
    if S.peekParen input then
      match S.parseGroup input with
      | none => .error .derive
      | some input => .ok (.ok ({ path, kind := .list }, input))
    else if S.peekEq input then
      match S.parseEq input with
      | none => .error .derive
      | some input =>
        match S.parseExpr input with
        | none => .ok (.error .syn)
        | some (e, input) => .ok (.ok ({ path, kind := .nameValue e }, input))
    else .ok (.ok ({ path, kind := .path }, input))

/-- `ParseBuffer::parse_terminated(Meta::parse, Token![,])` (syn: items separated by commas, with an
optional comma at the end). -/
def parseTerminated (S : Syn τ) : Nat → τ → Except Panic (Except Err (List Meta))
  | 0, _ => .error .fuel
  | fuel + 1, input =>
    if S.isEmpty input then .ok (.ok [])
    else do
      match ← Meta.parse S input with
      | .error e => .ok (.error e)
      | .ok (m, input) =>
        if S.isEmpty input then .ok (.ok [m])
        else
          match S.parseComma input with
          | none => .ok (.error .syn)
          | some input =>
            match ← parseTerminated S fuel input with
            | .error e => .ok (.error e)
            | .ok ms => .ok (.ok (m :: ms))

/-- `syn::Attribute`: `args` is the token stream in the parentheses, if the attribute has that form. -/
structure Attribute (τ : Type) where
  path : Path
  args : Option τ

/-- `Attribute::parse_args_with`. -/
def Attribute.parseArgs (S : Syn τ) (a : Attribute τ) : Except Panic (Except Err (List Meta)) :=
  match a.args with
  | none => .ok (.error .syn)
  | some input => parseTerminated S (S.size input + 1) input

/-- meta.rs l.210-218 `FromExprExt for ExprPath`. -/
def pathFromExpr : Expr → Except Err ExprPath
  | .path p => .ok p
  | _ => .error .expectedPath

/-- meta.rs l.220-232 `FromExprExt for LitBool`. -/
def boolFromExpr : Expr → Except Err Bool
  | .litBool b => .ok b
  | _ => .error .expectedBool

/-- meta.rs l.246: the bytes accepted in a parameter name. -/
def uriSafeByte (b : UInt8) : Bool :=
  (48 ≤ b && b ≤ 57) || (65 ≤ b && b ≤ 90) || (97 ≤ b && b ≤ 122) || b == 45 || b == 46 || b == 95
    || b == 126

/-- meta.rs l.234-254 `FromExprExt for UriSafe`. -/
def uriSafeFromExpr : Expr → Except Err Bytes
  | .litStr s => if s.all uriSafeByte then .ok s else .error .notUriSafe
  | _ => .error .expectedStr

/-- meta.rs l.82-96: the arm of `add_meta` for a field of type `bool`; the result is the new value. -/
def boolArm (name : Bytes) (kind : MetaKind) (current : Bool) : Except Err Bool :=
  match kind with
  | .path => if current then .error (.duplicateAttribute name) else .ok true
  | _ => .error .expectedWord

/-- meta.rs l.105-125: the arm of `add_meta` for a field of type `Option<T>`. -/
def valueArm {α : Type} (fromExpr : Expr → Except Err α) (name : Bytes) (kind : MetaKind)
    (current : Option α) : Except Err (Option α) :=
  match kind with
  | .nameValue e => do
    let value ← fromExpr e
    if current.isSome then .error (.duplicateAttribute name) else .ok (some value)
  | _ => .error .expectedNameValue

/-- meta.rs l.15-47 `new`, for the given `add_meta`: the loop over the attributes. -/
def newMeta {μ : Type} (S : Syn τ) (addMeta : μ → Meta → Except Err μ) :
    List (Attribute τ) → μ → Ctxt → Except Panic (μ × Ctxt)
  | [], ret, cx => .ok (ret, cx)
  | attr :: attrs, ret, cx =>
    if attr.path.getIdent = some b!"oauth1" then do
      match ← attr.parseArgs S with
      | .error e => newMeta S addMeta attrs ret (cx.addError e)
      | .ok list =>
        let (ret, cx) := list.foldl (fun (ret, cx) m =>
          match addMeta ret m with
          | .ok ret => (ret, cx)
          | .error e => (ret, cx.addError e)) (ret, cx)
        newMeta S addMeta attrs ret cx
    else newMeta S addMeta attrs ret cx

/-! ### container.rs, field.rs -/

/-- container.rs l.3-7 `ContainerMeta`. -/
structure ContainerMeta where
  krate : Option ExprPath := none
  deriving DecidableEq, Repr

/-- container.rs l.3-7, expanded by meta.rs l.49-58. -/
def ContainerMeta.addMeta (self : ContainerMeta) (m : Meta) : Except Err ContainerMeta :=
  match m.path.getIdent with
  | none => .error .unknown
  | some name =>
    if name = b!"crate" then do
      let v ← valueArm pathFromExpr name m.kind self.krate
      .ok { self with krate := v }
    else .error .unknown

/-- field.rs l.16-25 `FieldMeta`. -/
structure FieldMeta where
  encoded : Bool := false
  fmt : Option ExprPath := none
  option : Option Bool := none
  rename : Option Bytes := none
  skip : Bool := false
  skipIf : Option ExprPath := none
  deriving DecidableEq, Repr

/-- field.rs l.16-25, expanded by meta.rs l.49-58. -/
def FieldMeta.addMeta (self : FieldMeta) (m : Meta) : Except Err FieldMeta :=
  match m.path.getIdent with
  | none => .error .unknown
  | some name =>
    if name = b!"encoded" then do
      let v ← boolArm name m.kind self.encoded
      .ok { self with encoded := v }
    else if name = b!"fmt" then do
      let v ← valueArm pathFromExpr name m.kind self.fmt
      .ok { self with fmt := v }
    else if name = b!"option" then do
      let v ← valueArm boolFromExpr name m.kind self.option
      .ok { self with option := v }
    else if name = b!"rename" then do
      let v ← valueArm uriSafeFromExpr name m.kind self.rename
      .ok { self with rename := v }
    else if name = b!"skip" then do
      let v ← boolArm name m.kind self.skip
      .ok { self with skip := v }
    else if name = b!"skip_if" then do
      let v ← valueArm pathFromExpr name m.kind self.skipIf
      .ok { self with skipIf := v }
    else .error .unknown

/-- meta.rs l.15-47 for field.rs l.16-25. -/
def FieldMeta.new (S : Syn τ) (attrs : List (Attribute τ)) (cx : Ctxt) :
    Except Panic (FieldMeta × Ctxt) :=
  newMeta S FieldMeta.addMeta attrs {} cx

/-- meta.rs l.15-47 for container.rs l.3-7. -/
def ContainerMeta.new (S : Syn τ) (attrs : List (Attribute τ)) (cx : Ctxt) :
    Except Panic (ContainerMeta × Ctxt) :=
  newMeta S ContainerMeta.addMeta attrs {} cx

/-- `syn::PathArguments`. -/
inductive PathArgs
  | none
  | angleBracketed (count : Nat)
  | parenthesized
  deriving DecidableEq, Repr

/-- `syn::Type`, as far as method_body.rs l.183-202 looks into it. -/
inductive Ty
  | group (elem : Ty)
  | path (leadingColon : Bool) (segments : List (Bytes × PathArgs))
  | other
  deriving DecidableEq, Repr

/-- `syn::Field` of a struct with named fields (its `ident` is `Some`, so that the `unwrap` in field.rs
l.38 succeeds); the identifier may be a raw one (`r#type`). -/
structure SynField (τ : Type) where
  attrs : List (Attribute τ)
  ident : Bytes
  ty : Ty

/-- `IdentExt::unraw` (syn): removes a leading `r#`. -/
def unraw : Bytes → Bytes
  | 114 :: 35 :: rest => rest
  | i => i

/-- field.rs l.10-14 `Field`. -/
structure Field where
  ident : Bytes
  ty : Ty
  info : FieldMeta
  deriving DecidableEq, Repr

/-- field.rs l.33-40 `Field::new`. -/
def Field.new (S : Syn τ) (f : SynField τ) (cx : Ctxt) : Except Panic (Field × Ctxt) := do
  let (info, cx) ← FieldMeta.new S f.attrs cx
  .ok ({ ident := unraw f.ident, ty := f.ty, info }, cx)

/-- field.rs l.43-49 `name` followed by l.63-68 `string_value`. -/
def Field.name (f : Field) : Bytes :=
  match f.info.rename with
  | some n => n
  | none => f.ident

/-! ### method_body.rs -/

/-- The expression `#unwrapped` (method_body.rs l.80-84). -/
inductive Place
  /-- `value`, bound by the enclosing `if let`. -/
  | bound
  /-- `&self.ident`. -/
  | field (ident : Bytes)
  deriving DecidableEq, Repr

/-- The expression `#display` (method_body.rs l.98-114). -/
inductive Shown
  | plain (p : Place)
  | formatted (fmt : ExprPath) (p : Place)
  deriving DecidableEq, Repr

/-- Generated statements. -/
inductive Stmt
  /-- `serializer.serialize_oauth_x();` -/
  | oauth (p : OAuthParameter)
  /-- `serializer.serialize_parameter(name, display);` or `serialize_parameter_encoded`. -/
  | parameter (encoded : Bool) (name : Bytes) (display : Shown)
  /-- `if !pred(arg) { body }` -/
  | unlessPred (pred : ExprPath) (arg : Place) (body : Stmt)
  /-- `if let Some(value) = Option::as_ref(&self.ident) { body }` -/
  | ifSome (ident : Bytes) (body : Stmt)
  deriving DecidableEq, Repr

/-- method_body.rs l.183-202 `is_option`. -/
def isOption : Ty → Bool
  | .group t => isOption t
  | .path leadingColon segments =>
    !leadingColon &&
      match segments with
      | [(i, args)] => i == b!"Option" && (match args with
        | .angleBracketed n => n == 1
        | .none => false
        | .parenthesized => false)
      | _ => false
  | .other => false

/-- method_body.rs l.73-168: the statements for one field, from `ty_is_option` on. -/
def fieldStmt (f : Field) : Stmt :=
  let tyIsOption := f.info.option.getD (isOption f.ty)
  let unwrapped := if tyIsOption then .bound else .field f.ident
  let display : Shown := match f.info.fmt with
    | some fmt => .formatted fmt unwrapped
    | none => .plain unwrapped
  let stmts := Stmt.parameter f.info.encoded f.name display
  let stmts := match f.info.skipIf with
    | some p => .unlessPred p unwrapped stmts
    | none => stmts
  if tyIsOption then .ifSome f.ident stmts else stmts

/-- util.rs l.24-32 `ToTokens for OAuthParameter`: `expect` on `None`. -/
def oauthTokens (p : OAuthParameter) : Except Panic Stmt :=
  match p with
  | .none => .error .derive
  | p => .ok (.oauth p)

/-- method_body.rs l.66-71. -/
def genLess (cfg : Cfg) (name : Bytes) :
    Nat → OAuthParameter → List Stmt → Except Panic (OAuthParameter × List Stmt)
  | 0, _, _ => .error .fuel
  | fuel + 1, p, tokens =>
    if p.ltStr name then do
      let t ← oauthTokens p
      let p ← p.next cfg
      genLess cfg name fuel p (tokens ++ [t])
    else .ok (p, tokens)

/-- method_body.rs l.55-169. -/
def genFields (cfg : Cfg) :
    List Field → OAuthParameter → List Stmt → Except Panic (OAuthParameter × List Stmt)
  | [], p, tokens => .ok (p, tokens)
  | f :: fs, p, tokens =>
    if f.info.skip then genFields cfg fs p tokens
    else do
      let (p, tokens) ← genLess cfg f.name 9 p tokens
      genFields cfg fs p (tokens ++ [fieldStmt f])

/-- method_body.rs l.171-176. -/
def genRest (cfg : Cfg) : Nat → OAuthParameter → List Stmt → Except Panic (List Stmt)
  | 0, _, _ => .error .fuel
  | fuel + 1, p, tokens =>
    if p ≠ .none then do
      let t ← oauthTokens p
      let p ← p.next cfg
      genRest cfg fuel p (tokens ++ [t])
    else .ok tokens

/-- method_body.rs l.23-181 `MethodBody::to_tokens`; the final `serializer.end()` is implicit. -/
def methodBody (cfg : Cfg) (fields : List Field) : Except Panic (List Stmt) := do
  let (p, tokens) ← genFields cfg fields .default []
  genRest cfg 9 p tokens

/-! ### lib.rs -/

/-- `slice::sort_by_cached_key` (std): a stable sort; there is only one stable result. -/
def insertByName (f : Field) : List Field → List Field
  | [] => [f]
  | g :: gs => if bytesLe f.name g.name then f :: g :: gs else g :: insertByName f gs

/-- lib.rs l.80. -/
def sortByName : List Field → List Field
  | [] => []
  | f :: fs => insertByName f (sortByName fs)

/-- lib.rs l.81-88: the fold that reports duplicates. -/
def checkDuplicates : List Field → Bytes → Ctxt → Ctxt
  | [], _, cx => cx
  | f :: fs, prev, cx =>
    checkDuplicates fs f.name
      (if f.name = prev then cx.addError (.duplicateParameter f.name) else cx)

/-- `proc_macro_crate::crate_name("oauth1-request")` and the environment of the compiler. -/
inductive CrateLookup
  | name (k : Bytes)
  /-- `FoundCrate::Itself`, with the value of `CARGO_CRATE_NAME`. -/
  | itself (crateName : Option Bytes)
  | manifestDirNotSet
  | failed
  deriving DecidableEq, Repr

/-- lib.rs l.92-118: what the generated `use`/`extern crate` item imports. -/
inductive Import
  | use (p : ExprPath)
  | externCrate (k : Bytes)
  deriving DecidableEq, Repr

/-- lib.rs l.92-118. `isIdent` is the test of `Ident::new`, which panics otherwise. -/
def importOf (lookup : CrateLookup) (isIdent : Bytes → Bool) (info : ContainerMeta) (cx : Ctxt) :
    Except Panic (Import × Ctxt) :=
  match info.krate with
  | some p => .ok (.use p, cx)
  | none =>
    let ident (k : Bytes) (cx : Ctxt) : Except Panic (Import × Ctxt) :=
      if isIdent k then .ok (.externCrate k, cx) else .error .derive
    match lookup with
    | .name k => ident k cx
    | .itself (some k) => ident k cx
    | .itself none => .error .derive
    | .manifestDirNotSet => ident b!"oauth1_request" cx
    | .failed => ident b!"oauth1_request" (cx.addError .crateLookup)

/-- `syn::DeriveInput`: attributes of the item, and its fields if it is a struct with named fields. -/
structure Input (τ : Type) where
  attrs : List (Attribute τ)
  fields : Option (List (SynField τ))

/-- The tokens the macro returns. -/
inductive Expansion
  /-- `compile_error!`s; `fallback` tells whether an `unimplemented!()` impl is added. -/
  | errors (es : List Err) (fallback : Bool)
  /-- An `impl Request` with the given method body. -/
  | impl (import_ : Import) (body : List Stmt)
  deriving DecidableEq, Repr

/-- lib.rs l.74-78: `Field::new` on each field, in order of declaration. -/
def newFields (S : Syn τ) : List (SynField τ) → Ctxt → Except Panic (List Field × Ctxt)
  | [], cx => .ok ([], cx)
  | f :: fs, cx => do
    let (field, cx) ← Field.new S f cx
    let (fields, cx) ← newFields S fs cx
    .ok (field :: fields, cx)

/-- lib.rs l.54-165 `expand_derive_oauth1_authorize`. -/
def expand (cfg : Cfg) (S : Syn τ) (lookup : CrateLookup) (isIdent : Bytes → Bool) (input : Input τ) :
    Except Panic Expansion :=
  match input.fields with
  | none => .ok (.errors [.notNamedStruct] false)
  | some fields => do
    let (fields, cx) ← newFields S fields []
    let fields := sortByName fields
    let cx := checkDuplicates fields [] cx
    let (info, cx) ← ContainerMeta.new S input.attrs cx
    let (import_, cx) ← importOf lookup isIdent info cx
    if cx ≠ [] then .ok (.errors cx true)
    else do
      let body ← methodBody cfg fields
      .ok (.impl import_ body)

/-! ### Running the generated code -/

/-- What the names in the generated code stand for, on values of type `V`: the `Display` implementation
of a value, `Option::as_ref` (on values that are options), and the functions the `fmt` and `skip_if`
paths resolve to (through helper.rs l.36-67, l.69-78, which only forward).

Simplification: predicates return, and depend on the value only. -/
structure Scope (V : Type) where
  display : V → Display
  asRef : V → Option V
  fmt : ExprPath → V → Display
  pred : ExprPath → V → Bool

variable {V : Type}

/-- Value of `#unwrapped`; `self` maps (unraw) field names to field values. -/
def Place.eval (self : Bytes → V) (bound : Option V) : Place → Except Panic V
  | .bound => match bound with
    | some v => .ok v
    | none => .error .derive
  | .field i => .ok (self i)

/-- Value of `#display`. -/
def Shown.eval (sc : Scope V) (self : Bytes → V) (bound : Option V) : Shown → Except Panic Display
  | .plain p => (p.eval self bound).map sc.display
  | .formatted f p => (p.eval self bound).map (sc.fmt f)

/-- Runs a generated statement. -/
def Stmt.exec {σ ω : Type} (sc : Scope V) (self : Bytes → V) (S : Serializer σ ω) :
    Option V → Stmt → σ → M σ
  | _, .oauth p, s => p.serialize S s
  | bound, .parameter encoded name display, s => do
    let d ← display.eval sc self bound
    if encoded then S.parameterEncoded s name d else S.parameter s name d
  | bound, .unlessPred p arg body, s => do
    let v ← arg.eval self bound
    if sc.pred p v then pure s else body.exec sc self S bound s
  | _, .ifSome ident body, s =>
    match sc.asRef (self ident) with
    | some v => body.exec sc self S (some v) s
    | none => pure s

/-- Runs a sequence of statements. -/
def execAll {σ ω : Type} (sc : Scope V) (self : Bytes → V) (S : Serializer σ ω) :
    List Stmt → σ → M σ
  | [], s => pure s
  | t :: ts, s => do
    let s ← t.exec sc self S none s
    execAll sc self S ts s

/-- The generated `impl Request`, on the struct whose fields have the values `self`. -/
def request (sc : Scope V) (self : Bytes → V) (body : List Stmt) : Request := ⟨fun S s => do
  let s ← execAll sc self S body s
  S.end s⟩

end Derive
end OAuth
