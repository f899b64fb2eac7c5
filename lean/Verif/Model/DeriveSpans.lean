import Verif.Model.Derive

/-
oauth1-request-derive: the errors of the macro with their places and texts. `Model/Derive.lean` has the macro
without them; the functions below are the same functions again, with spans (`C89_same` says so).
-/

namespace OAuth
namespace Derive

/-- `proc_macro2::Span`, values of type `σ`. -/
structure SpanOps (σ : Type) where
  /-- `Span::join`, which gives `None` on stable compilers. -/
  join : σ → σ → Option σ
  callSite : σ

/-- meta.rs l.256-259 `join`. -/
def SpanOps.joinOr {σ : Type} (J : SpanOps σ) (first last : σ) : σ := (J.join first last).getD first

/-- `syn::Path` with the text of its tokens (`to_token_stream().to_string()`) and its span. -/
structure SPath (σ : Type) where
  path : Path
  text : Bytes
  span : σ

/-- `syn::Expr` with its span, and the span of the literal if it is one. -/
structure SExpr (σ : Type) where
  expr : Expr
  span : σ
  lit : σ

/-- meta.rs l.165-173 `MetaKind` and `MetaList`. -/
inductive SMetaKind (σ : Type)
  | path
  | list (span : σ)
  | nameValue (e : SExpr σ)

/-- meta.rs l.159-162 `Meta`. -/
structure SMeta (σ : Type) where
  path : SPath σ
  kind : SMetaKind σ

/-- `syn::Error` (one message), with the kind of error of `Model/Derive.lean`. -/
structure SErr (σ : Type) where
  kind : Err
  span : σ
  text : Bytes

variable {τ σ : Type}

/-- An error of `syn`'s parser: place and text. -/
def synErr (e : σ × Bytes) : SErr σ := ⟨.syn, e.1, e.2⟩

/-- meta.rs l.182-190 `Meta::span`. -/
def SMeta.span (J : SpanOps σ) (m : SMeta σ) : σ :=
  match m.kind with
  | .path => m.path.span
  | .list span => span
  | .nameValue e => J.joinOr m.path.span e.span

/-- The operations of `syn::parse::ParseBuffer` used in meta.rs, with the errors of the parser. -/
structure SSyn (τ σ : Type) where
  isEmpty : τ → Bool
  parsePath : τ → Except (σ × Bytes) (SPath σ × τ)
  peekParen : τ → Bool
  parseGroup : τ → Option (σ × τ)
  peekEq : τ → Bool
  parseEq : τ → Option τ
  parseExpr : τ → Except (σ × Bytes) (SExpr σ × τ)
  parseComma : τ → Except (σ × Bytes) τ
  size : τ → Nat

/-- meta.rs l.192-208 `Meta::parse`. -/
def SMeta.parse (J : SpanOps σ) (Y : SSyn τ σ) (input : τ) :
    Except Panic (Except (SErr σ) (SMeta σ × τ)) :=
  match Y.parsePath input with
  | .error e => .ok (.error (synErr e))
  | .ok (path, input) =>
    if Y.peekParen input then
      match Y.parseGroup input with
      | none => .error .derive
      | some (group, input) => .ok (.ok ({ path, kind := .list (J.joinOr path.span group) }, input))
    else if Y.peekEq input then
      match Y.parseEq input with
      | none => .error .derive
      | some input =>
        match Y.parseExpr input with
        | .error e => .ok (.error (synErr e))
        | .ok (e, input) => .ok (.ok ({ path, kind := .nameValue e }, input))
    else .ok (.ok ({ path, kind := .path }, input))

/-- `ParseBuffer::parse_terminated(Meta::parse, Token![,])`. -/
def sparseTerminated (J : SpanOps σ) (Y : SSyn τ σ) :
    Nat → τ → Except Panic (Except (SErr σ) (List (SMeta σ)))
  | 0, _ => .error .fuel
  | fuel + 1, input =>
    if Y.isEmpty input then .ok (.ok [])
    else do
      match ← SMeta.parse J Y input with
      | .error e => .ok (.error e)
      | .ok (m, input) =>
        if Y.isEmpty input then .ok (.ok [m])
        else
          match Y.parseComma input with
          | .error e => .ok (.error (synErr e))
          | .ok input =>
            match ← sparseTerminated J Y fuel input with
            | .error e => .ok (.error e)
            | .ok ms => .ok (.ok (m :: ms))

/-- `syn::Attribute`; `args` is the token stream in the parentheses, or the error `parse_args_with` gives for
an attribute that has none. -/
structure SAttribute (τ σ : Type) where
  path : Path
  args : Except (σ × Bytes) τ

/-- `Attribute::parse_args_with`. -/
def SAttribute.parseArgs (J : SpanOps σ) (Y : SSyn τ σ) (a : SAttribute τ σ) :
    Except Panic (Except (SErr σ) (List (SMeta σ))) :=
  match a.args with
  | .error e => .ok (.error (synErr e))
  | .ok input => sparseTerminated J Y (Y.size input + 1) input

/-- meta.rs l.210-218 `FromExprExt for ExprPath`. -/
def spathFromExpr (e : SExpr σ) : Except (SErr σ) ExprPath :=
  match e.expr with
  | .path p => .ok p
  | _ => .error ⟨.expectedPath, e.span, b!"expected path"⟩

/-- meta.rs l.220-232 `FromExprExt for LitBool`. -/
def sboolFromExpr (e : SExpr σ) : Except (SErr σ) Bool :=
  match e.expr with
  | .litBool b => .ok b
  | _ => .error ⟨.expectedBool, e.span, b!"expected boolean literal"⟩

/-- meta.rs l.234-254 `FromExprExt for UriSafe`; the literal keeps its span. -/
def suriSafeFromExpr (e : SExpr σ) : Except (SErr σ) (Bytes × σ) :=
  match e.expr with
  | .litStr s =>
    if s.all uriSafeByte then .ok (s, e.lit)
    else .error ⟨.notUriSafe, e.lit, b!"parameter name must be URI-safe"⟩
  | _ => .error ⟨.expectedStr, e.span, b!"expected string literal"⟩

/-- meta.rs l.87-91, l.116-120. -/
def duplicateAttr (name : Bytes) (m : SMeta σ) : SErr σ :=
  ⟨.duplicateAttribute name, m.path.span, b!"duplicate attribute `" ++ name ++ b!"`"⟩

/-- meta.rs l.133-136, l.143-146. -/
def unknownAttr (name : Bytes) (m : SMeta σ) : SErr σ :=
  ⟨.unknown, m.path.span, b!"unknown attribute `" ++ name ++ b!"`"⟩

/-- meta.rs l.82-96. -/
def sboolArm (J : SpanOps σ) (name : Bytes) (m : SMeta σ) (current : Bool) : Except (SErr σ) Bool :=
  match m.kind with
  | .path => if current then .error (duplicateAttr name m) else .ok true
  | _ => .error ⟨.expectedWord, m.span J, b!"expected meta word"⟩

/-- meta.rs l.105-125. -/
def svalueArm {α : Type} (J : SpanOps σ) (fromExpr : SExpr σ → Except (SErr σ) α) (name : Bytes)
    (m : SMeta σ) (current : Option α) : Except (SErr σ) (Option α) :=
  match m.kind with
  | .nameValue e => do
    let value ← fromExpr e
    if current.isSome then .error (duplicateAttr name m) else .ok (some value)
  | _ => .error ⟨.expectedNameValue, m.span J, b!"expected name-value meta"⟩

/-- meta.rs l.15-47 `new`, for the given `add_meta`. -/
def snewMeta {μ : Type} (J : SpanOps σ) (Y : SSyn τ σ) (addMeta : μ → SMeta σ → Except (SErr σ) μ) :
    List (SAttribute τ σ) → μ → List (SErr σ) → Except Panic (μ × List (SErr σ))
  | [], ret, cx => .ok (ret, cx)
  | attr :: attrs, ret, cx =>
    if attr.path.getIdent = some b!"oauth1" then do
      match ← attr.parseArgs J Y with
      | .error e => snewMeta J Y addMeta attrs ret (cx ++ [e])
      | .ok list =>
        let (ret, cx) := list.foldl (fun (ret, cx) m =>
          match addMeta ret m with
          | .ok ret => (ret, cx)
          | .error e => (ret, cx ++ [e])) (ret, cx)
        snewMeta J Y addMeta attrs ret cx
    else snewMeta J Y addMeta attrs ret cx

/-- container.rs l.3-7, expanded by meta.rs l.49-58, l.129-147. -/
def ContainerMeta.saddMeta (J : SpanOps σ) (self : ContainerMeta) (m : SMeta σ) :
    Except (SErr σ) ContainerMeta :=
  match m.path.path.getIdent with
  | none => .error (unknownAttr (m.path.text.filter (· != 32)) m)
  | some name =>
    if name = b!"crate" then do
      let v ← svalueArm J spathFromExpr name m self.krate
      .ok { self with krate := v }
    else .error (unknownAttr name m)

/-- field.rs l.16-25 `FieldMeta`; the literal of `rename` has its span. -/
structure SFieldMeta (σ : Type) where
  encoded : Bool := false
  fmt : Option ExprPath := none
  option : Option Bool := none
  rename : Option (Bytes × σ) := none
  skip : Bool := false
  skipIf : Option ExprPath := none

/-- field.rs l.16-25, expanded by meta.rs l.49-58, l.129-147. -/
def SFieldMeta.addMeta (J : SpanOps σ) (self : SFieldMeta σ) (m : SMeta σ) :
    Except (SErr σ) (SFieldMeta σ) :=
  match m.path.path.getIdent with
  | none => .error (unknownAttr (m.path.text.filter (· != 32)) m)
  | some name =>
    if name = b!"encoded" then do
      let v ← sboolArm J name m self.encoded
      .ok { self with encoded := v }
    else if name = b!"fmt" then do
      let v ← svalueArm J spathFromExpr name m self.fmt
      .ok { self with fmt := v }
    else if name = b!"option" then do
      let v ← svalueArm J sboolFromExpr name m self.option
      .ok { self with option := v }
    else if name = b!"rename" then do
      let v ← svalueArm J suriSafeFromExpr name m self.rename
      .ok { self with rename := v }
    else if name = b!"skip" then do
      let v ← sboolArm J name m self.skip
      .ok { self with skip := v }
    else if name = b!"skip_if" then do
      let v ← svalueArm J spathFromExpr name m self.skipIf
      .ok { self with skipIf := v }
    else .error (unknownAttr name m)

/-- `syn::Field` with the span of its identifier. -/
structure SSynField (τ σ : Type) where
  attrs : List (SAttribute τ σ)
  ident : Bytes
  span : σ
  ty : Ty

/-- field.rs l.10-14 `Field`; `unraw` keeps the span of the identifier. -/
structure SField (σ : Type) where
  ident : Bytes
  span : σ
  ty : Ty
  info : SFieldMeta σ

/-- field.rs l.33-40 `Field::new`. -/
def SField.new (J : SpanOps σ) (Y : SSyn τ σ) (f : SSynField τ σ) (cx : List (SErr σ)) :
    Except Panic (SField σ × List (SErr σ)) := do
  let (info, cx) ← snewMeta J Y (SFieldMeta.addMeta J) f.attrs {} cx
  .ok ({ ident := unraw f.ident, span := f.span, ty := f.ty, info }, cx)

/-- field.rs l.43-49 `name` followed by l.63-68 `string_value`. -/
def SField.name (f : SField σ) : Bytes :=
  match f.info.rename with
  | some (n, _) => n
  | none => f.ident

/-- field.rs l.43-49 `name` followed by l.53-58 `span`. -/
def SField.nameSpan (f : SField σ) : σ :=
  match f.info.rename with
  | some (_, s) => s
  | none => f.span

/-- lib.rs l.74-78. -/
def snewFields (J : SpanOps σ) (Y : SSyn τ σ) :
    List (SSynField τ σ) → List (SErr σ) → Except Panic (List (SField σ) × List (SErr σ))
  | [], cx => .ok ([], cx)
  | f :: fs, cx => do
    let (field, cx) ← SField.new J Y f cx
    let (fields, cx) ← snewFields J Y fs cx
    .ok (field :: fields, cx)

/-- `slice::sort_by_cached_key` (std): a stable sort. -/
def sinsertByName (f : SField σ) : List (SField σ) → List (SField σ)
  | [] => [f]
  | g :: gs => if bytesLe f.name g.name then f :: g :: gs else g :: sinsertByName f gs

/-- lib.rs l.80. -/
def ssortByName : List (SField σ) → List (SField σ)
  | [] => []
  | f :: fs => sinsertByName f (ssortByName fs)

/-- lib.rs l.81-88. -/
def scheckDuplicates : List (SField σ) → Bytes → List (SErr σ) → List (SErr σ)
  | [], _, cx => cx
  | f :: fs, prev, cx =>
    scheckDuplicates fs f.name
      (if f.name = prev then
        cx ++ [⟨.duplicateParameter f.name, f.nameSpan, b!"duplicate parameter \"" ++ f.name ++ b!"\""⟩]
       else cx)

/-- lib.rs l.92-118; `failure` is the text of the error if the lookup fails. -/
def simportOf (J : SpanOps σ) (lookup : CrateLookup) (failure : Bytes) (isIdent : Bytes → Bool)
    (info : ContainerMeta) (cx : List (SErr σ)) : Except Panic (Import × List (SErr σ)) :=
  match info.krate with
  | some p => .ok (.use p, cx)
  | none =>
    let ident (k : Bytes) (cx : List (SErr σ)) : Except Panic (Import × List (SErr σ)) :=
      if isIdent k then .ok (.externCrate k, cx) else .error .derive
    match lookup with
    | .name k => ident k cx
    | .itself (some k) => ident k cx
    | .itself none => .error .derive
    | .manifestDirNotSet => ident b!"oauth1_request" cx
    | .failed => ident b!"oauth1_request" (cx ++ [⟨.crateLookup, J.callSite, failure⟩])

/-- `syn::DeriveInput`, with its span. -/
structure SInput (τ σ : Type) where
  attrs : List (SAttribute τ σ)
  fields : Option (List (SSynField τ σ))
  span : σ

/-- lib.rs l.54-165: the errors the macro returns, none if it accepts the struct. -/
def expandErrors (J : SpanOps σ) (Y : SSyn τ σ) (lookup : CrateLookup) (failure : Bytes)
    (isIdent : Bytes → Bool) (input : SInput τ σ) : Except Panic (List (SErr σ)) :=
  match input.fields with
  | none => .ok [⟨.notNamedStruct, input.span, b!"expected a struct with named fields"⟩]
  | some fields => do
    let (fields, cx) ← snewFields J Y fields []
    let fields := ssortByName fields
    let cx := scheckDuplicates fields [] cx
    let (info, cx) ← snewMeta J Y (ContainerMeta.saddMeta J) input.attrs {} cx
    let (_, cx) ← simportOf J lookup failure isIdent info cx
    .ok cx

end Derive
end OAuth
