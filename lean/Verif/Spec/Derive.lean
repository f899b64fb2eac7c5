import Verif.Model.Derive
import Verif.Spec.Calls
import Verif.Spec.PercentEncoding

/-
Specification of `#[derive(Request)]`, after its documentation (oauth1-request/src/lib.rs l.133-206):
what each attribute means, and which serializer call a field leads to.
-/

namespace OAuth.Spec

open OAuth.Derive

/-- One item of an `#[oauth1(...)]` attribute of a field, once understood. -/
inductive Setting
  | encoded
  | fmt (p : ExprPath)
  | option (b : Bool)
  | rename (n : Bytes)
  | skip
  | skipIf (p : ExprPath)
  deriving DecidableEq, Repr

/-- The name of a setting. -/
def Setting.name : Setting → Bytes
  | .encoded => b!"encoded"
  | .fmt _ => b!"fmt"
  | .option _ => b!"option"
  | .rename _ => b!"rename"
  | .skip => b!"skip"
  | .skipIf _ => b!"skip_if"

/-- The right-hand side a setting is written with. -/
def Setting.kind : Setting → MetaKind
  | .encoded => .path
  | .fmt p => .nameValue (.path p)
  | .option b => .nameValue (.litBool b)
  | .rename n => .nameValue (.litStr n)
  | .skip => .path
  | .skipIf p => .nameValue (.path p)

/-- `m` is a well-formed way to write the setting `t`: a plain identifier, the right kind of value, and
names made of unreserved characters. -/
def SetsTo (m : Meta) (t : Setting) : Prop :=
  m.path = { leadingColon := false, segments := [(t.name, false)] } ∧ m.kind = t.kind ∧
    ∀ n, t = .rename n → ∀ b ∈ n, unreserved b = true

/-- `info` is the configuration described by the settings in `has`. -/
structure Configures (has : Setting → Prop) (info : FieldMeta) : Prop where
  encoded : info.encoded = true ↔ has .encoded
  fmt : ∀ p, info.fmt = some p ↔ has (.fmt p)
  option : ∀ b, info.option = some b ↔ has (.option b)
  rename : ∀ n, info.rename = some n ↔ has (.rename n)
  skip : info.skip = true ↔ has .skip
  skipIf : ∀ p, info.skipIf = some p ↔ has (.skipIf p)

/-- The types recognised as options: `Option<T>`, possibly wrapped in the invisible groups left by
`macro_rules!`. -/
inductive OptionType : Ty → Prop
  | plain : OptionType (.path false [(b!"Option", .angleBracketed 1)])
  | group {t : Ty} : OptionType t → OptionType (.group t)

/-- A field is treated as an option if it says so, or says nothing and looks like one. -/
def TreatedAsOption (f : Field) : Prop :=
  f.info.option = some true ∨ (f.info.option = none ∧ OptionType f.ty)

/-- The value of the field that attributes and serializer get to see: the content of an option, or the
field itself. -/
def UnwrapsTo {V : Type} (sc : Scope V) (f : Field) (v u : V) : Prop :=
  (TreatedAsOption f ∧ sc.asRef v = some u) ∨ (¬ TreatedAsOption f ∧ u = v)

/-- The name of the parameter a field stands for. -/
def parameterName (f : Field) : Bytes := f.info.rename.getD f.ident

/-- The text sent for the (unwrapped) value. -/
def shownBy {V : Type} (sc : Scope V) (f : Field) (u : V) : Display :=
  match f.info.fmt with
  | some p => sc.fmt p u
  | none => sc.display u

/-- A field with value `v` is sent as `c`: it is not skipped, has a value, the predicate does not hold
of it, and the call carries the name and the text of the value, encoded by the caller if so marked. -/
def SentAs {V : Type} (sc : Scope V) (f : Field) (v : V) (c : Call) : Prop :=
  f.info.skip = false ∧ ∃ u, UnwrapsTo sc f v u ∧ (∀ p, f.info.skipIf = some p → sc.pred p u = false) ∧
    c = if f.info.encoded then .parameterEncoded (parameterName f) (shownBy sc f u)
        else .parameter (parameterName f) (shownBy sc f u)

/-- The call made for a request parameter, forgetting whether its value is encoded by the caller. -/
def Call.forget : Call → Call
  | .parameterEncoded k v => .parameter k v
  | c => c

/-- The call is about a request parameter (not a protocol parameter). -/
def Call.isRequest : Call → Bool
  | .oauth _ => false
  | _ => true

/-- The facts about `syn` that the macro relies on: what `peek` announces can be parsed, and parsing
consumes tokens. See C88 for token streams on which the first does not hold. -/
structure Lawful {τ : Type} (S : Syn τ) : Prop where
  paren : ∀ t, S.peekParen t = true → (S.parseGroup t).isSome
  eq : ∀ t, S.peekEq t = true → (S.parseEq t).isSome
  pathSize : ∀ t p t', S.parsePath t = some (p, t') → S.size t' < S.size t
  groupSize : ∀ t t', S.parseGroup t = some t' → S.size t' ≤ S.size t
  eqSize : ∀ t t', S.parseEq t = some t' → S.size t' ≤ S.size t
  exprSize : ∀ t e t', S.parseExpr t = some (e, t') → S.size t' ≤ S.size t
  commaSize : ∀ t t', S.parseComma t = some t' → S.size t' ≤ S.size t

/-- A small concrete `syn`, in which paths, groups and expressions are single tokens. -/
inductive Tok
  | path (p : Path)
  | group
  | eq
  | comma
  | expr (e : Expr)
  | junk
  deriving DecidableEq, Repr

/-- Parsing of `Tok` streams. -/
def tokSyn : Syn (List Tok) where
  isEmpty := List.isEmpty
  parsePath | .path p :: t => some (p, t) | _ => none
  peekParen | .group :: _ => true | _ => false
  parseGroup | .group :: t => some t | _ => none
  peekEq | .eq :: _ => true | _ => false
  parseEq | .eq :: t => some t | _ => none
  parseExpr
    | .expr e :: t => some (e, t)
    | .path p :: t => some (match p.getIdent with | some i => .path i | none => .other, t)
    | _ => none
  parseComma | .comma :: t => some t | _ => none
  size := List.length

/-- The tokens of an item. -/
def itemToks (m : Meta) : List Tok :=
  .path m.path :: match m.kind with
    | .path => []
    | .list => [.group]
    | .nameValue e => [.eq, .expr e]

/-- The tokens of a list of items, separated by commas. -/
def listToks : List Meta → List Tok
  | [] => []
  | [m] => itemToks m
  | m :: ms => itemToks m ++ .comma :: listToks ms

/-- The attribute is one of this macro's: it is called `oauth1`, without `::` or generic arguments. -/
def isOauth1 {τ : Type} (a : Attribute τ) : Bool :=
  decide (a.path = { leadingColon := false, segments := [(b!"oauth1", false)] })

/-- The items in the parentheses of an attribute, if `syn` can parse them. -/
def argItems {τ : Type} (S : Syn τ) (a : Attribute τ) : Option (List Meta) :=
  match a.parseArgs S with
  | .ok (.ok ms) => some ms
  | _ => none

/-- Every `#[oauth1(...)]` attribute can be parsed. -/
def AllParse {τ : Type} (S : Syn τ) (attrs : List (Attribute τ)) : Prop :=
  ∀ a ∈ attrs, isOauth1 a = true → (argItems S a).isSome

/-- The items of all `#[oauth1(...)]` attributes, in order. -/
def attributeItems {τ : Type} (S : Syn τ) (attrs : List (Attribute τ)) : List Meta :=
  (attrs.filter isOauth1).flatMap fun a => (argItems S a).getD []

/-- The name an identifier stands for: what follows `r#`, or else the identifier itself. -/
def NameOf (i n : Bytes) : Prop := i = b!"r#" ++ n ∨ (i = n ∧ ∀ m, i ≠ b!"r#" ++ m)

/-- `g` is what the declaration `f` says: the identifier without `r#`, the type, and the settings written
in its attributes. -/
structure Describes {τ : Type} (S : Syn τ) (f : SynField τ) (g : Field) : Prop where
  ident : NameOf f.ident g.ident
  ty : g.ty = f.ty
  parse : AllParse S f.attrs
  info : Configures (fun t => ∃ m ∈ attributeItems S f.attrs, SetsTo m t) g.info

end OAuth.Spec
