import Verif.Spec.DeriveErrors
import Verif.Model.DeriveSpans

/-
Where the errors of `#[derive(Request)]` point, and what they say (compare tests/ui/attrs.stderr).
-/

namespace OAuth.Spec

open Derive

variable {τ σ : Type}

/-! ### Forgetting spans -/

/-- The right-hand side without spans. -/
def _root_.OAuth.Derive.SMetaKind.erase : SMetaKind σ → MetaKind
  | .path => .path
  | .list _ => .list
  | .nameValue e => .nameValue e.expr

/-- The item without spans. -/
def _root_.OAuth.Derive.SMeta.erase (m : SMeta σ) : Meta := ⟨m.path.path, m.kind.erase⟩

/-- The parser without spans. -/
def _root_.OAuth.Derive.SSyn.erase (Y : SSyn τ σ) : Syn τ where
  isEmpty := Y.isEmpty
  parsePath t := (Y.parsePath t).toOption.map fun r => (r.1.path, r.2)
  peekParen := Y.peekParen
  parseGroup t := (Y.parseGroup t).map Prod.snd
  peekEq := Y.peekEq
  parseEq := Y.parseEq
  parseExpr t := (Y.parseExpr t).toOption.map fun r => (r.1.expr, r.2)
  parseComma t := (Y.parseComma t).toOption
  size := Y.size

/-- The attribute without spans. -/
def _root_.OAuth.Derive.SAttribute.erase (a : SAttribute τ σ) : Attribute τ := ⟨a.path, a.args.toOption⟩

/-- The settings without spans. -/
def _root_.OAuth.Derive.SFieldMeta.erase (i : SFieldMeta σ) : FieldMeta :=
  { encoded := i.encoded, fmt := i.fmt, option := i.option, rename := i.rename.map Prod.fst
    skip := i.skip, skipIf := i.skipIf }

/-- The declaration without spans. -/
def _root_.OAuth.Derive.SSynField.erase (f : SSynField τ σ) : SynField τ :=
  ⟨f.attrs.map SAttribute.erase, f.ident, f.ty⟩

/-- The field without spans. -/
def _root_.OAuth.Derive.SField.erase (f : SField σ) : Field := ⟨f.ident, f.ty, f.info.erase⟩

/-- The struct without spans. -/
def _root_.OAuth.Derive.SInput.erase (i : SInput τ σ) : Input τ :=
  ⟨i.attrs.map SAttribute.erase, i.fields.map fun fs => fs.map SSynField.erase⟩

/-! ### Places and texts -/

/-- The place of a whole item: its path, up to the end of the value if there is one and spans can be
joined. -/
def wholeItem (J : SpanOps σ) (m : SMeta σ) : σ :=
  match m.kind with
  | .path => m.path.span
  | .list s => s
  | .nameValue e => (J.join m.path.span e.span).getD m.path.span

/-- The place of the value, and of the literal that it is. -/
def valuePlace (m : SMeta σ) : σ × σ :=
  match m.kind with
  | .nameValue e => (e.span, e.lit)
  | _ => (m.path.span, m.path.span)

/-- How an unknown path is named: a plain identifier as it is, other paths without spaces. -/
def pathText (p : SPath σ) : Bytes :=
  match p.path with
  | ⟨false, [(i, false)]⟩ => i
  | _ => p.text.filter (· != 32)

/-- Place and text of an error about an item: unknown and repeated names at the path, a missing or superfluous
value at the whole item, a wrong value at the value. -/
def complaint (J : SpanOps σ) (m : SMeta σ) (k : Err) : SErr σ :=
  match k with
  | .unknown => ⟨k, m.path.span, b!"unknown attribute `" ++ pathText m.path ++ b!"`"⟩
  | .duplicateAttribute n => ⟨k, m.path.span, b!"duplicate attribute `" ++ n ++ b!"`"⟩
  | .expectedWord => ⟨k, wholeItem J m, b!"expected meta word"⟩
  | .expectedNameValue => ⟨k, wholeItem J m, b!"expected name-value meta"⟩
  | .expectedPath => ⟨k, (valuePlace m).1, b!"expected path"⟩
  | .expectedBool => ⟨k, (valuePlace m).1, b!"expected boolean literal"⟩
  | .expectedStr => ⟨k, (valuePlace m).1, b!"expected string literal"⟩
  | .notUriSafe => ⟨k, (valuePlace m).2, b!"parameter name must be URI-safe"⟩
  | _ => ⟨k, m.path.span, []⟩

/-- The tokens `t` begin with the item `m`, followed by `t'`: a path, alone, before a group in parentheses (up to
which the item then extends, if spans can be joined), or before `=` and an expression. -/
inductive ItemAt (J : SpanOps σ) (Y : SSyn τ σ) : τ → SMeta σ → τ → Prop
  | word {t t' p} : Y.parsePath t = .ok (p, t') → Y.peekParen t' = false → Y.peekEq t' = false →
      ItemAt J Y t ⟨p, .path⟩ t'
  | list {t t₁ t' p g} : Y.parsePath t = .ok (p, t₁) → Y.peekParen t₁ = true → Y.parseGroup t₁ = some (g, t') →
      ItemAt J Y t ⟨p, .list ((J.join p.span g).getD p.span)⟩ t'
  | nameValue {t t₁ t₂ t' p e} : Y.parsePath t = .ok (p, t₁) → Y.peekParen t₁ = false →
      Y.peekEq t₁ = true → Y.parseEq t₁ = some t₂ → Y.parseExpr t₂ = .ok (e, t') →
      ItemAt J Y t ⟨p, .nameValue e⟩ t'

/-- The tokens do not begin with an item: there is no path, or no expression after `=`, as `syn` says. -/
inductive NoItem (Y : SSyn τ σ) : τ → σ × Bytes → Prop
  | path {t e} : Y.parsePath t = .error e → NoItem Y t e
  | value {t t₁ t₂ p e} : Y.parsePath t = .ok (p, t₁) → Y.peekParen t₁ = false → Y.peekEq t₁ = true →
      Y.parseEq t₁ = some t₂ → Y.parseExpr t₂ = .error e → NoItem Y t e

/-- The tokens are these items, separated by commas (one may follow the last), or have this first error. -/
inductive ItemsAt (J : SpanOps σ) (Y : SSyn τ σ) : τ → Except (σ × Bytes) (List (SMeta σ)) → Prop
  | nil {t} : Y.isEmpty t = true → ItemsAt J Y t (.ok [])
  | last {t t' m} : Y.isEmpty t = false → ItemAt J Y t m t' → Y.isEmpty t' = true → ItemsAt J Y t (.ok [m])
  | more {t t₁ t₂ m ms} : Y.isEmpty t = false → ItemAt J Y t m t₁ → Y.isEmpty t₁ = false →
      Y.parseComma t₁ = .ok t₂ → ItemsAt J Y t₂ (.ok ms) → ItemsAt J Y t (.ok (m :: ms))
  | noItem {t e} : Y.isEmpty t = false → NoItem Y t e → ItemsAt J Y t (.error e)
  | noComma {t t₁ m e} : Y.isEmpty t = false → ItemAt J Y t m t₁ → Y.isEmpty t₁ = false →
      Y.parseComma t₁ = .error e → ItemsAt J Y t (.error e)
  | later {t t₁ t₂ m e} : Y.isEmpty t = false → ItemAt J Y t m t₁ → Y.isEmpty t₁ = false →
      Y.parseComma t₁ = .ok t₂ → ItemsAt J Y t₂ (.error e) → ItemsAt J Y t (.error e)

/-- What is in the `#[oauth1(..)]` attributes, in order: the items of those that can be parsed, and the error
of the parser for each of the others. -/
inductive EntriesOf (J : SpanOps σ) (Y : SSyn τ σ) :
    List (SAttribute τ σ) → List (Except (SErr σ) (SMeta σ)) → Prop
  | nil : EntriesOf J Y [] []
  | other {a as es} : ¬ IsIdent a.path b!"oauth1" → EntriesOf J Y as es → EntriesOf J Y (a :: as) es
  | bare {a as es e} : IsIdent a.path b!"oauth1" → a.args = .error e → EntriesOf J Y as es →
      EntriesOf J Y (a :: as) (.error ⟨.syn, e.1, e.2⟩ :: es)
  | unread {a as es t e} : IsIdent a.path b!"oauth1" → a.args = .ok t → ItemsAt J Y t (.error e) →
      EntriesOf J Y as es → EntriesOf J Y (a :: as) (.error ⟨.syn, e.1, e.2⟩ :: es)
  | items {a as es t ms} : IsIdent a.path b!"oauth1" → a.args = .ok t → ItemsAt J Y t (.ok ms) →
      EntriesOf J Y as es → EntriesOf J Y (a :: as) (ms.map .ok ++ es)

/-- Like `Reports`, with places and texts, and with attributes that cannot be parsed, whose error is passed
on. -/
inductive ReportsAt (J : SpanOps σ) :
    (has : Setting → Prop) → List (Except (SErr σ) (SMeta σ)) → List (SErr σ) → (has' : Setting → Prop) → Prop
  | nil {has} : ReportsAt J has [] [] has
  | unread {has e ms es has'} : ReportsAt J has ms es has' → ReportsAt J has (.error e :: ms) (e :: es) has'
  | sets {has m ms es t has'} : SetsTo m.erase t → (∀ u, has u → u.name ≠ t.name) →
      ReportsAt J (fun u => has u ∨ u = t) ms es has' → ReportsAt J has (.ok m :: ms) es has'
  | repeated {has m ms es t u has'} : SetsTo m.erase t → has u → u.name = t.name →
      ReportsAt J has ms es has' →
      ReportsAt J has (.ok m :: ms) (complaint J m (.duplicateAttribute t.name) :: es) has'
  | wrong {has m ms k es has'} : Wrong m.erase k → ReportsAt J has ms es has' →
      ReportsAt J has (.ok m :: ms) (complaint J m k :: es) has'

/-- The same for the attributes of the struct, of which `crate = path` is the only one. -/
inductive ContainerReports (J : SpanOps σ) :
    Option ExprPath → List (Except (SErr σ) (SMeta σ)) → List (SErr σ) → Option ExprPath → Prop
  | nil {c} : ContainerReports J c [] [] c
  | unread {c e ms es c'} : ContainerReports J c ms es c' →
      ContainerReports J c (.error e :: ms) (e :: es) c'
  | sets {m ms es p c'} : IsIdent m.path.path b!"crate" → m.erase.kind = .nameValue (.path p) →
      ContainerReports J (some p) ms es c' → ContainerReports J none (.ok m :: ms) es c'
  | repeated {m ms es p q c'} : IsIdent m.path.path b!"crate" → m.erase.kind = .nameValue (.path p) →
      ContainerReports J (some q) ms es c' →
      ContainerReports J (some q) (.ok m :: ms) (complaint J m (.duplicateAttribute b!"crate") :: es) c'
  | unknown {c m ms es c'} : ¬ IsIdent m.path.path b!"crate" → ContainerReports J c ms es c' →
      ContainerReports J c (.ok m :: ms) (complaint J m .unknown :: es) c'
  | nameValue {c m ms es c'} : IsIdent m.path.path b!"crate" → (∀ e, m.erase.kind ≠ .nameValue e) →
      ContainerReports J c ms es c' →
      ContainerReports J c (.ok m :: ms) (complaint J m .expectedNameValue :: es) c'
  | path {c m e ms es c'} : IsIdent m.path.path b!"crate" → m.erase.kind = .nameValue e →
      (∀ p, e ≠ .path p) → ContainerReports J c ms es c' →
      ContainerReports J c (.ok m :: ms) (complaint J m .expectedPath :: es) c'

/-- The item writes a name for the parameter. -/
def Renames (e : Except (SErr σ) (SMeta σ)) : Prop := ∃ m n, e = .ok m ∧ SetsTo m.erase (.rename n)

/-- The field's name and its place: the literal of the first `rename = ".."` among its attributes, or else
its identifier. -/
inductive NameAt (f : SSynField τ σ) (es : List (Except (SErr σ) (SMeta σ))) : Bytes → σ → Prop
  | renamed {es₁ es₂ m n} : es = es₁ ++ .ok m :: es₂ → (∀ e ∈ es₁, ¬ Renames e) →
      SetsTo m.erase (.rename n) → NameAt f es n (valuePlace m).2
  | ident {n} : (∀ e ∈ es, ¬ Renames e) → NameOf f.ident n → NameAt f es n f.span

/-- Those with a name that one before them has, or that is in `seen`. -/
def later {α : Type} (name : α → Bytes) : List Bytes → List α → List α
  | _, [] => []
  | seen, g :: gs => if name g ∈ seen then g :: later name seen gs else later name (name g :: seen) gs

/-- The error about a second parameter of a name, given with its place. -/
def duplicateAt (g : Bytes × σ) : SErr σ :=
  ⟨.duplicateParameter g.1, g.2, b!"duplicate parameter \"" ++ g.1 ++ b!"\""⟩

/-- The fields, each read on its own: their names with places, and the errors about them. -/
inductive FieldsRead (J : SpanOps σ) (Y : SSyn τ σ) :
    List (SSynField τ σ) → List (Bytes × σ) → List (SErr σ) → Prop
  | nil : FieldsRead J Y [] [] []
  | cons {f fs n s ns ents es es' has} : EntriesOf J Y f.attrs ents → ReportsAt J (fun _ => False) ents es has →
      NameAt f ents n s → FieldsRead J Y fs ns es' →
      FieldsRead J Y (f :: fs) ((n, s) :: ns) (es ++ es')

/-- All errors about a struct with the fields `fs`: those about the fields; one at each further field of a
name that an earlier field has (or of the empty name), sorted by name; those about the attributes of the
struct; and one at the call if the crate must be looked up and this fails. -/
inductive ErrorsOf (J : SpanOps σ) (Y : SSyn τ σ) (lookup : CrateLookup) (failure : Bytes)
    (attrs : List (SAttribute τ σ)) (fs : List (SSynField τ σ)) : List (SErr σ) → Prop
  | intro {ns ents es₁ es₃ k} {ds : List (Bytes × σ)} : FieldsRead J Y fs ns es₁ →
      ds.Pairwise (fun a b => bytesLe a.1 b.1 = true) →
      (∀ n, ds.filter (fun d => d.1 = n) = (later Prod.fst [[]] ns).filter fun d => d.1 = n) →
      EntriesOf J Y attrs ents → ContainerReports J none ents es₃ k →
      ErrorsOf J Y lookup failure attrs fs (es₁ ++ ds.map duplicateAt ++ es₃ ++
        if lookup = .failed ∧ k = none then [⟨.crateLookup, J.callSite, failure⟩] else [])

end OAuth.Spec
