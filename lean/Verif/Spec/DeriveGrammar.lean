import Verif.Spec.Derive

/-
What may be written in the parentheses of an `#[oauth1(...)]` attribute, and which structs are in order,
stated without the parser of the macro.
-/

namespace OAuth.Spec

open OAuth.Derive

variable {τ : Type}

/-- The tokens `t` begin with the item `m`, followed by `t'`: a path, alone (`skip`), before a group in
parentheses (`skip(..)`), or before `=` and an expression (`rename = ".."`). -/
inductive ReadsItem (S : Syn τ) : τ → Meta → τ → Prop
  | word {t t' p} : S.parsePath t = some (p, t') → S.peekParen t' = false → S.peekEq t' = false →
      ReadsItem S t ⟨p, .path⟩ t'
  | list {t t₁ t' p} : S.parsePath t = some (p, t₁) → S.peekParen t₁ = true →
      S.parseGroup t₁ = some t' → ReadsItem S t ⟨p, .list⟩ t'
  | nameValue {t t₁ t₂ t' p e} : S.parsePath t = some (p, t₁) → S.peekParen t₁ = false →
      S.peekEq t₁ = true → S.parseEq t₁ = some t₂ → S.parseExpr t₂ = some (e, t') →
      ReadsItem S t ⟨p, .nameValue e⟩ t'

/-- The tokens are these items, separated by commas; a comma may follow the last one. -/
inductive ReadsItems (S : Syn τ) : τ → List Meta → Prop
  | nil {t} : S.isEmpty t = true → ReadsItems S t []
  | last {t t' m} : S.isEmpty t = false → ReadsItem S t m t' → S.isEmpty t' = true → ReadsItems S t [m]
  | more {t t₁ t₂ m ms} : S.isEmpty t = false → ReadsItem S t m t₁ → S.isEmpty t₁ = false →
      S.parseComma t₁ = some t₂ → ReadsItems S t₂ ms → ReadsItems S t (m :: ms)

/-- The attributes of a field are in order: they can be read, every item is one of the six settings
written as it should be, and nothing is set twice. -/
def AttributesInOrder (S : Syn τ) (attrs : List (Attribute τ)) : Prop :=
  AllParse S attrs ∧ (∀ m ∈ attributeItems S attrs, ∃ t, SetsTo m t) ∧
    ((attributeItems S attrs).map Meta.path).Nodup

/-- The field stands for a parameter called `n`: the name it is renamed to, or else its identifier. -/
def DeclaredName (S : Syn τ) (f : SynField τ) (n : Bytes) : Prop :=
  (∃ m ∈ attributeItems S f.attrs, SetsTo m (.rename n)) ∨
    ((∀ m ∈ attributeItems S f.attrs, ∀ n', ¬ SetsTo m (.rename n')) ∧ NameOf f.ident n)

/-- `crate = path`. -/
def IsCrateItem (m : Meta) (p : ExprPath) : Prop :=
  IsIdentPath m.path b!"crate" ∧ m.kind = .nameValue (.path p)
where
  /-- The path is a plain identifier. -/
  IsIdentPath (p : Path) (i : Bytes) : Prop := p = { leadingColon := false, segments := [(i, false)] }

/-- Where the library is found: the path given with `crate = ..`, or else the name that cargo has for it
(the package's own name in its own tests), or `oauth1_request` when not run by cargo. -/
inductive Imports (S : Syn τ) (lookup : CrateLookup) (isIdent : Bytes → Bool)
    (attrs : List (Attribute τ)) : Import → Prop
  | use {m p} : attributeItems S attrs = [m] → IsCrateItem m p →
      Imports S lookup isIdent attrs (.use p)
  | name {k} : attributeItems S attrs = [] → lookup = .name k → isIdent k = true →
      Imports S lookup isIdent attrs (.externCrate k)
  | itself {k} : attributeItems S attrs = [] → lookup = .itself (some k) → isIdent k = true →
      Imports S lookup isIdent attrs (.externCrate k)
  | unknown : attributeItems S attrs = [] → lookup = .manifestDirNotSet →
      isIdent b!"oauth1_request" = true → Imports S lookup isIdent attrs (.externCrate b!"oauth1_request")

end OAuth.Spec
