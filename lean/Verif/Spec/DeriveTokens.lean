import Verif.Spec.DeriveGrammar
import Verif.Model.SynCursor

/-
C88: the attributes on which the macro panics.
-/

namespace OAuth.Spec

open Derive

variable {τ : Type}

/-- Parsing consumes tokens, and an announced `=` can be parsed. (`Lawful` says in addition that an announced
group in parentheses can be parsed.) -/
structure Consuming (S : Syn τ) : Prop where
  eq : ∀ t, S.peekEq t = true → (S.parseEq t).isSome
  pathSize : ∀ t p t', S.parsePath t = some (p, t') → S.size t' < S.size t
  groupSize : ∀ t t', S.parseGroup t = some t' → S.size t' ≤ S.size t
  eqSize : ∀ t t', S.parseEq t = some t' → S.size t' ≤ S.size t
  exprSize : ∀ t e t', S.parseExpr t = some (e, t') → S.size t' ≤ S.size t
  commaSize : ∀ t t', S.parseComma t = some t' → S.size t' ≤ S.size t

/-- After some items and commas comes a path followed by what is announced as a group in parentheses and
cannot be parsed as one. -/
inductive Stuck (S : Syn τ) : τ → Prop
  | here {t p t₁} : S.isEmpty t = false → S.parsePath t = some (p, t₁) → S.peekParen t₁ = true →
      S.parseGroup t₁ = none → Stuck S t
  | later {t m t₁ t₂} : S.isEmpty t = false → ReadsItem S t m t₁ → S.isEmpty t₁ = false →
      S.parseComma t₁ = some t₂ → Stuck S t₂ → Stuck S t

/-- One of the `#[oauth1(..)]` attributes is stuck. -/
def StuckAttribute (S : Syn τ) (attrs : List (Attribute τ)) : Prop :=
  ∃ a ∈ attrs, a.path = { leadingColon := false, segments := [(b!"oauth1", false)] } ∧
    ∃ t, a.args = some t ∧ Stuck S t

/-- The first token that is not an invisible group. -/
inductive FirstVisible : List TT → TT → Prop
  | here {t rest} : (∀ ts, t ≠ .group .none ts) → FirstVisible (t :: rest) t
  | enter {ts rest t} : FirstVisible (ts ++ rest) t → FirstVisible (.group .none ts :: rest) t

/-- The tokens begin with an invisible group, and the first visible token is a group in parentheses. -/
def HiddenParens (t : List TT) : Prop :=
  (∃ ts rest, t = .group .none ts :: rest) ∧ ∃ ts, FirstVisible t (.group .paren ts)

/-- Paths take at least one token, expressions may take any number. -/
def TakesTokens (P : List TT → Option (Path × List TT)) (E : List TT → Option (Expr × List TT)) : Prop :=
  (∀ t p t', P t = some (p, t') → sizeOfTokens t' < sizeOfTokens t) ∧
    ∀ t e t', E t = some (e, t') → sizeOfTokens t' ≤ sizeOfTokens t

/-- After some items and commas comes a path followed by an invisible group in which (or behind which, if
it is empty) the first thing is a group in parentheses. -/
inductive HiddenAfterPath (S : Syn (List TT)) : List TT → Prop
  | here {t p t₁} : t ≠ [] → S.parsePath t = some (p, t₁) → HiddenParens t₁ → HiddenAfterPath S t
  | later {t m t₁ t₂} : t ≠ [] → ReadsItem S t m t₁ → t₁ ≠ [] → S.parseComma t₁ = some t₂ →
      HiddenAfterPath S t₂ → HiddenAfterPath S t

/-- The tokens of some `#[oauth1(..)]` attribute have a hidden group in parentheses after a path. -/
def HiddenIn (S : Syn (List TT)) (attrs : List (Attribute (List TT))) : Prop :=
  ∃ a ∈ attrs, a.path = { leadingColon := false, segments := [(b!"oauth1", false)] } ∧
    ∃ t, a.args = some t ∧ HiddenAfterPath S t

end OAuth.Spec
