import Verif.Spec.Derive

/-
The errors `#[derive(Request)]` reports for the attributes of a field (compare tests/ui/attrs.stderr).
-/

namespace OAuth.Spec

open OAuth.Derive

/-- The path is the plain identifier. -/
def IsIdent (p : Path) (i : Bytes) : Prop := p = { leadingColon := false, segments := [(i, false)] }

/-- The item is not a well-formed setting, for the reason given. -/
inductive Wrong : Meta → Err → Prop
  | unknown {m : Meta} : (∀ t : Setting, ¬ IsIdent m.path t.name) → Wrong m .unknown
  | word {m : Meta} : IsIdent m.path b!"encoded" ∨ IsIdent m.path b!"skip" → m.kind ≠ .path →
      Wrong m .expectedWord
  | nameValue {m : Meta} : IsIdent m.path b!"fmt" ∨ IsIdent m.path b!"option" ∨
      IsIdent m.path b!"rename" ∨ IsIdent m.path b!"skip_if" → (∀ e, m.kind ≠ .nameValue e) →
      Wrong m .expectedNameValue
  | path {m : Meta} {e : Expr} : IsIdent m.path b!"fmt" ∨ IsIdent m.path b!"skip_if" →
      m.kind = .nameValue e → (∀ p, e ≠ .path p) → Wrong m .expectedPath
  | bool {m : Meta} {e : Expr} : IsIdent m.path b!"option" → m.kind = .nameValue e →
      (∀ b, e ≠ .litBool b) → Wrong m .expectedBool
  | str {m : Meta} {e : Expr} : IsIdent m.path b!"rename" → m.kind = .nameValue e →
      (∀ s, e ≠ .litStr s) → Wrong m .expectedStr
  | notSafe {m : Meta} {s : Bytes} : IsIdent m.path b!"rename" → m.kind = .nameValue (.litStr s) →
      (∃ b ∈ s, unreserved b = false) → Wrong m .notUriSafe

/-- Reading the items in order, when the settings in `has` have been made: a well-formed item makes its
setting, unless one of this name was made before, which is reported; any other item is reported. Reading
goes on in each case. The second list holds the reports, `has'` the settings in the end. -/
inductive Reports : (has : Setting → Prop) → List Meta → List Err → (has' : Setting → Prop) → Prop
  | nil {has} : Reports has [] [] has
  | sets {has m ms es t has'} : SetsTo m t → (∀ u, has u → u.name ≠ t.name) →
      Reports (fun u => has u ∨ u = t) ms es has' → Reports has (m :: ms) es has'
  | repeated {has m ms es t u has'} : SetsTo m t → has u → u.name = t.name →
      Reports has ms es has' → Reports has (m :: ms) (.duplicateAttribute t.name :: es) has'
  | wrong {has m ms e es has'} : Wrong m e → Reports has ms es has' →
      Reports has (m :: ms) (e :: es) has'

end OAuth.Spec
