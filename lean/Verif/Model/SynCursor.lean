import Verif.Model.Derive

/-
External crate `syn` (version 2): the part of its token cursor behind the operations meta.rs l.192-208
uses, so that the invisible groups around the variables of a `macro_rules!` macro are seen.

How paths and expressions are parsed is left open (`parsePath`, `parseExpr`).
-/

namespace OAuth
namespace Derive

/-- `proc_macro2::Delimiter`; `none` encloses what came through a variable of a `macro_rules!` macro. -/
inductive Delim
  | paren
  | brace
  | bracket
  | none
  deriving DecidableEq, Repr

/-- `proc_macro2::TokenTree`. -/
inductive TT
  | ident (s : Bytes)
  | punct (c : UInt8)
  | lit (s : Bytes)
  | group (d : Delim) (ts : List TT)
  deriving Repr

mutual
/-- Number of tokens. -/
def TT.size : TT → Nat
  | .group _ ts => 1 + sizeOfTokens ts
  | _ => 1
/-- Number of tokens. -/
def sizeOfTokens : List TT → Nat
  | [] => 0
  | t :: ts => t.size + sizeOfTokens ts
end

theorem sizeOfTokens_append (a b : List TT) : sizeOfTokens (a ++ b) = sizeOfTokens a + sizeOfTokens b := by
  induction a with
  | nil => simp [sizeOfTokens]
  | cons x a ih => simp [sizeOfTokens, ih, Nat.add_assoc]

/-- `syn::buffer::Cursor::ignore_none`: enters invisible groups. A cursor at the end of a group it entered
in this way goes on behind the group. -/
def ignoreNone : List TT → List TT
  | .group .none ts :: rest => ignoreNone (ts ++ rest)
  | t => t
termination_by t => sizeOfTokens t
decreasing_by simp [sizeOfTokens_append, sizeOfTokens, TT.size]

/-- `syn`: `peek(token::Paren)`, by `Cursor::group(Delimiter::Parenthesis)`. -/
def peekParen (t : List TT) : Bool :=
  match ignoreNone t with
  | .group .paren _ :: _ => true
  | _ => false

/-- `syn`: `<Group as Parse>::parse`. By `Cursor::any_group_token` (`strict`) it sees the invisible groups
and refuses them; in older versions of the crate it tried `Cursor::group` with each of the delimiters. -/
def parseGroup (strict : Bool) (t : List TT) : Option (List TT) :=
  match if strict then t else ignoreNone t with
  | .group d _ :: rest => if d = .none then none else some rest
  | _ => none

/-- `syn`: `<Token![c] as Parse>::parse` for a single character, by `Cursor::punct`. -/
def parsePunct (c : UInt8) (t : List TT) : Option (List TT) :=
  match ignoreNone t with
  | .punct c' :: rest => if c' = c then some rest else none
  | _ => none

/-- `syn::parse::ParseBuffer` on token trees. -/
def cursorSyn (strict : Bool) (parsePath : List TT → Option (Path × List TT))
    (parseExpr : List TT → Option (Expr × List TT)) : Syn (List TT) where
  isEmpty := List.isEmpty
  parsePath := parsePath
  peekParen := peekParen
  parseGroup := parseGroup strict
  peekEq t := (parsePunct 61 t).isSome
  parseEq := parsePunct 61
  parseExpr := parseExpr
  parseComma := parsePunct 44
  size := sizeOfTokens

end Derive
end OAuth
