import Verif.Model.Macros

/-
What the macros of util.rs are for, by their doc comments, without expanding them.
-/

namespace OAuth.Spec

open OAuth.Macros

/-- The parameters the compiler keeps where `#[cfg(…)]` may stand before a parameter. -/
def keptParams (build : Bytes → Bool) (params : List (Option ParamAttr × TypeParam)) : List TypeParam :=
  (params.filter fun
    | (some (.cfg p), _) => p.eval build
    | _ => true).map (·.2)

/-- The items of the input, each with the attributes before it; `none` if attributes are left over. -/
inductive Grouped : List Piece → List (List Attr × Bytes) → Prop
  | nil : Grouped [] []
  | item (attrs : List Attr) (i : Bytes) {rest : List Piece} {items : List (List Attr × Bytes)} :
      Grouped rest items → Grouped (attrs.map .attr ++ .item i :: rest) ((attrs, i) :: items)

/-- An attribute the macro adds: `#[cfg_attr(docsrs, doc(cfg(…)))]`. -/
def Attr.isDocCfg : Attr → Bool
  | .docCfg _ => true
  | _ => false

/-- The predicates of `#[cfg(…)]`. -/
def cfgPreds (attrs : List Attr) : List Pred :=
  attrs.filterMap fun | .cfg p => some p | _ => none

/-- The predicates of `#[doc(cfg(…))]`. -/
def docCfgPreds (attrs : List Attr) : List Pred :=
  attrs.filterMap fun | .docCfg p => some p | _ => none

/-- Whether the compiler keeps an item with these attributes. -/
def present (build : Bytes → Bool) (attrs : List Attr) : Bool :=
  (cfgPreds attrs).all fun p => p.eval build

/-- The type of the value assigned by a setter is that of its field. -/
def SetterTyped (field : FieldTy) (s : Setter) : Prop :=
  match field, s.arg, s.into with
  | .option t, .intoOption u, true => t = u
  | .bool, .bool, false => True
  | _, _, _ => False

/-- The setters compile. -/
def SettersCompile (decl : List (Bytes × FieldTy) × List Setter) : Prop :=
  ∀ s ∈ decl.2, ∃ f ∈ decl.1, f.1 = s.name ∧ SetterTyped f.2 s

end OAuth.Spec
