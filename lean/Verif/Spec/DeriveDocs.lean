import Verif.Spec.DeriveGrammar

/-
The attributes of the derive macro as its documentation has them (oauth1-request/src/lib.rs l.161-206).
-/

namespace OAuth.Spec

open OAuth.Derive

variable {τ : Type}

/-- `name`, alone or with a value. -/
def docItem (name : Bytes) (kind : MetaKind) : Meta :=
  ⟨{ leadingColon := false, segments := [(name, false)] }, kind⟩

/-- lib.rs l.161-193, "Field attributes". -/
inductive DocumentedForField : Meta → Prop
  /-- `#[oauth1(encoded)]` -/
  | encoded : DocumentedForField (docItem b!"encoded" .path)
  /-- `#[oauth1(fmt = path)]` -/
  | fmt (p : ExprPath) : DocumentedForField (docItem b!"fmt" (.nameValue (.path p)))
  /-- `#[oauth1(option = true)]` (or `#[oauth1(option = false)]`) -/
  | option (b : Bool) : DocumentedForField (docItem b!"option" (.nameValue (.litBool b)))
  /-- `#[oauth1(rename = "name")]`; "the given string must be URI-safe". -/
  | rename (n : Bytes) : (∀ b ∈ n, unreserved b = true) →
      DocumentedForField (docItem b!"rename" (.nameValue (.litStr n)))
  /-- `#[oauth1(skip)]` -/
  | skip : DocumentedForField (docItem b!"skip" .path)
  /-- `#[oauth1(skip_if = path)]` -/
  | skipIf (p : ExprPath) : DocumentedForField (docItem b!"skip_if" (.nameValue (.path p)))

/-- lib.rs l.195-206, "Container attributes": `#[oauth1(crate = "name")]`. -/
def documentedCrate (name : Bytes) : Meta := docItem b!"crate" (.nameValue (.litStr name))

/-- The struct uses the macro as documented: the attributes of its fields are documented ones, none of
them given twice to the same field, the names of the parameters are distinct and not empty, and the
attribute of the struct, if there is one, is the documented one with the name `krate`. -/
structure AsDocumented (S : Syn τ) (attrs : List (Attribute τ)) (fs : List (SynField τ))
    (krate : Option Bytes) : Prop where
  readable : AllParse S attrs ∧ ∀ f ∈ fs, AllParse S f.attrs
  items : ∀ f ∈ fs, ∀ m ∈ attributeItems S f.attrs, DocumentedForField m
  once : ∀ f ∈ fs, ((attributeItems S f.attrs).map Meta.path).Nodup
  names : fs.Pairwise (fun f g => ∀ n, ¬ (DeclaredName S f n ∧ DeclaredName S g n))
  named : ∀ f ∈ fs, ¬ DeclaredName S f []
  container : attributeItems S attrs = match krate with
    | none => []
    | some n => [documentedCrate n]

end OAuth.Spec
