import Verif.Properties.DeriveAccepts
import Verif.Properties.DeriveErrors
import Verif.Spec.DeriveDocs

/-
C86: the attributes of the derive macro can be used as documented.
-/

namespace OAuth

open Spec Derive

variable {τ : Type}

/-- C86, as the documentation of the macro has it: a struct that follows it is accepted, and the code
finds the library under the name given with `crate = ".."`, or else where `proc_macro_crate` finds it. -/
def C86_claim : Prop :=
  ∀ (τ : Type) (S : Syn τ) (cfg : Cfg) (lookup : CrateLookup) (isIdent : Bytes → Bool)
    (attrs : List (Attribute τ)) (fs : List (SynField τ)) (krate : Option Bytes), Lawful S →
    AsDocumented S attrs fs krate →
    (krate = none → ∃ k, lookup = .name k ∧ isIdent k = true) →
    ∃ i body, expand cfg S lookup isIdent ⟨attrs, some fs⟩ = .ok (.impl i body) ∧
      ∀ n, krate = some n → i = .use n

/-- The documented items are those that `AttributesInOrder` is about. -/
theorem documented_iff (m : Meta) : DocumentedForField m ↔ ∃ t, SetsTo m t := by
  constructor
  · intro h
    cases h with
    | encoded => exact ⟨.encoded, rfl, rfl, by simp⟩
    | fmt p => exact ⟨.fmt p, rfl, rfl, by simp⟩
    | option b => exact ⟨.option b, rfl, rfl, by simp⟩
    | rename n hn => exact ⟨.rename n, rfl, rfl, by rintro n' ⟨⟩; exact hn⟩
    | skip => exact ⟨.skip, rfl, rfl, by simp⟩
    | skipIf p => exact ⟨.skipIf p, rfl, rfl, by simp⟩
  · rintro ⟨t, h1, h2, h3⟩
    obtain ⟨p, k⟩ := m
    simp only at h1 h2
    subst h1 h2
    cases t with
    | encoded => exact .encoded
    | fmt p => exact .fmt p
    | option b => exact .option b
    | rename n => exact .rename n (h3 n rfl)
    | skip => exact .skip
    | skipIf p => exact .skipIf p

/-- C86: exactly when a struct that follows the documentation is accepted: when it does not use the
documented attribute of structs (and the library is found). -/
theorem C86_iff {S : Syn τ} (hS : Lawful S) (cfg : Cfg) (lookup : CrateLookup) (isIdent : Bytes → Bool)
    {attrs : List (Attribute τ)} {fs : List (SynField τ)} {krate : Option Bytes}
    (h : AsDocumented S attrs fs krate) (i : Import) :
    (∃ body, expand cfg S lookup isIdent ⟨attrs, some fs⟩ = .ok (.impl i body)) ↔
      krate = none ∧ Imports S lookup isIdent attrs i := by
  rw [C23_accepted_written cfg hS]
  constructor
  · rintro ⟨-, -, -, -, hi⟩
    refine ⟨?_, hi⟩
    have hc := h.container
    cases krate with
    | none => rfl
    | some n =>
      simp only at hc
      cases hi with
      | use h1 h2 =>
        rw [hc] at h1
        cases h1
        cases h2.2
      | name h1 => rw [hc] at h1; cases h1
      | itself h1 => rw [hc] at h1; cases h1
      | unknown h1 => rw [hc] at h1; cases h1
  · rintro ⟨-, hi⟩
    exact ⟨fun f hf => ⟨h.readable.2 f hf, fun m hm => (documented_iff m).mp (h.items f hf m hm),
      h.once f hf⟩, h.names, h.named, h.readable.1, hi⟩

/-- C86 for structs without attributes of their own. -/
theorem C86_partial {S : Syn τ} (hS : Lawful S) (cfg : Cfg) (isIdent : Bytes → Bool)
    {attrs : List (Attribute τ)} {fs : List (SynField τ)} (h : AsDocumented S attrs fs none)
    (k : Bytes) (hk : isIdent k = true) :
    ∃ body, expand cfg S (.name k) isIdent ⟨attrs, some fs⟩ = .ok (.impl (.externCrate k) body) :=
  (C86_iff hS cfg _ isIdent h _).mpr ⟨rfl, .name h.container rfl hk⟩

/-- C86: of the items that are not documented, nothing is accepted on fields. -/
theorem C86_only_documented {S : Syn τ} (hS : Lawful S) (cfg : Cfg) (lookup : CrateLookup)
    (isIdent : Bytes → Bool) {attrs : List (Attribute τ)} {fs : List (SynField τ)} {i : Import}
    {body : List Stmt} (h : expand cfg S lookup isIdent ⟨attrs, some fs⟩ = .ok (.impl i body)) :
    ∀ f ∈ fs, ∀ m ∈ attributeItems S f.attrs, DocumentedForField m := by
  intro f hf m hm
  exact (documented_iff m).mpr
    (((C23_accepted_written cfg hS lookup isIdent attrs fs i).mp ⟨body, h⟩).1 f hf |>.2.1 m hm)

/-- C86: with the documented attribute, no struct is accepted, whatever its name, its fields and the
other attributes. -/
theorem C86_refused {S : Syn τ} (hS : Lawful S) (cfg : Cfg) (lookup : CrateLookup)
    (isIdent : Bytes → Bool) {attrs : List (Attribute τ)} (fields : Option (List (SynField τ)))
    {n : Bytes} (h : documentedCrate n ∈ attributeItems S attrs) (i : Import) (body : List Stmt) :
    expand cfg S lookup isIdent ⟨attrs, fields⟩ ≠ .ok (.impl i body) := by
  intro hx
  cases fields with
  | none => cases hx
  | some fs =>
    obtain ⟨-, -, -, -, hi⟩ := (C23_accepted_written cfg hS lookup isIdent attrs fs i).mp ⟨body, hx⟩
    cases hi with
    | use h1 h2 =>
      rw [h1, List.mem_singleton] at h
      subst h
      cases h2.2
    | name h1 => rw [h1] at h; cases h
    | itself h1 => rw [h1] at h; cases h
    | unknown h1 => rw [h1] at h; cases h

namespace DocsExample

/-- `CreateItem` of lib.rs l.144-150. -/
def createItem : List (SynField (List Tok)) :=
  [⟨[], b!"name", .other⟩,
    ⟨[oauth1Attr (listToks [nameValue b!"rename" (.litStr b!"type")])], b!"kind",
      .path false [(b!"Option", .angleBracketed 1)]⟩,
    ⟨[oauth1Attr (listToks [nameValue b!"skip_if" (.path b!"str::is_empty")])], b!"note", .other⟩]

/-- `#[oauth1(crate = "oauth")]` -/
def attr : Attribute (List Tok) := oauth1Attr (listToks [nameValue b!"crate" (.litStr b!"oauth")])

/-- `#[oauth1(crate = oauth)]` -/
def pathAttr : Attribute (List Tok) := oauth1Attr (listToks [nameValue b!"crate" (.path b!"oauth")])

theorem declared {f : SynField (List Tok)} {n : Bytes} (hf : f ∈ createItem)
    (h : DeclaredName tokSyn f n) :
    n = if f.ident = b!"kind" then b!"type" else f.ident := by
  simp only [createItem, List.mem_cons, List.not_mem_nil, or_false] at hf
  rcases hf with rfl | rfl | rfl
  · rcases h with ⟨m, hm, -⟩ | ⟨-, h⟩
    · cases hm
    · exact ((nameOf_iff _ _).mp h)
  · have hi : attributeItems tokSyn [oauth1Attr (listToks [nameValue b!"rename" (.litStr b!"type")])] =
      [nameValue b!"rename" (.litStr b!"type")] := by decide
    rcases h with ⟨m, hm, -, hk, -⟩ | ⟨h, -⟩
    · simp only [hi, List.mem_singleton] at hm
      subst hm
      cases hk; rfl
    · exact absurd ⟨rfl, rfl, by rintro n ⟨⟩; decide⟩
        (h (nameValue b!"rename" (.litStr b!"type")) (by simp only [hi]; simp) b!"type")
  · have hi : attributeItems tokSyn
        [oauth1Attr (listToks [nameValue b!"skip_if" (.path b!"str::is_empty")])] =
      [nameValue b!"skip_if" (.path b!"str::is_empty")] := by decide
    rcases h with ⟨m, hm, -, hk, -⟩ | ⟨-, h⟩
    · simp only [hi, List.mem_singleton] at hm
      subst hm
      cases hk
    · exact ((nameOf_iff _ _).mp h)

theorem documented {attrs : List (Attribute (List Tok))} {krate : Option Bytes}
    (ha : AllParse tokSyn attrs) (hc : attributeItems tokSyn attrs = match krate with
      | none => []
      | some n => [documentedCrate n]) : AsDocumented tokSyn attrs createItem krate where
  readable := ⟨ha, by unfold AllParse; decide⟩
  items := by
    have : createItem.flatMap (fun f => attributeItems tokSyn f.attrs) =
      [nameValue b!"rename" (.litStr b!"type"), nameValue b!"skip_if" (.path b!"str::is_empty")] := by
      decide
    intro f hf m hm
    have : m ∈ createItem.flatMap (fun f => attributeItems tokSyn f.attrs) :=
      List.mem_flatMap.mpr ⟨f, hf, hm⟩
    rw [‹createItem.flatMap _ = _›] at this
    simp only [List.mem_cons, List.not_mem_nil, or_false] at this
    rcases this with rfl | rfl
    · exact .rename _ (by decide)
    · exact .skipIf _
  once := by decide
  names := by
    have key : createItem.Pairwise (fun f g =>
        (if f.ident = b!"kind" then b!"type" else f.ident) ≠
          if g.ident = b!"kind" then b!"type" else g.ident) := by decide
    refine List.Pairwise.imp_of_mem ?_ key
    rintro f g hf hg hne n ⟨h1, h2⟩
    exact hne ((declared hf h1).symm.trans (declared hg h2))
  named := by
    have : ∀ f ∈ createItem, (if f.ident = b!"kind" then b!"type" else f.ident) ≠ [] := by decide
    intro f hf h
    exact this f hf (declared hf h).symm
  container := hc

/-- The example of the documentation is accepted. -/
example : ∃ body, expand { debug := false } tokSyn (.name b!"oauth") (fun _ => true)
    ⟨[], some createItem⟩ = .ok (.impl (.externCrate b!"oauth") body) :=
  C86_partial tokSyn_lawful _ _ (documented (krate := none) (by unfold AllParse; decide) rfl) _ rfl

/-- The exact statement for both. -/
example (i : Import) := C86_iff tokSyn_lawful { debug := false } (.name b!"oauth") (fun _ => true)
  (documented (krate := none) (attrs := []) (by unfold AllParse; decide) rfl) i
example (i : Import) := C86_iff tokSyn_lawful { debug := false } (.name b!"oauth") (fun _ => true)
  (documented (krate := some b!"oauth") (attrs := [attr]) (by unfold AllParse; decide) (by decide)) i

/-- With the documented attribute it is refused; the message asks for a path. -/
example : expand { debug := false } tokSyn (.name b!"oauth") (fun _ => true)
    ⟨[attr], some createItem⟩ = .ok (.errors [.expectedPath] true) := rfl

/-- With a path (as in tests/pass.rs l.183) it is accepted. -/
example : ∃ body, expand { debug := false } tokSyn .failed (fun _ => true)
    ⟨[pathAttr], some createItem⟩ = .ok (.impl (.use b!"oauth") body) := ⟨_, rfl⟩

end DocsExample

open DocsExample in
/-- C86 is false: the documented attribute of structs is refused. -/
theorem C86_violated : ¬ C86_claim := by
  intro h
  obtain ⟨i, body, hx, -⟩ := h _ tokSyn { debug := false } (.name b!"oauth") (fun _ => true) [attr]
    createItem (some b!"oauth") tokSyn_lawful (documented (by unfold AllParse; decide) (by decide)) (by simp)
  exact C86_refused tokSyn_lawful _ _ _ _ (n := b!"oauth") (by decide) _ _ hx

end OAuth
