import Verif.Properties.DeriveNames

/-
C74: the `impl` that `#[derive(Request)]` generates along with errors gives no errors of its own.
-/

namespace OAuth

open Spec Derive

variable {τ : Type}

theorem expandItem_errors_iff (cfg : Cfg) (S : Syn τ) (lookup : CrateLookup) (isIdent : Bytes → Bool)
    (item : Derive.Item τ) (es : List Err) (h : ImplHeader) :
    expandItem cfg S lookup isIdent item = .ok (.errors es (some h)) ↔
      expand cfg S lookup isIdent item.toInput = .ok (.errors es true) ∧
        h = implHeader item.name item.generics b!"S" := by
  unfold expandItem
  cases expand cfg S lookup isIdent item.toInput with
  | error e => simp [bind, Except.bind]
  | ok x => cases x with
    | impl j b => simp [bind, Except.bind]
    | errors es' fb =>
      cases fb
      · simp [bind, Except.bind]
      · simp [bind, Except.bind, eq_comm]

/-- The names in the header of the `impl`. -/
def outerNames (t : Texts) (h : ImplHeader) : List NameUse :=
  (h.params.flatMap fun p => p.texts.flatMap fun x =>
    (t x).map fun n => ⟨.declaration, n, outerRibs h⟩) ++
  [⟨.generated, b!"_oauth1_request", outerRibs h⟩, ⟨.struct_, h.self_, outerRibs h⟩] ++
  h.params.flatMap (GenericParam.argUse (outerRibs h)) ++
  (h.whereClause.flatMap fun x => (t x).map fun n => ⟨.declaration, n, outerRibs h⟩)

theorem outerNames_generated {t : Texts} {h : ImplHeader} {u : NameUse} (hu : u ∈ outerNames t h)
    (hr : u.role = .generated) : u = ⟨.generated, b!"_oauth1_request", outerRibs h⟩ := by
  unfold outerNames at hu
  rcases List.mem_append.mp hu with hu | hu
  · rcases List.mem_append.mp hu with hu | hu
    · rcases List.mem_append.mp hu with hu | hu
      · obtain ⟨p, -, hu⟩ := List.mem_flatMap.mp hu
        obtain ⟨x, -, hu⟩ := List.mem_flatMap.mp hu
        obtain ⟨n, -, rfl⟩ := List.mem_map.mp hu
        cases hr
      · simp only [List.mem_cons, List.not_mem_nil, or_false] at hu
        rcases hu with rfl | rfl
        · rfl
        · cases hr
    · obtain ⟨p, -, hu⟩ := List.mem_flatMap.mp hu
      cases p <;> simp [GenericParam.argUse] at hu <;> subst hu <;> cases hr
  · obtain ⟨x, -, hu⟩ := List.mem_flatMap.mp hu
    obtain ⟨n, -, rfl⟩ := List.mem_map.mp hu
    cases hr

/-- The names in the fallback are in order if and only if those in the header of an accepted struct are. -/
theorem fallback_names (t : Texts) (sur : Surroundings) (name : Bytes) (g : Generics) :
    NoCaptureInFallback sur g (fallbackNames t (implHeader name g b!"S")) ↔
      NoCapture sur g (itemNames t (implHeader name g b!"_S") .nil) := by
  have split : ∀ m, itemNames t (implHeader name g m) .nil = outerNames t (implHeader name g m) ++
      [⟨.generated, m, innerRibs (implHeader name g m)⟩, ⟨.generated, m, innerRibs (implHeader name g m)⟩,
        ⟨.generated, m, innerRibs (implHeader name g m)⟩,
        ⟨.generated, b!"_oauth1_request", innerRibs (implHeader name g m)⟩] ++ [] := fun _ => rfl
  have same : outerNames t (implHeader name g b!"S") = outerNames t (implHeader name g b!"_S") := rfl
  have own : ∀ m : Bytes, (⟨.generated, m, innerRibs (implHeader name g m)⟩ : NameUse).meaning sur =
      .param .method m := by
    intro m; simp [NameUse.meaning, innerRibs, lookup, implHeader]
  have imp : ∀ m : Bytes, m ≠ b!"_oauth1_request" →
      (⟨.generated, b!"_oauth1_request", innerRibs (implHeader name g m)⟩ : NameUse).meaning sur =
      (⟨.generated, b!"_oauth1_request", outerRibs (implHeader name g b!"_S")⟩ : NameUse).meaning sur := by
    intro m hm; simp [NameUse.meaning, innerRibs, lookup, implHeader, outerRibs, Ne.symm hm]
  have outer : (∀ u ∈ outerNames t (implHeader name g b!"_S"),
        u.meaning sur = meantInFallback sur g u.role u.name) ↔
      ∀ u ∈ outerNames t (implHeader name g b!"_S"), u.meaning sur = meant sur g u.role u.name := by
    refine forall_congr' fun u => forall_congr' fun hu => ?_
    by_cases hr : u.role = .generated
    · rw [outerNames_generated hu hr]; simp [meantInFallback, meant, meantByMacro]
    · have : meantInFallback sur g u.role u.name = meant sur g u.role u.name := by
        cases e : u.role <;> first | rfl | exact absurd e hr
      rw [this]
  unfold NoCaptureInFallback NoCapture fallbackNames
  rw [split, split, same]
  simp only [List.forall_mem_append, List.forall_mem_cons, outer, own, imp b!"S" (by decide),
    imp b!"_S" (by decide)]
  simp [meantInFallback, meant, meantByMacro]

/-- The claim of C74: the `impl` that goes with errors is in order wherever that for an accepted struct of
the same name and parameters would be. -/
def C74_claim : Prop :=
  ∀ (τ : Type) (S : Syn τ) (cfg : Cfg) (lookup : CrateLookup) (isIdent : Bytes → Bool)
    (item : Derive.Item τ) (es : List Err) (h : ImplHeader),
    expandItem cfg S lookup isIdent item = .ok (.errors es (some h)) →
    HeaderResolves { h with methodParam := b!"_S" } → HeaderResolves h

/-- C74, exactly. The names in the `impl` that goes with errors resolve, to what is meant by them, if and
only if
- no type or const parameter is called `S`, as the parameter of the generated method,
- no type parameter is called `_oauth1_request`, or as the struct, and the struct is not called
  `_oauth1_request`,
- no const parameter is called as a type, and bounds, predicates and types of const parameters do not
  mention `_oauth1_request`.
The attributes of the fields, which have errors, are of no account. -/
theorem C74_iff (cfg : Cfg) (S : Syn τ) (lookup : CrateLookup) (isIdent : Bytes → Bool)
    (item : Derive.Item τ) (es : List Err) (h : ImplHeader)
    (hx : expandItem cfg S lookup isIdent item = .ok (.errors es (some h)))
    (t : Texts) (ht : t b!"::core::fmt::Display" = []) (sur : Surroundings)
    (hname : sur.item item.name = true) :
    (HeaderResolves h ∧ NoCaptureInFallback sur item.generics (fallbackNames t h)) ↔
      (b!"S" ∉ typeParams item.generics ∧ b!"S" ∉ constParams item.generics) ∧
      (b!"_oauth1_request" ∉ typeParams item.generics ∧ item.name ∉ typeParams item.generics ∧
        item.name ≠ b!"_oauth1_request") ∧
      (∀ c ∈ constParams item.generics,
        meaningInStruct sur item.generics c = .nothing ∧ c ≠ b!"_oauth1_request") ∧
      (∀ x ∈ declarationTexts item.generics, b!"_oauth1_request" ∉ t x) := by
  obtain ⟨-, rfl⟩ := (expandItem_errors_iff _ _ _ _ _ _ _).mp hx
  rw [headerResolves_iff, fallback_names, header_names t sur _ _ _ ht hname]
  simp only [Code.typeNames, List.not_mem_nil, false_implies, implies_true, and_true]
  constructor
  · rintro ⟨⟨h1, h2, -, -⟩, h3⟩; exact ⟨⟨h1, h2⟩, h3⟩
  · rintro ⟨⟨h1, h2⟩, h3⟩; exact ⟨⟨h1, h2, h3.1.1, h3.1.2.2⟩, h3⟩

/-- C74 for structs none of whose parameters is called `S`. -/
theorem C74_partial (cfg : Cfg) (S : Syn τ) (lookup : CrateLookup) (isIdent : Bytes → Bool)
    (item : Derive.Item τ) (es : List Err) (h : ImplHeader)
    (hx : expandItem cfg S lookup isIdent item = .ok (.errors es (some h)))
    (hok : HeaderResolves { h with methodParam := b!"_S" }) (h1 : b!"S" ∉ typeParams item.generics)
    (h2 : b!"S" ∉ constParams item.generics) : HeaderResolves h := by
  obtain ⟨-, rfl⟩ := (expandItem_errors_iff _ _ _ _ _ _ _).mp hx
  have := (headerResolves_iff item.name item.generics b!"_S").mp hok
  exact (headerResolves_iff _ _ _).mpr ⟨h1, h2, this.2.2⟩

/-- `struct Search<P> { #[oauth1(unknown)] q: P }`. -/
def exampleFallback (param : Bytes) : Derive.Item (List Tok) where
  attrs := []
  fields := some [⟨[oauth1Attr (listToks [word b!"unknown"])], b!"q", .path false [(param, .none)]⟩]
  name := b!"Search"
  generics := ⟨[.lifetime b!"'S" [], .type param [b!"Clone"] none], []⟩

theorem exampleFallback_errors (param : Bytes) : ∃ es,
    expandItem ⟨true, true, .std⟩ tokSyn .manifestDirNotSet (fun _ => true) (exampleFallback param) =
      .ok (.errors es (some (implHeader b!"Search" (exampleFallback param).generics b!"S"))) ∧
      es.length = 1 := ⟨_, rfl, rfl⟩

/-- C74 is violated: if the parameter is called `S`, there is an error (E0403) besides that about the
attribute. -/
theorem C74_violated : ¬ C74_claim := by
  intro hc
  obtain ⟨es, hx, -⟩ := exampleFallback_errors b!"S"
  have h1 := hc _ _ _ _ _ (exampleFallback b!"S") _ _ hx
    ((headerResolves_iff b!"Search" (exampleFallback b!"S").generics b!"_S").mpr
      ⟨by decide +kernel, by decide +kernel, by decide +kernel, by decide +kernel⟩)
  exact absurd ((headerResolves_iff _ _ _).mp h1).1 (by decide +kernel)

/-- If it is called `T`, all is in order. -/
example : HeaderResolves (implHeader b!"Search" (exampleFallback b!"T").generics b!"S") ∧
    NoCaptureInFallback (exampleSurroundings b!"Search") (exampleFallback b!"T").generics
      (fallbackNames exampleTexts (implHeader b!"Search" (exampleFallback b!"T").generics b!"S")) := by
  obtain ⟨es, hx, -⟩ := exampleFallback_errors b!"T"
  refine (C74_iff _ _ _ _ (exampleFallback b!"T") es _ hx exampleTexts (by decide +kernel) _
    (by decide +kernel)).mpr ?_
  decide +kernel
example := C74_partial _ _ _ _ (exampleFallback b!"T") _ _ (exampleFallback_errors b!"T").choose_spec.1
  ((headerResolves_iff b!"Search" (exampleFallback b!"T").generics b!"_S").mpr
      ⟨by decide +kernel, by decide +kernel, by decide +kernel, by decide +kernel⟩)
  (by decide +kernel) (by decide +kernel)

end OAuth
