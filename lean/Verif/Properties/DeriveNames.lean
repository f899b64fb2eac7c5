import Verif.Spec.DeriveNames
import Verif.Properties.DeriveCode
import Verif.Properties.DeriveScope

/-
C68: the names in the item generated by `#[derive(Request)]` refer to what is meant by them.
-/

namespace OAuth

open Spec Derive

variable {τ : Type}

theorem typeNamesOf_header (name : Bytes) (g : Generics) (m n : Bytes) :
    n ∈ typeNamesOf (implHeader name g m).params ↔ n ∈ typeParams g := by
  simp only [typeNamesOf, typeParams, List.mem_filterMap, mem_header_params]
  constructor
  · rintro ⟨_, ⟨q, hq, rfl⟩, h⟩
    refine ⟨q, hq, ?_⟩
    cases q <;> simp [GenericParam.addBound, GenericParam.dropDefault] at h ⊢
    exact h
  · rintro ⟨q, hq, h⟩
    refine ⟨_, ⟨q, hq, rfl⟩, ?_⟩
    cases q <;> simp [GenericParam.addBound, GenericParam.dropDefault] at h ⊢
    exact h

/-- The scopes around the header of the `impl`. -/
def outerRibs (h : ImplHeader) : List Rib :=
  [.params .impl_ (typeNamesOf h.params), .items .constBlock [b!"_oauth1_request"]]

theorem lookup_outer (sur : Surroundings) (name : Bytes) (g : Generics) (m : Bytes) (c : Bool) (n : Bytes) :
    lookup sur c (outerRibs (implHeader name g m)) n =
      if n ∈ typeParams g then (if c then .inaccessible n else .param .impl_ n)
      else if n = b!"_oauth1_request" then .generated .constBlock n
      else if sur.item n then .item n else if sur.std n then .std n else .nothing := by
  simp [outerRibs, lookup, typeNamesOf_header]

/-- The scopes around the method body. -/
def innerRibs (h : ImplHeader) : List Rib := .params .method [h.methodParam] :: outerRibs h

theorem lookup_inner (sur : Surroundings) (name : Bytes) (g : Generics) (c : Bool) (n : Bytes) :
    lookup sur c (innerRibs (implHeader name g b!"_S")) n =
      if n = b!"_S" then (if c then .inaccessible n else .param .method n)
      else lookup sur c (outerRibs (implHeader name g b!"_S")) n := by
  simp [innerRibs, lookup, implHeader]

/-- A name of the standard library in the items of the helper block. -/
theorem lookup_std (sur : Surroundings) (name : Bytes) (g : Generics) (ps : List Bytes) (bs : List Bytes)
    (n : Bytes) (h1 : n ∉ ps) (h2 : n ∉ bs) (h3 : n ≠ b!"_S") (h4 : n ≠ b!"_oauth1_request") :
    lookup sur false (.params .helperItem ps :: .border :: .items .helperBlock bs ::
      innerRibs (implHeader name g b!"_S")) n = .std n ↔ MeansStd sur g n := by
  simp only [lookup, h1, h2, if_false, lookup_inner, h3, lookup_outer, h4, MeansStd]
  by_cases a : n ∈ typeParams g
  · simp [a]
  · cases b : sur.item n <;> cases c : sur.std n <;> simp [a]

/-- What the helper block asks for. -/
theorem helper_noCapture (sur : Surroundings) (name : Bytes) (g : Generics) (fmt skipIf : Bool) :
    NoCapture sur g (helperNames (innerRibs (implHeader name g b!"_S")) fmt skipIf) ↔
      (fmt = true → MeansStd sur g b!"Copy") ∧
      (fmt = true ∨ skipIf = true → MeansStd sur g b!"Fn" ∧ MeansStd sur g b!"Sized") ∧
      (skipIf = true → MeansStd sur g b!"bool") := by
  have hs := lookup_std sur name g [b!"T", b!"F"]
  cases fmt <;> cases skipIf
  · simp [NoCapture, helperNames]
  · have hs := hs [b!"DeriveRequestAssertion"]
    simp only [NoCapture, helperNames, if_true, List.forall_mem_append, List.forall_mem_map,
      List.forall_mem_cons, NameUse.meaning, meant, Bool.false_eq_true, if_false]
    have e1 := hs b!"Fn" (by decide) (by decide) (by decide) (by decide)
    have e2 := hs b!"Sized" (by decide) (by decide) (by decide) (by decide)
    have e3 := hs b!"bool" (by decide) (by decide) (by decide) (by decide)
    rw [show meantByMacro b!"Fn" = .std b!"Fn" from by decide,
      show meantByMacro b!"Sized" = .std b!"Sized" from by decide,
      show meantByMacro b!"bool" = .std b!"bool" from by decide, e1, e2, e3]
    simp [lookup, meantByMacro]
    grind
  · have hs := hs [b!"DeriveRequestAssertion", b!"Display", b!"Formatter", b!"Result", b!"Fmt"]
    simp only [NoCapture, helperNames, if_true, List.forall_mem_append, List.forall_mem_map,
      List.forall_mem_cons, NameUse.meaning, meant, Bool.false_eq_true, if_false]
    have e1 := hs b!"Fn" (by decide) (by decide) (by decide) (by decide)
    have e2 := hs b!"Sized" (by decide) (by decide) (by decide) (by decide)
    have e3 := hs b!"Copy" (by decide) (by decide) (by decide) (by decide)
    rw [show meantByMacro b!"Fn" = .std b!"Fn" from by decide,
      show meantByMacro b!"Sized" = .std b!"Sized" from by decide,
      show meantByMacro b!"Copy" = .std b!"Copy" from by decide, e1, e2, e3]
    simp [lookup, meantByMacro]
    grind
  · have hs := hs [b!"DeriveRequestAssertion", b!"Display", b!"Formatter", b!"Result", b!"Fmt"]
    simp only [NoCapture, helperNames, if_true, List.forall_mem_append, List.forall_mem_map,
      List.forall_mem_cons, NameUse.meaning, meant]
    have e1 := hs b!"Fn" (by decide) (by decide) (by decide) (by decide)
    have e2 := hs b!"Sized" (by decide) (by decide) (by decide) (by decide)
    have e3 := hs b!"Copy" (by decide) (by decide) (by decide) (by decide)
    have e4 := hs b!"bool" (by decide) (by decide) (by decide) (by decide)
    rw [show meantByMacro b!"Fn" = .std b!"Fn" from by decide,
      show meantByMacro b!"Sized" = .std b!"Sized" from by decide,
      show meantByMacro b!"bool" = .std b!"bool" from by decide,
      show meantByMacro b!"Copy" = .std b!"Copy" from by decide, e1, e2, e3, e4]
    simp [lookup, meantByMacro]
    grind

/-- The names in the code for a field are those of its attributes. -/
theorem fieldCode_names (t : Texts) (ribs : List Rib) (sp : Spans) (f : Field) (d : Code) (u : NameUse) :
    u ∈ ((fieldCode sp f).append d).typeNames t ribs ↔
      (∃ p, (f.info.fmt = some p ∨ f.info.skipIf = some p) ∧ ∃ n ∈ t p, u = ⟨.attribute, n, ribs⟩) ∨
        u ∈ d.typeNames t ribs := by
  unfold fieldCode
  cases f.info.option.getD (isOption f.ty) <;> cases f.info.fmt <;> cases f.info.skipIf <;>
    simp [Code.append, Code.typeNames, RExpr.typeNames, eq_comm, or_and_right, exists_or] <;> grind

theorem oauthCodes_names (t : Texts) (ribs : List Rib) (ps : List Proto) (d : Code) :
    (oauthCodes ps d).typeNames t ribs = d.typeNames t ribs := by
  induction ps with
  | nil => rfl
  | cons q ps ih => simpa [oauthCodes, Code.typeNames] using ih

theorem weaveCode_names (t : Texts) (ribs : List Rib) (sp : Spans) (ps : List Proto) (fs : List Field)
    (u : NameUse) : u ∈ (weaveCode sp ps fs (.fin serId)).typeNames t ribs ↔
      ∃ f ∈ fs, ∃ p, (f.info.fmt = some p ∨ f.info.skipIf = some p) ∧
        ∃ n ∈ t p, u = ⟨.attribute, n, ribs⟩ := by
  induction fs generalizing ps with
  | nil => simp [weaveCode, oauthCodes_names, Code.typeNames]
  | cons f fs ih => simp only [weaveCode, oauthCodes_names, fieldCode_names, ih, List.mem_cons,
      or_and_right, exists_or, exists_eq_left]

theorem forall_prologue_names (t : Texts) (ribs : List Rib) (fs : List Field) (rest : Code)
    (P : NameUse → Prop) : (∀ u ∈ (prologue fs rest).typeNames t ribs, P u) ↔
      (∀ u ∈ helperNames ribs (fs.any fun f => f.info.fmt.isSome) (fs.any fun f => f.info.skipIf.isSome),
        P u) ∧ ∀ u ∈ rest.typeNames t ribs, P u := by
  unfold prologue
  split
  · simp only [Code.typeNames, RExpr.typeNames, List.forall_mem_append]
  · next h =>
    simp only [Bool.or_eq_true, not_or, Bool.not_eq_true] at h
    simp [h.1, h.2, helperNames]

theorem declaration_ok {sur : Surroundings} {name : Bytes} {g : Generics}
    (ho : b!"_oauth1_request" ∉ typeParams g) (n : Bytes) :
    (⟨.declaration, n, outerRibs (implHeader name g b!"_S")⟩ : NameUse).meaning sur =
      meant sur g .declaration n ↔ n ≠ b!"_oauth1_request" := by
  simp only [NameUse.meaning, lookup_outer, meant, meaningInStruct]
  by_cases hn : n ∈ typeParams g
  · have : n ≠ b!"_oauth1_request" := fun e => ho (e ▸ hn)
    simp [hn, this]
  · by_cases he : n = b!"_oauth1_request"
    · subst he
      cases sur.item b!"_oauth1_request" <;> cases sur.std b!"_oauth1_request" <;> simp [hn]
    · simp [hn, he]

theorem attribute_ok {sur : Surroundings} {name : Bytes} {g : Generics}
    (ho : b!"_oauth1_request" ∉ typeParams g) (n : Bytes) :
    (⟨.attribute, n, innerRibs (implHeader name g b!"_S")⟩ : NameUse).meaning sur =
      meant sur g .attribute n ↔ n ≠ b!"_S" ∧ n ≠ b!"_oauth1_request" := by
  have hd := declaration_ok (sur := sur) (name := name) ho n
  simp only [NameUse.meaning, lookup_inner, meant] at hd ⊢
  by_cases hs : n = b!"_S"
  · subst hs
    simp only [if_true, meaningInStruct]
    by_cases hn : b!"_S" ∈ typeParams g
    · simp [hn]
    · cases sur.item b!"_S" <;> cases sur.std b!"_S" <;> simp [hn]
  · simpa [hs] using hd

theorem constArg_ok {sur : Surroundings} {name : Bytes} {g : Generics} (n : Bytes) :
    (⟨.constArg, n, outerRibs (implHeader name g b!"_S")⟩ : NameUse).meaning sur =
      meant sur g .constArg n ↔ meaningInStruct sur g n = .nothing ∧ n ≠ b!"_oauth1_request" := by
  simp only [NameUse.meaning, lookup_outer, meant, meaningInStruct]
  by_cases hn : n ∈ typeParams g
  · simp [hn]
  · by_cases he : n = b!"_oauth1_request"
    · subst he; simp [hn]
    · simp [hn, he]

theorem texts_header (name : Bytes) (g : Generics) (t : Texts) (ht : t b!"::core::fmt::Display" = [])
    (P : Bytes → Prop) :
    ((∀ p ∈ (implHeader name g b!"_S").params, ∀ x ∈ p.texts, ∀ n ∈ t x, P n) ∧
      ∀ x ∈ (implHeader name g b!"_S").whereClause, ∀ n ∈ t x, P n) ↔
      ∀ x ∈ declarationTexts g, ∀ n ∈ t x, P n := by
  have hw : (implHeader name g b!"_S").whereClause = g.whereClause := rfl
  rw [hw, declarationTexts, List.forall_mem_append]
  refine and_congr_left fun _ => ?_
  simp only [mem_header_params, List.mem_flatMap]
  constructor
  · rintro h x ⟨q, hq, hx⟩
    refine h _ ⟨q, hq, rfl⟩ x ?_
    cases q <;> simp [GenericParam.addBound, GenericParam.dropDefault, GenericParam.texts] at hx ⊢ <;>
      simp [hx]
  · rintro h _ ⟨q, hq, rfl⟩ x hx n hn
    refine h x ⟨q, hq, ?_⟩ n hn
    cases q <;> simp [GenericParam.addBound, GenericParam.dropDefault, GenericParam.texts] at hx ⊢
    · exact hx
    · rcases hx with hx | rfl
      · exact hx
      · exact absurd hn (by rw [ht]; simp)
    · exact hx

/-- What the header of the `impl` and of the method ask for. -/
theorem header_names (t : Texts) (sur : Surroundings) (name : Bytes) (g : Generics) (code : Code)
    (ht : t b!"::core::fmt::Display" = []) (hname : sur.item name = true) :
    NoCapture sur g (itemNames t (implHeader name g b!"_S") code) ↔
      (b!"_oauth1_request" ∉ typeParams g ∧ name ∉ typeParams g ∧ name ≠ b!"_oauth1_request") ∧
      (∀ c ∈ constParams g, meaningInStruct sur g c = .nothing ∧ c ≠ b!"_oauth1_request") ∧
      (∀ x ∈ declarationTexts g, b!"_oauth1_request" ∉ t x) ∧
      ∀ u ∈ code.typeNames t (innerRibs (implHeader name g b!"_S")),
        u.meaning sur = meant sur g u.role u.name := by
  have h1 : (⟨.generated, b!"_oauth1_request", outerRibs (implHeader name g b!"_S")⟩ : NameUse).meaning sur =
      meantByMacro b!"_oauth1_request" ↔ b!"_oauth1_request" ∉ typeParams g := by
    simp only [NameUse.meaning, lookup_outer, meantByMacro]
    split <;> simp_all
  have h1' : (⟨.generated, b!"_oauth1_request", innerRibs (implHeader name g b!"_S")⟩ : NameUse).meaning sur =
      meantByMacro b!"_oauth1_request" ↔ b!"_oauth1_request" ∉ typeParams g := by
    rw [← h1]
    simp [NameUse.meaning, lookup_inner]
  have h2 : (⟨.struct_, name, outerRibs (implHeader name g b!"_S")⟩ : NameUse).meaning sur = .item name ↔
      name ∉ typeParams g ∧ name ≠ b!"_oauth1_request" := by
    simp only [NameUse.meaning, lookup_outer, hname]
    by_cases a : name ∈ typeParams g
    · simp [a]
    · by_cases b : name = b!"_oauth1_request"
      · simp only [a, if_false, if_pos b]; simp [b]
      · simp [a, b]
  have h3 : (⟨.generated, b!"_S", innerRibs (implHeader name g b!"_S")⟩ : NameUse).meaning sur =
      meantByMacro b!"_S" := by
    simp [NameUse.meaning, lookup_inner, meantByMacro]
  have h4 : (∀ u ∈ (implHeader name g b!"_S").params.flatMap
        (GenericParam.argUse (outerRibs (implHeader name g b!"_S"))),
        u.meaning sur = meant sur g u.role u.name) ↔
      ∀ c ∈ constParams g, meaningInStruct sur g c = .nothing ∧ c ≠ b!"_oauth1_request" := by
    simp only [List.mem_flatMap, mem_header_params, constParams, List.mem_filterMap]
    constructor
    · rintro h c ⟨q, hq, hc⟩
      cases q <;> simp at hc
      subst hc
      exact (constArg_ok _).mp (h _ ⟨_, ⟨_, hq, rfl⟩, List.mem_singleton.mpr rfl⟩)
    · rintro h u ⟨_, ⟨q, hq, rfl⟩, hu⟩
      cases q with
      | lifetime => simp [GenericParam.addBound, GenericParam.dropDefault, GenericParam.argUse] at hu
      | type n b d =>
        simp only [GenericParam.addBound, GenericParam.dropDefault, GenericParam.argUse,
          List.mem_singleton] at hu
        subst hu
        have : n ∈ typeParams g := List.mem_filterMap.mpr ⟨_, hq, rfl⟩
        simp [NameUse.meaning, lookup_outer, this, meant]
      | const n ty d =>
        simp only [GenericParam.addBound, GenericParam.dropDefault, GenericParam.argUse,
          List.mem_singleton] at hu
        subst hu
        exact (constArg_ok _).mpr (h _ ⟨_, hq, rfl⟩)
  have hsplit : NoCapture sur g (itemNames t (implHeader name g b!"_S") code) ↔
      (((∀ p ∈ (implHeader name g b!"_S").params, ∀ x ∈ p.texts, ∀ n ∈ t x,
          (⟨.declaration, n, outerRibs (implHeader name g b!"_S")⟩ : NameUse).meaning sur =
            meant sur g .declaration n) ∧
        ∀ x ∈ (implHeader name g b!"_S").whereClause, ∀ n ∈ t x,
          (⟨.declaration, n, outerRibs (implHeader name g b!"_S")⟩ : NameUse).meaning sur =
            meant sur g .declaration n) ∧
      (b!"_oauth1_request" ∉ typeParams g ∧ name ∉ typeParams g ∧ name ≠ b!"_oauth1_request") ∧
      (∀ c ∈ constParams g, meaningInStruct sur g c = .nothing ∧ c ≠ b!"_oauth1_request") ∧
      ∀ u ∈ code.typeNames t (innerRibs (implHeader name g b!"_S")),
        u.meaning sur = meant sur g u.role u.name) := by
    rw [← h4]
    unfold NoCapture itemNames
    simp only [List.forall_mem_append, List.forall_mem_cons, List.mem_flatMap, List.mem_map]
    constructor
    · rintro ⟨⟨⟨⟨⟨a, b⟩, c⟩, d⟩, e⟩, f⟩
      exact ⟨⟨fun p hp x hx n hn => a _ ⟨p, hp, x, hx, n, hn, rfl⟩, fun x hx n hn => d _ ⟨x, hx, n, hn, rfl⟩⟩,
        ⟨h1.mp b.1, h2.mp b.2.1⟩, fun u ⟨p, hp, hu⟩ => c u ⟨p, hp, hu⟩, f⟩
    · rintro ⟨⟨a, d⟩, ⟨b1, b2⟩, c, f⟩
      refine ⟨⟨⟨⟨⟨?_, h1.mpr b1, h2.mpr b2, by simp⟩, fun u ⟨p, hp, hu⟩ => c u ⟨p, hp, hu⟩⟩, ?_⟩,
        h3, h3, h3, h1'.mpr b1, by simp⟩, f⟩
      · rintro _ ⟨p, hp, x, hx, n, hn, rfl⟩; exact a p hp x hx n hn
      · rintro _ ⟨x, hx, n, hn, rfl⟩; exact d x hx n hn
  rw [hsplit, texts_header name g t ht]
  constructor
  · rintro ⟨a, b, c, d⟩
    exact ⟨b, c, fun x hx hn => (declaration_ok b.1 _).mp (a x hx _ hn) rfl, d⟩
  · rintro ⟨b, c, a, d⟩
    exact ⟨fun x hx n hn => (declaration_ok b.1 _).mpr fun e => a x hx (e ▸ hn), b, c, d⟩

/-- The claim of C68: whatever is in scope where an accepted struct is, the names in the generated item
refer to what is meant by them. -/
def C68_claim : Prop :=
  ∀ (τ : Type) (S : Syn τ), Lawful S → ∀ (cfg : Cfg) (sp : Spans), Foreign sp →
    ∀ (lookup : CrateLookup) (isIdent : Bytes → Bool) (item : Derive.Item τ) (h : ImplHeader) (i : Import)
    (body : List Stmt) (code : Code),
    expandItem cfg S lookup isIdent item = .ok (.impl h i body) →
    expandCode cfg S sp lookup isIdent item.toInput = .ok (.impl i code) →
    ∀ (t : Texts), t b!"::core::fmt::Display" = [] →
    ∀ sur : Surroundings, sur.item item.name = true → NoCapture sur item.generics (itemNames t h code)

/-- C68, exactly. The names in the generated item refer to what is meant by them if and only if
- no type parameter is called `_oauth1_request`, or as the struct, and the struct is not called
  `_oauth1_request`,
- no const parameter is called as a type, and bounds, predicates and types of const parameters do not
  mention `_oauth1_request`,
- the paths in the attributes of a field that is sent do not mention `_S` or `_oauth1_request`,
- and, if there is a field with `fmt`, `Copy`, if there is one with `fmt` or `skip_if`, `Fn` and `Sized`,
  and, if there is one with `skip_if`, `bool` are those of the standard library. -/
theorem C68_iff (cfg : Cfg) {S : Syn τ} (hS : Lawful S) (sp : Spans)
    (lookup : CrateLookup) (isIdent : Bytes → Bool) (item : Derive.Item τ) (fs : List (SynField τ))
    (h : ImplHeader) (i : Import) (body : List Stmt) (code : Code) (hfs : item.fields = some fs)
    (hx : expandItem cfg S lookup isIdent item = .ok (.impl h i body))
    (hc : expandCode cfg S sp lookup isIdent item.toInput = .ok (.impl i code))
    (t : Texts) (ht : t b!"::core::fmt::Display" = []) (sur : Surroundings)
    (hname : sur.item item.name = true) :
    NoCapture sur item.generics (itemNames t h code) ↔
      (b!"_oauth1_request" ∉ typeParams item.generics ∧ item.name ∉ typeParams item.generics ∧
        item.name ≠ b!"_oauth1_request") ∧
      (∀ c ∈ constParams item.generics,
        meaningInStruct sur item.generics c = .nothing ∧ c ≠ b!"_oauth1_request") ∧
      (∀ x ∈ declarationTexts item.generics, b!"_oauth1_request" ∉ t x) ∧
      (∀ f ∈ fs, ∀ d, Describes S f d → d.info.skip = false →
        ∀ p, d.info.fmt = some p ∨ d.info.skipIf = some p → b!"_S" ∉ t p ∧ b!"_oauth1_request" ∉ t p) ∧
      (∀ f ∈ fs, ∀ d, Describes S f d →
        (d.info.fmt ≠ none → MeansStd sur item.generics b!"Copy") ∧
        (d.info.fmt ≠ none ∨ d.info.skipIf ≠ none →
          MeansStd sur item.generics b!"Fn" ∧ MeansStd sur item.generics b!"Sized") ∧
        (d.info.skipIf ≠ none → MeansStd sur item.generics b!"bool")) := by
  obtain ⟨⟨attrs, fields⟩, name, g⟩ := item
  subst hfs
  obtain ⟨hb, rfl⟩ := (expandItem_impl_iff _ _ _ _ _ _ _ _).mp hx
  obtain ⟨-, rfl⟩ := (expandCode_impl_iff cfg hS sp _ _ _ _ _ _).mp hc
  obtain ⟨herr, -, -, -⟩ := (expand_impl_iff cfg hS _ _ _ _ _ _).mp hb
  rw [List.flatMap_eq_nil_iff] at herr
  have hdesc : ∀ f ∈ fs, Describes S f (understood S f) :=
    fun f hf => understood_describes hS f (herr f hf)
  have hmem : ∀ g, g ∈ sortByName (fs.map (understood S)) ↔ ∃ f ∈ fs, Describes S f g := by
    intro g
    rw [(sortByName_perm _).mem_iff, List.mem_map]
    constructor
    · rintro ⟨f, hf, rfl⟩; exact ⟨f, hf, hdesc f hf⟩
    · rintro ⟨f, hf, hg⟩; exact ⟨f, hf, describes_unique (hdesc f hf) hg⟩
  have hcode : (∀ u ∈ (prologue (sortByName (fs.map (understood S)))
      (weaveCode sp allProto (kept (sortByName (fs.map (understood S)))) (.fin serId))).typeNames t
        (innerRibs (implHeader name g b!"_S")), u.meaning sur = meant sur g u.role u.name) ↔ _ :=
    forall_prologue_names t _ _ _ fun u => u.meaning sur = meant sur g u.role u.name
  have hhelper := helper_noCapture sur name g
    ((sortByName (fs.map (understood S))).any fun f => f.info.fmt.isSome)
    ((sortByName (fs.map (understood S))).any fun f => f.info.skipIf.isSome)
  have hnames := header_names t sur name g
    (prologue (sortByName (fs.map (understood S)))
      (weaveCode sp allProto (kept (sortByName (fs.map (understood S)))) (.fin serId))) ht hname
  rw [hnames, hcode]
  refine and_congr_right fun ho => and_congr_right fun _ => and_congr_right fun _ => ?_
  rw [and_comm]
  refine and_congr ?_ ?_
  · simp only [weaveCode_names]
    constructor
    · intro hu f hf d hd hs p hp
      have hk : d ∈ kept (sortByName (fs.map (understood S))) := by
        simp only [kept, List.mem_filter, hs, Bool.not_false, and_true]
        exact (hmem d).mpr ⟨f, hf, hd⟩
      exact ⟨fun hn => ((attribute_ok ho.1 _).mp (hu _ ⟨d, hk, p, hp, _, hn, rfl⟩)).1 rfl,
        fun hn => ((attribute_ok ho.1 _).mp (hu _ ⟨d, hk, p, hp, _, hn, rfl⟩)).2 rfl⟩
    · rintro ha _ ⟨d, hk, p, hp, n, hn, rfl⟩
      simp only [kept, List.mem_filter, Bool.not_eq_true'] at hk
      obtain ⟨f, hf, hd⟩ := (hmem d).mp hk.1
      have := ha f hf d hd hk.2 p hp
      exact (attribute_ok ho.1 n).mpr ⟨fun e => this.1 (e ▸ hn), fun e => this.2 (e ▸ hn)⟩
  · refine hhelper.trans ?_
    simp only [List.any_eq_true, Option.isSome_iff_ne_none]
    constructor
    · rintro ⟨h1, h2, h3⟩ f hf d hd
      have := (hmem d).mpr ⟨f, hf, hd⟩
      exact ⟨fun h => h1 ⟨d, this, h⟩, fun h => h2 (h.imp (fun h => ⟨d, this, h⟩) fun h => ⟨d, this, h⟩),
        fun h => h3 ⟨d, this, h⟩⟩
    · intro ha
      refine ⟨?_, ?_, ?_⟩
      · rintro ⟨d, hm, hd⟩
        obtain ⟨f, hf, hg⟩ := (hmem d).mp hm
        exact (ha f hf d hg).1 hd
      · rintro (⟨d, hm, hd⟩ | ⟨d, hm, hd⟩)
        · obtain ⟨f, hf, hg⟩ := (hmem d).mp hm
          exact (ha f hf d hg).2.1 (.inl hd)
        · obtain ⟨f, hf, hg⟩ := (hmem d).mp hm
          exact (ha f hf d hg).2.1 (.inr hd)
      · rintro ⟨d, hm, hd⟩
        obtain ⟨f, hf, hg⟩ := (hmem d).mp hm
        exact (ha f hf d hg).2.2 hd

/-- C68 where the struct mentions no name that begins with an underscore, no parameter has the name of a
type, and the four names are those of the standard library. -/
theorem C68_partial (cfg : Cfg) {S : Syn τ} (hS : Lawful S) (sp : Spans)
    (lookup : CrateLookup) (isIdent : Bytes → Bool) (item : Derive.Item τ) (fs : List (SynField τ))
    (h : ImplHeader) (i : Import) (body : List Stmt) (code : Code) (hfs : item.fields = some fs)
    (hx : expandItem cfg S lookup isIdent item = .ok (.impl h i body))
    (hc : expandCode cfg S sp lookup isIdent item.toInput = .ok (.impl i code))
    (t : Texts) (ht : t b!"::core::fmt::Display" = []) (sur : Surroundings)
    (hname : sur.item item.name = true) (hparam : item.name ∉ typeParams item.generics)
    (hconst : ∀ c ∈ constParams item.generics, meaningInStruct sur item.generics c = .nothing)
    (hus : ∀ n ∈ item.name :: typeParams item.generics ++ constParams item.generics, ∀ x, n ≠ b!"_" ++ x)
    (htexts : ∀ y, ∀ n ∈ t y, ∀ x, n ≠ b!"_" ++ x)
    (hstd : ∀ n ∈ [b!"Copy", b!"Fn", b!"Sized", b!"bool"], MeansStd sur item.generics n) :
    NoCapture sur item.generics (itemNames t h code) := by
  have s1 := hstd b!"Copy" (by simp)
  have s2 := hstd b!"Fn" (by simp)
  have s3 := hstd b!"Sized" (by simp)
  have s4 := hstd b!"bool" (by simp)
  exact (C68_iff cfg hS sp lookup isIdent item fs h i body code hfs hx hc t ht sur hname).mpr
    ⟨⟨fun hm => hus _ (by simp [hm]) b!"oauth1_request" rfl, hparam,
      fun e => hus _ (by simp) b!"oauth1_request" e⟩,
    fun c hm => ⟨hconst c hm, fun e => hus c (by simp [hm]) b!"oauth1_request" e⟩,
    fun y _ hm => htexts y _ hm b!"oauth1_request" rfl,
    fun _ _ _ _ _ p _ => ⟨fun hm => htexts p _ hm b!"S" rfl,
      fun hm => htexts p _ hm b!"oauth1_request" rfl⟩,
    fun _ _ _ _ => ⟨fun _ => s1, fun _ => ⟨s2, s3⟩, fun _ => s4⟩⟩

/-- `struct Copy { #[oauth1(fmt = quoted)] to: String, #[oauth1(skip_if = str::is_empty)] from: String }`,
or the same by another name. -/
def exampleCopy (name : Bytes) : Derive.Item (List Tok) where
  attrs := []
  fields := some [⟨[oauth1Attr (listToks [nameValue b!"fmt" (.path b!"quoted")])], b!"to",
      .path false [(b!"String", .none)]⟩,
    ⟨[oauth1Attr (listToks [nameValue b!"skip_if" (.path b!"str::is_empty")])], b!"from",
      .path false [(b!"String", .none)]⟩]
  name := name
  generics := ⟨[.type b!"T" [b!"Clone"] none, .const b!"N" b!"usize" none], []⟩

/-- What its texts look up. -/
def exampleTexts : Texts := fun x =>
  if x = b!"str::is_empty" then [b!"str"] else if x = b!"Clone" then [b!"Clone"]
  else if x = b!"usize" then [b!"usize"] else []

/-- Only the struct and the standard library are in scope. -/
def exampleSurroundings (name : Bytes) : Surroundings :=
  ⟨fun n => n == name, fun n => n ∈ [b!"Copy", b!"Fn", b!"Sized", b!"bool", b!"str", b!"Clone", b!"usize",
    b!"String"]⟩

theorem exampleCopy_ok (name : Bytes) : ∃ h i body code,
    expandItem ⟨true, true, .std⟩ tokSyn .manifestDirNotSet (fun _ => true) (exampleCopy name) =
      .ok (.impl h i body) ∧
    expandCode ⟨true, true, .std⟩ tokSyn oneContext .manifestDirNotSet (fun _ => true)
      (exampleCopy name).toInput = .ok (.impl i code) := ⟨_, _, _, _, rfl, rfl⟩

/-- The theorems apply to it, … -/
example (name : Bytes) := C68_iff _ tokSyn_lawful oneContext _ _ (exampleCopy name) _ _ _ _ _ rfl
  (exampleCopy_ok name).choose_spec.choose_spec.choose_spec.choose_spec.1
  (exampleCopy_ok name).choose_spec.choose_spec.choose_spec.choose_spec.2 exampleTexts
  (by decide +kernel) (exampleSurroundings name) (by simp [exampleSurroundings, exampleCopy])

/-- … its names refer to what is meant by them if it is called `Move`, … -/
example : ∃ h i body code,
    expandItem ⟨true, true, .std⟩ tokSyn .manifestDirNotSet (fun _ => true) (exampleCopy b!"Move") =
      .ok (.impl h i body) ∧
    expandCode ⟨true, true, .std⟩ tokSyn oneContext .manifestDirNotSet (fun _ => true)
      (exampleCopy b!"Move").toInput = .ok (.impl i code) ∧
    NoCapture (exampleSurroundings b!"Move") (exampleCopy b!"Move").generics
      (itemNames exampleTexts h code) ∧ (itemNames exampleTexts h code).length = 58 := by
  refine ⟨_, _, _, _, rfl, rfl, ?_, by decide +kernel⟩
  refine C68_partial ⟨true, true, .std⟩ tokSyn_lawful oneContext .manifestDirNotSet (fun _ => true)
    (exampleCopy b!"Move") _ _ _ _ _ rfl rfl rfl exampleTexts (by decide +kernel) _ rfl
    (by decide +kernel) (by decide +kernel) ?_ ?_ (by simp only [MeansStd]; decide +kernel)
  · intro n hn x
    have : n = b!"Move" ∨ n = b!"T" ∨ n = b!"N" := by
      simpa [exampleCopy, typeParams, constParams] using hn
    rcases this with rfl | rfl | rfl <;> simp
  · intro y n hn x
    unfold exampleTexts at hn
    split at hn
    · simp at hn; subst hn; simp
    · split at hn
      · simp at hn; subst hn; simp
      · split at hn
        · simp at hn; subst hn; simp
        · simp at hn

/-- … and C68 is violated if it is called `Copy`: the generated `T: Copy` refers to the struct. -/
theorem C68_violated : ¬ C68_claim := by
  intro hclaim
  obtain ⟨h, i, body, code, hx, hc⟩ := exampleCopy_ok b!"Copy"
  have hn : (exampleSurroundings b!"Copy").item (exampleCopy b!"Copy").name = true := by decide +kernel
  have := (C68_iff _ tokSyn_lawful oneContext _ _ (exampleCopy b!"Copy") _ h i body code rfl hx hc
    exampleTexts (by decide +kernel) (exampleSurroundings b!"Copy") hn).mp
      (hclaim _ _ tokSyn_lawful _ _ oneContext_foreign _ _ _ h i body code hx hc exampleTexts
        (by decide +kernel) _ hn)
  obtain ⟨-, -, -, -, hstd⟩ := this
  obtain ⟨h2, -⟩ := hstd _ List.mem_cons_self _ (understood_describes tokSyn_lawful _ (by decide +kernel))
  have := (h2 (by decide +kernel)).2.1
  revert this
  decide +kernel

/-- Other captures: the path `_S::is_empty` of an attribute refers to the parameter of the generated method
even where the user has a type `_S`, and `bool` to a type the user calls so. -/
theorem C68_captured (sur : Surroundings) (name : Bytes) (g : Generics)
    (hS : b!"_S" ∉ typeParams g) :
    (⟨.attribute, b!"_S", innerRibs (implHeader name g b!"_S")⟩ : NameUse).meaning sur =
      .param .method b!"_S" ∧
    (sur.item b!"_S" = true → meant sur g .attribute b!"_S" = .item b!"_S") ∧
    (sur.item b!"bool" = true → b!"bool" ∉ typeParams g →
      ∃ u ∈ helperNames (innerRibs (implHeader name g b!"_S")) false true,
        u.name = b!"bool" ∧ u.meaning sur = .item b!"bool") := by
  refine ⟨by simp [NameUse.meaning, lookup_inner], fun h => by simp [meant, meaningInStruct, hS, h],
    fun h hb => ⟨⟨.generated, b!"bool", .params .helperItem [b!"T", b!"F"] :: .border ::
      .items .helperBlock [b!"DeriveRequestAssertion"] :: innerRibs (implHeader name g b!"_S")⟩, ?_, rfl, ?_⟩⟩
  · simp [helperNames]
  · simp [NameUse.meaning, lookup, lookup_inner, lookup_outer, hb, h]

example := C68_captured ⟨fun n => n == b!"_S" || n == b!"bool", fun _ => true⟩ b!"Search" ⟨[], []⟩
  (by decide +kernel)

end OAuth
