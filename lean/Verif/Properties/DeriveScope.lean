import Mathlib.Data.List.Forall2
import Verif.Spec.DeriveScope
import Verif.Properties.Derive

/-
C57: the code generated for an accepted struct refers to its fields and generic parameters.
C58: the instantiations the generated `impl` is for.
-/

namespace OAuth

open Spec Derive

variable {τ : Type}

/-! ### C57 -/

theorem unraw_cases (i : Bytes) : i = unraw i ∨ i = raw (unraw i) := by
  unfold unraw
  split
  · right; rfl
  · left; rfl

theorem unraw_raw (i : Bytes) : unraw (raw i) = i := rfl

theorem unraw_of_ne {i : Bytes} (h : ∀ n, i ≠ raw n) : unraw i = i :=
  (unraw_cases i).elim (fun e => e.symm) fun e => absurd e (h _)

/-- A generated statement mentions the field it is for, and no other. -/
theorem mentions_fieldStmt (f : Field) : Stmt.mentions (fieldStmt f) ≠ [] ∧
    ∀ t ∈ Stmt.mentions (fieldStmt f), t = f.ident := by
  unfold fieldStmt
  cases f.info.option.getD (isOption f.ty) <;> cases f.info.fmt <;> cases f.info.skipIf <;>
    simp [Stmt.mentions, Shown.mentions, Place.mentions]

theorem mentions_weave (ps : List Proto) (fs : List Field) (t : Bytes) :
    (∃ s ∈ weaveStmts ps fs, t ∈ Stmt.mentions s) ↔ ∃ f ∈ fs, t = f.ident := by
  induction fs generalizing ps with
  | nil => simp [weaveStmts, Stmt.mentions]
  | cons f fs ih =>
    simp only [weaveStmts, List.mem_append, List.mem_cons]
    constructor
    · rintro ⟨s, (hs | rfl | hs), ht⟩
      · obtain ⟨q, -, rfl⟩ := List.mem_map.mp hs
        simp [Stmt.mentions] at ht
      · exact ⟨f, .inl rfl, (mentions_fieldStmt f).2 t ht⟩
      · obtain ⟨g, hg, e⟩ := (ih _).mp ⟨s, hs, ht⟩
        exact ⟨g, .inr hg, e⟩
    · rintro ⟨g, (rfl | hg), e⟩
      · obtain ⟨x, hx⟩ := List.exists_mem_of_ne_nil _ (mentions_fieldStmt g).1
        refine ⟨fieldStmt g, .inr (.inl rfl), ?_⟩
        rw [e, ← (mentions_fieldStmt g).2 x hx]; exact hx
      · obtain ⟨s, hs, ht⟩ := (ih _).mpr ⟨g, hg, e⟩
        exact ⟨s, .inr (.inr hs), ht⟩

theorem understood_ident {S : Syn τ} (hS : Lawful S) (f : SynField τ) :
    (understood S f).ident = unraw f.ident := by
  obtain ⟨info, es, h⟩ : ∃ info es, FieldMeta.new S f.attrs [] = .ok (info, es) := by
    obtain ⟨⟨a, b⟩, h⟩ := C24_no_panic hS FieldMeta.addMeta f.attrs {} []
    exact ⟨a, b, h⟩
  simp [understood, Field.new, h, Except.ok_bind']

theorem understood_skip {S : Syn τ} (hS : Lawful S) (f : SynField τ) (he : fieldErrors S f = []) :
    (understood S f).info.skip = true ↔ Skipped S f := by
  obtain ⟨info, es, h⟩ : ∃ info es, FieldMeta.new S f.attrs [] = .ok (info, es) := by
    obtain ⟨⟨a, b⟩, h⟩ := C24_no_panic hS FieldMeta.addMeta f.attrs {} []
    exact ⟨a, b, h⟩
  have hes : es = [] := by simpa [fieldErrors, Field.new, h, Except.ok_bind'] using he
  subst hes
  have := (C24_configuration hS f.attrs info h).skip
  simpa [understood, Field.new, h, Except.ok_bind', Skipped] using this

/-- The fields the method body mentions. -/
theorem mentions_body (cfg : Cfg) {S : Syn τ} (hS : Lawful S) (lookup : CrateLookup)
    (isIdent : Bytes → Bool) (attrs : List (Attribute τ)) (fs : List (SynField τ)) (i : Import)
    (body : List Stmt) (h : expand cfg S lookup isIdent ⟨attrs, some fs⟩ = .ok (.impl i body))
    (t : Bytes) :
    (∃ s ∈ body, t ∈ Stmt.mentions s) ↔ ∃ f ∈ fs, ¬ Skipped S f ∧ t = unraw f.ident := by
  obtain ⟨herr, -, -, rfl⟩ := (expand_impl_iff cfg hS _ _ _ _ _ _).mp h
  rw [List.flatMap_eq_nil_iff] at herr
  rw [mentions_weave]
  simp only [kept, List.mem_filter, (sortByName_perm _).mem_iff, List.mem_map]
  constructor
  · rintro ⟨_, ⟨⟨f, hf, rfl⟩, hk⟩, rfl⟩
    refine ⟨f, hf, fun hs => ?_, understood_ident hS f⟩
    rw [(understood_skip hS f (herr f hf)).mpr hs] at hk; simp at hk
  · rintro ⟨f, hf, hs, rfl⟩
    refine ⟨_, ⟨⟨f, hf, rfl⟩, ?_⟩, (understood_ident hS f).symm⟩
    rw [Bool.not_eq_true', Bool.eq_false_iff, ne_eq, understood_skip hS f (herr f hf)]; exact hs

theorem expandItem_impl_iff (cfg : Cfg) (S : Syn τ) (lookup : CrateLookup) (isIdent : Bytes → Bool)
    (item : Derive.Item τ) (h : ImplHeader) (i : Import) (body : List Stmt) :
    expandItem cfg S lookup isIdent item = .ok (.impl h i body) ↔
      expand cfg S lookup isIdent item.toInput = .ok (.impl i body) ∧
        h = implHeader item.name item.generics b!"_S" := by
  unfold expandItem
  cases expand cfg S lookup isIdent item.toInput with
  | error e => simp [bind, Except.bind]
  | ok x => cases x with
    | errors es fb => simp [bind, Except.bind]
    | impl j b =>
      simp only [Except.ok_bind', Except.ok.injEq, ItemExpansion.impl.injEq, Expansion.impl.injEq]
      constructor
      · rintro ⟨rfl, rfl, rfl⟩; exact ⟨⟨rfl, rfl⟩, rfl⟩
      · rintro ⟨⟨rfl, rfl⟩, rfl⟩; exact ⟨rfl, rfl, rfl⟩

theorem mem_lifetimesFirst (ps : List GenericParam) (p : GenericParam) :
    p ∈ lifetimesFirst ps ↔ p ∈ ps := by
  simp only [lifetimesFirst, List.mem_append, List.mem_filter]
  cases p.isLifetime <;> simp

theorem mem_header_params (name : Bytes) (g : Generics) (m : Bytes) (p : GenericParam) :
    p ∈ (implHeader name g m).params ↔ ∃ q ∈ g.params, p = q.addBound.dropDefault := by
  simp only [implHeader, addTraitBounds, List.mem_map, mem_lifetimesFirst]
  constructor
  · rintro ⟨_, ⟨q, hq, rfl⟩, rfl⟩; exact ⟨q, hq, rfl⟩
  · rintro ⟨q, hq, rfl⟩; exact ⟨_, ⟨q, hq, rfl⟩, rfl⟩

/-- The generated header is in order exactly if no type or const parameter is called as that of the method,
and no type parameter and not the struct is called `_oauth1_request`. -/
theorem headerResolves_iff (name : Bytes) (g : Generics) (m : Bytes) :
    HeaderResolves (implHeader name g m) ↔
      m ∉ typeParams g ∧ m ∉ constParams g ∧ b!"_oauth1_request" ∉ typeParams g ∧
        name ≠ b!"_oauth1_request" := by
  simp only [typeParams, constParams, List.mem_filterMap]
  constructor
  · intro h
    refine ⟨?_, ?_, ?_, h.struct⟩
    · rintro ⟨p, hp, he⟩
      cases p <;> simp at he
      exact h.method _ ((mem_header_params _ _ _ _).mpr ⟨_, hp, rfl⟩) (fun _ _ h => nomatch h) he
    · rintro ⟨p, hp, he⟩
      cases p <;> simp at he
      exact h.method _ ((mem_header_params _ _ _ _).mpr ⟨_, hp, rfl⟩) (fun _ _ h => nomatch h) he
    · rintro ⟨p, hp, he⟩
      cases p <;> simp at he
      exact h.trait _ ((mem_header_params _ _ _ _).mpr ⟨_, hp, rfl⟩) _ _ _ rfl he
  · rintro ⟨h1, h2, h3, h4⟩
    refine ⟨?_, ?_, h4⟩
    · intro p hp hl he
      obtain ⟨q, hq, rfl⟩ := (mem_header_params _ _ _ _).mp hp
      cases q with
      | lifetime => exact hl _ _ rfl
      | type n b d => exact h1 ⟨_, hq, congrArg some he⟩
      | const n t d => exact h2 ⟨_, hq, congrArg some he⟩
    · intro p hp n b d hpe he
      obtain ⟨q, hq, rfl⟩ := (mem_header_params _ _ _ _).mp hp
      cases q with
      | lifetime => cases hpe
      | type n' b' d' => cases hpe; exact h3 ⟨_, hq, congrArg some he⟩
      | const n t d => cases hpe

/-- The claim of C57: if the macro accepts a struct with legal fields, every name in the code it
generates resolves. -/
def C57_claim : Prop :=
  ∀ (τ : Type) (S : Syn τ), Lawful S → ∀ (cfg : Cfg) (lookup : CrateLookup) (isIdent : Bytes → Bool)
    (item : Derive.Item τ) (fs : List (SynField τ)) (h : ImplHeader) (i : Import) (body : List Stmt),
    item.fields = some fs → LegalFields (fs.map SynField.ident) →
    expandItem cfg S lookup isIdent item = .ok (.impl h i body) →
      FieldsResolve (fs.map SynField.ident) body ∧ HeaderResolves h

/-- C57, exactly: the names in the generated code resolve if and only if no field that is sent is a
keyword (written `r#keyword`), no type or const parameter is called `_S`, and neither a type parameter nor
the struct is called `_oauth1_request`. -/
theorem C57_iff (cfg : Cfg) {S : Syn τ} (hS : Lawful S) (lookup : CrateLookup) (isIdent : Bytes → Bool)
    (item : Derive.Item τ) (fs : List (SynField τ)) (h : ImplHeader) (i : Import) (body : List Stmt)
    (hfs : item.fields = some fs) (hlegal : LegalFields (fs.map SynField.ident))
    (hx : expandItem cfg S lookup isIdent item = .ok (.impl h i body)) :
    (FieldsResolve (fs.map SynField.ident) body ∧ HeaderResolves h) ↔
      (∀ f ∈ fs, ¬ Skipped S f → ∀ k ∈ keywords, f.ident ≠ raw k) ∧
      b!"_S" ∉ typeParams item.generics ∧ b!"_S" ∉ constParams item.generics ∧
      b!"_oauth1_request" ∉ typeParams item.generics ∧ item.name ≠ b!"_oauth1_request" := by
  obtain ⟨⟨attrs, fields⟩, name, g⟩ := item
  subst hfs
  obtain ⟨hx', rfl⟩ := (expandItem_impl_iff _ _ _ _ _ _ _ _).mp hx
  rw [headerResolves_iff]
  refine and_congr ⟨?_, ?_⟩ Iff.rfl
  · intro hr f hf hs k hk he
    obtain ⟨s, h1, h2⟩ := (mentions_body cfg hS _ _ _ _ _ _ hx' k).mpr ⟨f, hf, hs, by rw [he]; rfl⟩
    obtain ⟨d, -, h3, -⟩ := hr s h1 k h2
    exact h3 hk
  · intro hk s hs t ht
    obtain ⟨f, hf, hsk, rfl⟩ := (mentions_body cfg hS _ _ _ _ _ _ hx' t).mp ⟨s, hs, ht⟩
    have hmem : f.ident ∈ fs.map SynField.ident := List.mem_map.mpr ⟨f, hf, rfl⟩
    refine ⟨f.ident, hmem, fun hkw => ?_, ?_⟩
    · rcases unraw_cases f.ident with e | e
      · rw [← e] at hkw; exact hlegal.ident _ hmem hkw
      · exact hk f hf hsk _ hkw e
    · rcases unraw_cases f.ident with e | e
      · exact .inl e.symm
      · exact .inr (.inr e.symm)

/-- C57 for structs without raw field names and underscored parameters. -/
theorem C57_partial (cfg : Cfg) {S : Syn τ} (hS : Lawful S) (lookup : CrateLookup)
    (isIdent : Bytes → Bool) (item : Derive.Item τ) (fs : List (SynField τ)) (h : ImplHeader) (i : Import)
    (body : List Stmt) (hfs : item.fields = some fs) (hlegal : LegalFields (fs.map SynField.ident))
    (hx : expandItem cfg S lookup isIdent item = .ok (.impl h i body))
    (hraw : ∀ f ∈ fs, ∀ n, f.ident ≠ raw n)
    (hus : ∀ n ∈ item.name :: typeParams item.generics ++ constParams item.generics,
      ∀ t, n ≠ b!"_" ++ t) :
    FieldsResolve (fs.map SynField.ident) body ∧ HeaderResolves h := by
  refine (C57_iff cfg hS lookup isIdent item fs h i body hfs hlegal hx).mpr
    ⟨fun f hf _ k _ => hraw f hf k, fun hm => ?_, fun hm => ?_, fun hm => ?_, fun hm => ?_⟩
  · exact hus _ (by simp [hm]) b!"S" rfl
  · exact hus _ (by simp [hm]) b!"S" rfl
  · exact hus _ (by simp [hm]) b!"oauth1_request" rfl
  · exact hus _ (by simp) b!"oauth1_request" hm

theorem sameIdent_symm {a b : Bytes} (h : SameIdent a b) : SameIdent b a := by
  rcases h with h | h | h
  · exact .inl h.symm
  · exact .inr (.inr h.symm)
  · exact .inr (.inl h.symm)

theorem distinct_of_ne {l : List Bytes} (h : l.Pairwise fun a b => ¬ SameIdent a b) {a b : Bytes}
    (ha : a ∈ l) (hb : b ∈ l) (hne : a ≠ b) : ¬ SameIdent a b := by
  induction l with
  | nil => cases ha
  | cons x xs ih =>
    obtain ⟨h1, h2⟩ := List.pairwise_cons.mp h
    rcases List.mem_cons.mp ha with rfl | ha' <;> rcases List.mem_cons.mp hb with rfl | hb'
    · exact absurd rfl hne
    · exact h1 b hb'
    · exact fun hs => h1 a ha' (sameIdent_symm hs)
    · exact ih h2 ha' hb'

/-- C57: a field access that resolves is one to the field whose attributes led to it, and to no other. -/
theorem C57_right_field (declared : List Bytes) (hlegal : LegalFields declared) (d d' : Bytes)
    (hd : d ∈ declared) (hd' : d' ∈ declared) (h : Denotes (unraw d) d') : d' = d := by
  have hsame : SameIdent d d' := by
    rcases unraw_cases d with e | e
    · rw [e]; exact h.2
    · have hnot : ∀ n, unraw d ≠ raw n := fun n hn => hlegal.once d hd n (by rw [e, hn])
      rcases h.2 with h2 | h2 | h2
      · exact .inr (.inl (by rw [← h2]; exact e))
      · exact absurd h2 (hnot _)
      · exact .inl (e.trans h2)
  rcases Decidable.em (d' = d) with he | he
  · exact he
  · exact absurd hsame (distinct_of_ne hlegal.distinct hd hd' (fun e => he e.symm))

/-- `struct Search { r#type: Option<&'static str>, q: String }`. -/
def exampleKeyword : Derive.Item (List Tok) where
  attrs := []
  fields := some [⟨[], b!"r#type", .path false [(b!"Option", .angleBracketed 1)]⟩,
    ⟨[], b!"q", .path false [(b!"String", .none)]⟩]
  name := b!"Search"
  generics := ⟨[], []⟩

/-- C57 is violated: for a field `r#type` the macro generates `self.type`. -/
theorem C57_violated : ¬ C57_claim := by
  intro hc
  obtain ⟨h, i, body, hx⟩ : ∃ h i body, expandItem ⟨true, true, .std⟩ tokSyn .manifestDirNotSet
      (fun _ => true) exampleKeyword = .ok (.impl h i body) := ⟨_, _, _, rfl⟩
  have hl : LegalFields [b!"r#type", b!"q"] := by
    refine ⟨by decide +kernel, ?_, ?_⟩
    · intro d hd n
      simp only [List.mem_cons, List.not_mem_nil, or_false] at hd
      rcases hd with rfl | rfl
      · intro h; simp [raw] at h
      · intro h; simp [raw] at h
    · simp only [SameIdent, raw]; decide +kernel
  have := (C57_iff _ tokSyn_lawful _ _ exampleKeyword _ h i body rfl hl hx).mp
    (hc _ _ tokSyn_lawful _ _ _ exampleKeyword _ h i body rfl hl hx)
  refine this.1 _ (List.mem_cons_self) ?_ b!"type" (by decide +kernel) rfl
  rintro ⟨m, hm, -⟩
  cases hm

/-- Other structs that are accepted although their code does not compile: a type parameter `_S`. -/
theorem C57_method_parameter : ∃ (item : Derive.Item (List Tok)) (h : ImplHeader) (i : Import)
    (body : List Stmt), expandItem ⟨true, true, .std⟩ tokSyn .manifestDirNotSet (fun _ => true) item =
      .ok (.impl h i body) ∧ FieldsResolve [b!"q"] body ∧ ¬ HeaderResolves h := by
  refine ⟨⟨⟨[], some [⟨[], b!"q", .path false [(b!"_S", .none)]⟩]⟩, b!"Search",
    ⟨[.type b!"_S" [] none], []⟩⟩, _, _, _, rfl, ?_, ?_⟩
  · intro s hs t ht
    obtain ⟨f, hf, -, rfl⟩ := (mentions_body ⟨true, true, .std⟩ tokSyn_lawful .manifestDirNotSet
      (fun _ => true) [] [⟨[], b!"q", .path false [(b!"_S", .none)]⟩] _ _ rfl t).mp ⟨s, hs, ht⟩
    rw [List.mem_singleton] at hf
    subst hf
    exact ⟨b!"q", List.mem_singleton.mpr rfl, by decide +kernel, .inl rfl⟩
  · rw [headerResolves_iff]
    rintro ⟨h, -⟩
    exact h (by decide +kernel)

/-- A struct to which `C57_partial` applies, with an option and a skipped field. -/
def exampleItem : Derive.Item (List Tok) where
  attrs := []
  fields := some [⟨[], b!"until", .path false [(b!"Option", .angleBracketed 1)]⟩,
    ⟨[oauth1Attr (listToks [word b!"skip"])], b!"marker", .other⟩,
    ⟨[], b!"q", .path false [(b!"T", .none)]⟩]
  name := b!"Search"
  generics := ⟨[.lifetime b!"'a" [], .type b!"T" [b!"'a"] (some b!"String"), .const b!"N" b!"usize" none],
    [b!"T: Clone"]⟩

example : ∃ h i body, expandItem ⟨true, true, .std⟩ tokSyn .manifestDirNotSet (fun _ => true) exampleItem =
      .ok (.impl h i body) ∧
    (body.flatMap Stmt.mentions) = [b!"q", b!"until"] ∧
    h = { params := [.lifetime b!"'a" [], .type b!"T" [b!"'a", b!"::core::fmt::Display"] none,
            .const b!"N" b!"usize" none]
          self_ := b!"Search", args := [b!"'a", b!"T", b!"N"], whereClause := [b!"T: Clone"]
          methodParam := b!"_S" } ∧
    (∀ n ∈ exampleItem.name :: typeParams exampleItem.generics ++ constParams exampleItem.generics,
      ∀ t, n ≠ b!"_" ++ t) := by
  refine ⟨_, _, _, rfl, by decide +kernel, by decide +kernel, ?_⟩
  intro n hn t
  have : n = b!"Search" ∨ n = b!"T" ∨ n = b!"N" := by
    simpa [exampleItem, typeParams, constParams] using hn
  rcases this with rfl | rfl | rfl <;> simp

theorem exampleItem_legal : LegalFields [b!"until", b!"marker", b!"q"] := by
  refine ⟨by decide +kernel, ?_, ?_⟩
  · intro d hd n
    simp only [List.mem_cons, List.not_mem_nil, or_false] at hd
    rcases hd with rfl | rfl | rfl <;> (intro h; simp [raw] at h)
  · simp only [SameIdent, raw]; decide +kernel

/-- The theorems for it. -/
example {h : ImplHeader} {i : Import} {body : List Stmt} (hx : expandItem ⟨true, true, .std⟩ tokSyn
    .manifestDirNotSet (fun _ => true) exampleItem = .ok (.impl h i body)) :=
  C57_iff _ tokSyn_lawful _ _ exampleItem _ h i body rfl exampleItem_legal hx
example : b!"q" = b!"q" := C57_right_field _ exampleItem_legal b!"q" b!"q" (by decide) (by decide)
  ⟨by decide +kernel, .inl (by decide +kernel)⟩

/-! ### C58 -/

theorem header_applies_iff (i : Instance) (name : Bytes) (g : Generics) (m : Bytes) :
    i.Allowed (implHeader name g m).params (implHeader name g m).whereClause ↔
      i.Allowed g.params g.whereClause ∧
        ∀ n ∈ typeParams g, i.bound (i.arg n) b!"::core::fmt::Display" := by
  have hw : (implHeader name g m).whereClause = g.whereClause := rfl
  have hstep : ∀ p : GenericParam, i.Satisfies p.addBound.dropDefault ↔ i.Satisfies p ∧
      ∀ n b d, p = .type n b d → i.bound (i.arg n) b!"::core::fmt::Display" := by
    intro p
    cases p with
    | lifetime n b => simp [GenericParam.addBound, GenericParam.dropDefault, Instance.Satisfies]
    | const n t d => simp [GenericParam.addBound, GenericParam.dropDefault, Instance.Satisfies]
    | type n b d =>
      simp only [GenericParam.addBound, GenericParam.dropDefault, Instance.Satisfies, List.mem_append,
        List.mem_singleton, GenericParam.type.injEq]
      constructor
      · intro h
        exact ⟨fun x hx => h x (.inl hx), by rintro _ _ _ ⟨rfl, -, -⟩; exact h _ (.inr rfl)⟩
      · rintro ⟨h1, h2⟩ x (hx | rfl)
        · exact h1 x hx
        · exact h2 _ _ _ ⟨rfl, rfl, rfl⟩
  unfold Instance.Allowed
  rw [hw]
  constructor
  · rintro ⟨h1, h2⟩
    have h1' := fun q hq => (hstep q).mp (h1 _ ((mem_header_params name g m _).mpr ⟨q, hq, rfl⟩))
    refine ⟨⟨fun p hp => (h1' p hp).1, h2⟩, fun n hn => ?_⟩
    obtain ⟨p, hp, he⟩ := List.mem_filterMap.mp hn
    cases p <;> simp at he
    subst he
    exact (h1' _ hp).2 _ _ _ rfl
  · rintro ⟨⟨h1, h2⟩, h3⟩
    refine ⟨fun p hp => ?_, h2⟩
    obtain ⟨q, hq, rfl⟩ := (mem_header_params name g m p).mp hp
    refine (hstep q).mpr ⟨h1 q hq, fun n b d he => h3 n (List.mem_filterMap.mpr ⟨q, hq, by rw [he]⟩)⟩

theorem lifetimesFirst_of_sorted {ps : List GenericParam}
    (h : ps.Pairwise fun a b => b.isLifetime = true → a.isLifetime = true) : lifetimesFirst ps = ps := by
  induction ps with
  | nil => rfl
  | cons p ps ih =>
    obtain ⟨h1, h2⟩ := List.pairwise_cons.mp h
    have ih := ih h2
    unfold lifetimesFirst at ih ⊢
    cases hp : p.isLifetime with
    | true => simp [hp, ih]
    | false =>
      have hno : ps.filter GenericParam.isLifetime = [] := by
        rw [List.filter_eq_nil_iff]
        intro q hq hl
        have := h1 q hq hl
        rw [hp] at this; cases this
      rw [hno, List.nil_append] at ih
      simp [hp, hno, ih]

theorem header_arguments (name : Bytes) (g : Generics) (m : Bytes)
    (h : g.params.Pairwise fun a b => b.isLifetime = true → a.isLifetime = true) :
    (implHeader name g m).self_ = name ∧
    (implHeader name g m).args = g.params.map GenericParam.name ∧
    (implHeader name g m).params.map GenericParam.name = g.params.map GenericParam.name ∧
    ∀ p ∈ (implHeader name g m).params, (∀ n b d, p = .type n b d → d = none) ∧
      ∀ n t d, p = .const n t d → d = none := by
  have hadd : ∀ p : GenericParam, p.addBound.isLifetime = p.isLifetime := by intro p; cases p <;> rfl
  have hname : ∀ p : GenericParam, p.addBound.name = p.name := by intro p; cases p <;> rfl
  have hdrop : ∀ p : GenericParam, p.dropDefault.name = p.name := by intro p; cases p <;> rfl
  have hl : lifetimesFirst (g.params.map GenericParam.addBound) = g.params.map GenericParam.addBound := by
    refine lifetimesFirst_of_sorted (List.pairwise_map.mpr ?_)
    simpa only [hadd] using h
  refine ⟨rfl, ?_, ?_, ?_⟩
  · simp only [implHeader, addTraitBounds, hl, List.map_map]
    exact List.map_congr_left fun p _ => hname p
  · simp only [implHeader, addTraitBounds, hl, List.map_map]
    exact List.map_congr_left fun p _ => (hdrop _).trans (hname p)
  · intro p hp
    obtain ⟨q, -, rfl⟩ := (mem_header_params name g m p).mp hp
    cases q with
    | lifetime => exact ⟨fun _ _ _ h => (by cases h), fun _ _ _ h => (by cases h)⟩
    | type => exact ⟨fun _ _ _ h => (by cases h; rfl), fun _ _ _ h => (by cases h)⟩
    | const => exact ⟨fun _ _ _ h => (by cases h), fun _ _ _ h => (by cases h; rfl)⟩

/-- The macro returns an `impl` with this header: the real one, or the one that goes with errors. -/
def Generates (cfg : Cfg) (S : Syn τ) (lookup : CrateLookup) (isIdent : Bytes → Bool)
    (item : Derive.Item τ) (h : ImplHeader) : Prop :=
  (∃ i body, expandItem cfg S lookup isIdent item = .ok (.impl h i body)) ∨
    ∃ es, expandItem cfg S lookup isIdent item = .ok (.errors es (some h))

theorem generates_header {cfg : Cfg} {S : Syn τ} {lookup : CrateLookup} {isIdent : Bytes → Bool}
    {item : Derive.Item τ} {h : ImplHeader} (hg : Generates cfg S lookup isIdent item h) :
    ∃ m, h = implHeader item.name item.generics m := by
  rcases hg with ⟨i, body, hx⟩ | ⟨es, hx⟩
  · exact ⟨_, ((expandItem_impl_iff _ _ _ _ _ _ _ _).mp hx).2⟩
  · unfold expandItem at hx
    cases he : expand cfg S lookup isIdent item.toInput with
    | error e => rw [he] at hx; cases hx
    | ok x =>
      rw [he, Except.ok_bind'] at hx
      cases x with
      | impl => cases hx
      | errors es' fb =>
        cases fb with
        | false => cases hx
        | true =>
          refine ⟨b!"S", ?_⟩
          simp only [if_true, Except.ok.injEq, ItemExpansion.errors.injEq, Option.some.injEq] at hx
          exact hx.2.symm

/-- C58: the generated `impl` is for exactly those instantiations of the struct whose type arguments
implement `Display` (whether or not a field of that type is sent). -/
theorem C58_applies_iff (cfg : Cfg) (S : Syn τ) (lookup : CrateLookup) (isIdent : Bytes → Bool)
    (item : Derive.Item τ) (h : ImplHeader) (hg : Generates cfg S lookup isIdent item h) (i : Instance) :
    i.Allowed h.params h.whereClause ↔
      i.Allowed item.generics.params item.generics.whereClause ∧
        ∀ n ∈ typeParams item.generics, i.bound (i.arg n) b!"::core::fmt::Display" := by
  obtain ⟨m, rfl⟩ := generates_header hg
  exact header_applies_iff i item.name item.generics m

/-- C58: the `impl` is for the struct applied to its own parameters, in the order of declaration (with
lifetimes first, as Rust wants them), and declares the same parameters, without defaults. -/
theorem C58_arguments (cfg : Cfg) (S : Syn τ) (lookup : CrateLookup) (isIdent : Bytes → Bool)
    (item : Derive.Item τ) (h : ImplHeader) (hg : Generates cfg S lookup isIdent item h)
    (hfirst : LifetimesFirst item.generics.params) :
    h.self_ = item.name ∧ h.args = item.generics.params.map GenericParam.name ∧
    h.params.map GenericParam.name = item.generics.params.map GenericParam.name ∧
    ∀ p ∈ h.params, (∀ n b d, p = .type n b d → d = none) ∧ ∀ n t d, p = .const n t d → d = none := by
  obtain ⟨m, rfl⟩ := generates_header hg
  have hl : ∀ p : GenericParam, (∃ n bs, p = .lifetime n bs) ↔ p.isLifetime = true := by
    intro p; cases p <;> simp [GenericParam.isLifetime]
  refine header_arguments item.name item.generics m (hfirst.imp fun h => ?_)
  simpa only [hl] using h

/-- C58: the parameters of the `impl` are declared as those of the struct, with all their bounds and the types of
const parameters, and the where clause is the same. -/
theorem C58_declares (cfg : Cfg) (S : Syn τ) (lookup : CrateLookup) (isIdent : Bytes → Bool)
    (item : Derive.Item τ) (h : ImplHeader) (hg : Generates cfg S lookup isIdent item h)
    (hfirst : LifetimesFirst item.generics.params) :
    List.Forall₂ DeclaredAs item.generics.params h.params ∧ h.whereClause = item.generics.whereClause := by
  obtain ⟨m, rfl⟩ := generates_header hg
  have hl : lifetimesFirst (item.generics.params.map GenericParam.addBound) =
      item.generics.params.map GenericParam.addBound := by
    refine lifetimesFirst_of_sorted (List.pairwise_map.mpr (hfirst.imp ?_))
    intro a b h hb
    cases b <;> cases a <;> simp_all [GenericParam.addBound, GenericParam.isLifetime]
  refine ⟨?_, rfl⟩
  simp only [implHeader, addTraitBounds, hl, List.map_map, List.forall₂_map_right_iff, List.forall₂_same]
  intro p _
  cases p with
  | lifetime n bs => exact .lifetime n bs
  | type n bs d => exact .type n bs d
  | const n t d => exact .const n t d

/-- C58: unless the input is not a struct with named fields, some `impl` is generated whenever the macro
returns, so that the struct can be used as a request (whether that `impl` itself gives errors is C74). -/
theorem C58_always_generates (cfg : Cfg) (S : Syn τ) (lookup : CrateLookup) (isIdent : Bytes → Bool)
    (item : Derive.Item τ) (x : ItemExpansion) (hx : expandItem cfg S lookup isIdent item = .ok x) :
    item.fields.isSome ↔ ∃ h, Generates cfg S lookup isIdent item h := by
  obtain ⟨⟨attrs, fields⟩, name, g⟩ := item
  constructor
  · intro hs
    obtain ⟨fs, rfl⟩ := Option.isSome_iff_exists.mp hs
    cases x with
    | impl h i body => exact ⟨h, .inl ⟨i, body, hx⟩⟩
    | errors es fb =>
      cases fb with
      | some h => exact ⟨h, .inr ⟨es, hx⟩⟩
      | none =>
        exfalso
        unfold expandItem at hx
        cases he : expand cfg S lookup isIdent ⟨attrs, some fs⟩ with
        | error e => simp only [he] at hx; cases hx
        | ok y =>
          simp only [he, Except.ok_bind'] at hx
          cases y with
          | impl => cases hx
          | errors es' fb =>
            cases fb with
            | true => cases hx
            | false =>
              simp only [expand, Except.bind_ok_iff] at he
              obtain ⟨a, -, b, -, c, -, he⟩ := he
              split at he
              · cases he
              · simp only [Except.bind_ok_iff] at he
                obtain ⟨d, -, he⟩ := he
                cases he
  · rintro ⟨h, hg⟩
    cases fields with
    | some fs => rfl
    | none =>
      rcases hg with ⟨i, body, hx⟩ | ⟨es, hx⟩
      · cases hx
      · cases hx

/-- `exampleItem` has its parameters in order, and an instantiation to which its `impl` applies. -/
example : LifetimesFirst exampleItem.generics.params ∧
    Instance.Allowed ⟨fun _ => b!"u8", fun _ b => b = b!"'a" ∨ b = b!"::core::fmt::Display",
      fun w => w = b!"T: Clone"⟩ (implHeader exampleItem.name exampleItem.generics b!"_S").params
      (implHeader exampleItem.name exampleItem.generics b!"_S").whereClause ∧
    ¬ Instance.Allowed ⟨fun _ => b!"()", fun _ b => b = b!"'a", fun w => w = b!"T: Clone"⟩
      (implHeader exampleItem.name exampleItem.generics b!"_S").params
      (implHeader exampleItem.name exampleItem.generics b!"_S").whereClause := by
  refine ⟨by simp [LifetimesFirst, exampleItem], ?_, ?_⟩
  · rw [header_applies_iff]
    refine ⟨⟨?_, by simp [exampleItem]⟩, by simp⟩
    simp [exampleItem, Instance.Satisfies]
  · rw [header_applies_iff]
    rintro ⟨-, h⟩
    have := h b!"T" (by decide +kernel)
    revert this; decide +kernel

/-- The theorems of C58 for it, and for the `impl` that goes with errors: a field called twice. -/
theorem exampleItem_generates : ∃ h, Generates ⟨true, true, .std⟩ tokSyn .manifestDirNotSet (fun _ => true)
    exampleItem h := ⟨_, .inl ⟨_, _, rfl⟩⟩
example : ∃ h es, Generates ⟨true, true, .std⟩ tokSyn .manifestDirNotSet (fun _ => true)
      { exampleItem with fields := some [⟨[], b!"q", .other⟩, ⟨[], b!"q", .other⟩] } h ∧
    expandItem ⟨true, true, .std⟩ tokSyn .manifestDirNotSet (fun _ => true)
      { exampleItem with fields := some [⟨[], b!"q", .other⟩, ⟨[], b!"q", .other⟩] } =
        .ok (.errors es (some h)) := ⟨_, _, .inr ⟨_, rfl⟩, rfl⟩
example (h : ImplHeader) (hg : Generates ⟨true, true, .std⟩ tokSyn .manifestDirNotSet (fun _ => true)
    exampleItem h) (i : Instance) := And.intro (C58_applies_iff _ _ _ _ _ h hg i)
  (And.intro (C58_arguments _ _ _ _ _ h hg (by simp [LifetimesFirst, exampleItem]))
    (C58_declares _ _ _ _ _ h hg (by simp [LifetimesFirst, exampleItem])))

end OAuth
