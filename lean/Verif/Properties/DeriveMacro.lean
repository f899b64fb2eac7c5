import Verif.Spec.DeriveMacro
import Verif.Properties.Derive

/-
C85: a struct written by a `macro_rules!` macro.
-/

namespace OAuth

open Spec Derive

variable {τ : Type}

theorem isOption_bareTy (t : Ty) : isOption (bareTy t) = isOption t := by
  induction t with
  | group t ih => simpa [bareTy, isOption] using ih
  | _ => rfl

/-- The field with its type itself. -/
def bareField (f : Field) : Field := { f with ty := bareTy f.ty }

theorem fieldStmt_bareField (f : Field) : fieldStmt (bareField f) = fieldStmt f := by
  simp [fieldStmt, bareField, isOption_bareTy, Field.name]

theorem name_bareField (f : Field) : (bareField f).name = f.name := rfl

theorem insertByName_bareField (f : Field) (fs : List Field) :
    insertByName (bareField f) (fs.map bareField) = (insertByName f fs).map bareField := by
  induction fs with
  | nil => rfl
  | cons g gs ih =>
    rw [List.map_cons, insertByName, insertByName, ih]
    by_cases h : bytesLe f.name g.name = true
    · rw [if_pos h]; exact if_pos h
    · rw [if_neg h]; exact if_neg h

theorem sortByName_bareField (fs : List Field) :
    sortByName (fs.map bareField) = (sortByName fs).map bareField := by
  induction fs with
  | nil => rfl
  | cons f fs ih => rw [List.map_cons, sortByName, ih, insertByName_bareField]; rfl

theorem checkDuplicates_bareField (fs : List Field) (prev : Bytes) (cx : Ctxt) :
    checkDuplicates (fs.map bareField) prev cx = checkDuplicates fs prev cx := by
  induction fs generalizing prev cx with
  | nil => rfl
  | cons f fs ih => rw [List.map_cons, checkDuplicates, ih]; rfl

theorem weaveStmts_bareField (ps : List Proto) (fs : List Field) :
    weaveStmts ps (fs.map bareField) = weaveStmts ps fs := by
  induction fs generalizing ps with
  | nil => rfl
  | cons f fs ih => simp only [List.map_cons, weaveStmts, ih, name_bareField, fieldStmt_bareField]

theorem kept_bareField (fs : List Field) : kept (fs.map bareField) = (kept fs).map bareField := by
  simp only [kept, List.filter_map]; rfl

theorem bareMeta_eq {m : Meta} (h : ∀ e, m.kind ≠ .nameValue (.group e)) : bareMeta m = m := by
  obtain ⟨p, k⟩ := m
  cases k with
  | nameValue e => cases e <;> first | rfl | exact absurd rfl (h _)
  | _ => rfl

/-- What is read of an attribute, from its items. -/
theorem parseArgs_eq {S : Syn τ} (hS : Lawful S) (a : Attribute τ) :
    a.parseArgs S = .ok (match argItems S a with | some ms => .ok ms | none => .error .syn) := by
  obtain ⟨r, h⟩ := parseArgs_ok hS a
  unfold argItems
  rw [h]
  cases r with
  | ok ms => rfl
  | error e => rw [parseArgs_error h]

theorem newMeta_writtenOut {μ : Type} {S : Syn τ} (hS : Lawful S) (add : μ → Meta → Except Err μ)
    {as bs : List (Attribute τ)} (h : Each (AttrWrittenOut S) as bs) (hv : NoVariable S as)
    (m : μ) (cx : Ctxt) : newMeta S add bs m cx = newMeta S add as m cx := by
  induction h generalizing m cx with
  | nil => rfl
  | @cons a b as bs hab _ ih =>
    have hv' : NoVariable S as := fun x hx => hv x (by
      simp only [attributeItems, List.filter_cons]
      split
      · exact List.mem_append_right _ hx
      · exact hx)
    unfold newMeta
    rw [hab.path]
    split
    · next ho =>
      have hitems : argItems S b = argItems S a := by
        rw [hab.items]
        cases hi : argItems S a with
        | none => rfl
        | some ms =>
          rw [Option.map_some, Option.some_inj]
          refine (List.map_congr_left fun x hx => bareMeta_eq (hv x ?_)).trans (List.map_id _)
          simp only [attributeItems, List.filter_cons, (isOauth1_iff a).mpr ho, if_true,
            List.flatMap_cons, hi, Option.getD_some]
          exact List.mem_append_left _ hx
      rw [parseArgs_eq hS, parseArgs_eq hS, hitems]
      simp only [Except.ok_bind']
      split <;> exact ih hv' _ _
    · exact ih hv' _ _

theorem field_writtenOut {S : Syn τ} (hS : Lawful S) {f g : SynField τ} (h : FieldWrittenOut S f g)
    (hv : NoVariable S f.attrs) :
    understood S g = bareField (understood S f) ∧ fieldErrors S g = fieldErrors S f := by
  have : FieldMeta.new S g.attrs [] = FieldMeta.new S f.attrs [] :=
    newMeta_writtenOut hS FieldMeta.addMeta h.attrs hv {} []
  obtain ⟨⟨info, es⟩, hf⟩ := C24_no_panic hS FieldMeta.addMeta f.attrs {} []
  have hf' : FieldMeta.new S f.attrs [] = .ok (info, es) := hf
  simp [understood, fieldErrors, Field.new, this, hf', Except.ok_bind', bareField, h.ident, h.ty]

theorem fields_writtenOut {S : Syn τ} (hS : Lawful S) {fs gs : List (SynField τ)}
    (h : Each (FieldWrittenOut S) fs gs) (hv : ∀ f ∈ fs, NoVariable S f.attrs) :
    gs.map (understood S) = (fs.map (understood S)).map bareField ∧
      gs.flatMap (fieldErrors S) = fs.flatMap (fieldErrors S) := by
  induction h with
  | nil => exact ⟨rfl, rfl⟩
  | cons hfg _ ih =>
    obtain ⟨h1, h2⟩ := field_writtenOut hS hfg (hv _ (List.mem_cons_self ..))
    obtain ⟨h3, h4⟩ := ih fun f hf => hv f (List.mem_cons_of_mem _ hf)
    simp [h1, h2, h3, h4]

/-- C85, the claim: it makes no difference whether a struct is written by a macro or written out. -/
def C85_claim : Prop :=
  ∀ (τ : Type) (S : Syn τ) (cfg : Cfg) (lookup : CrateLookup) (isIdent : Bytes → Bool)
    (attrs attrs' : List (Attribute τ)) (fs fs' : List (SynField τ)), Lawful S →
    WrittenOut S attrs fs attrs' fs' →
    expand cfg S lookup isIdent ⟨attrs, some fs⟩ = expand cfg S lookup isIdent ⟨attrs', some fs'⟩

/-- C85, where it holds: if no value of an attribute came through a variable (types may have), the macro
does the same, whether it accepts the struct, reports errors or panics. What is missing are the values,
see `C85_violated`. -/
theorem C85_partial {S : Syn τ} (hS : Lawful S) (cfg : Cfg) (lookup : CrateLookup)
    (isIdent : Bytes → Bool) {attrs attrs' : List (Attribute τ)} {fs fs' : List (SynField τ)}
    (h : WrittenOut S attrs fs attrs' fs') (hc : NoVariable S attrs)
    (hf : ∀ f ∈ fs, NoVariable S f.attrs) :
    expand cfg S lookup isIdent ⟨attrs, some fs⟩ = expand cfg S lookup isIdent ⟨attrs', some fs'⟩ := by
  obtain ⟨h1, h2⟩ := fields_writtenOut hS h.fields hf
  have h3 : ∀ cx, ContainerMeta.new S attrs' cx = ContainerMeta.new S attrs cx :=
    newMeta_writtenOut hS ContainerMeta.addMeta h.attrs hc {}
  unfold expand
  simp only [newFields_eq hS, Except.ok_bind', h1, h2, sortByName_bareField, checkDuplicates_bareField,
    h3, methodBody_eq, kept_bareField, weaveStmts_bareField]

/-- C85, exactly: a struct is accepted if and only if no value of an attribute came through a variable
and it is accepted when written out. The code generated is the same. -/
theorem C85_iff {S : Syn τ} (hS : Lawful S) (cfg : Cfg) (lookup : CrateLookup)
    (isIdent : Bytes → Bool) {attrs attrs' : List (Attribute τ)} {fs fs' : List (SynField τ)}
    (h : WrittenOut S attrs fs attrs' fs') (i : Import) (body : List Stmt) :
    expand cfg S lookup isIdent ⟨attrs, some fs⟩ = .ok (.impl i body) ↔
      NoVariable S attrs ∧ (∀ f ∈ fs, NoVariable S f.attrs) ∧
        expand cfg S lookup isIdent ⟨attrs', some fs'⟩ = .ok (.impl i body) := by
  constructor
  · intro hx
    obtain ⟨herr, -, ⟨info, hinfo, -⟩, -⟩ := (expand_impl_iff cfg hS _ _ _ _ _ _).mp hx
    have hc : NoVariable S attrs := by
      intro m hm e he
      rcases ((C24_container hS attrs info).mp hinfo).2 with ⟨h1, -⟩ | ⟨p, h1, -⟩
      · rw [h1] at hm; cases hm
      · rw [h1, List.mem_singleton] at hm
        subst hm; cases he
    have hf : ∀ f ∈ fs, NoVariable S f.attrs := by
      intro f hf m hm e he
      rw [List.flatMap_eq_nil_iff] at herr
      obtain ⟨info, es, h1⟩ : ∃ info es, FieldMeta.new S f.attrs [] = .ok (info, es) := by
        obtain ⟨⟨a, b⟩, h⟩ := C24_no_panic hS FieldMeta.addMeta f.attrs {} []
        exact ⟨a, b, h⟩
      have hes : es = [] := by simpa [fieldErrors, Field.new, h1, Except.ok_bind'] using herr f hf
      subst hes
      obtain ⟨t, -, hk, -⟩ := ((C24_accepted_iff hS f.attrs).mp ⟨info, h1⟩).2.1 m hm
      rw [he] at hk
      cases t <;> cases hk
    exact ⟨hc, hf, (C85_partial hS cfg lookup isIdent h hc hf) ▸ hx⟩
  · rintro ⟨hc, hf, hx⟩
    rw [C85_partial hS cfg lookup isIdent h hc hf]; exact hx

namespace MacroExample

/-- `field: $t` with `$t` being `Option<u64>` (tests/pull_3.rs). -/
def byType : SynField (List Tok) :=
  ⟨[], b!"field", .group (.path false [(b!"Option", .angleBracketed 1)])⟩

/-- `field: Option<u64>`. -/
def typed : SynField (List Tok) := ⟨[], b!"field", .path false [(b!"Option", .angleBracketed 1)]⟩

/-- `#[oauth1(rename = $name)] field: u64`. -/
def byName : SynField (List Tok) :=
  ⟨[oauth1Attr (listToks [nameValue b!"rename" (.group (.litStr b!"q"))])], b!"field", .other⟩

/-- `#[oauth1(rename = "q")] field: u64`. -/
def named : SynField (List Tok) :=
  ⟨[oauth1Attr (listToks [nameValue b!"rename" (.litStr b!"q")])], b!"field", .other⟩

theorem typed_writtenOut : WrittenOut tokSyn [] [byType] [] [typed] :=
  ⟨.nil, .cons ⟨rfl, rfl, .nil⟩ .nil⟩

theorem named_writtenOut : WrittenOut tokSyn [] [byName] [] [named] :=
  ⟨.nil, .cons ⟨rfl, rfl, .cons ⟨rfl, by decide⟩ .nil⟩ .nil⟩

/-- The struct of tests/pull_3.rs. -/
example : expand { debug := false } tokSyn (.name b!"oauth") (fun _ => true) ⟨[], some [byType]⟩ =
    expand { debug := false } tokSyn (.name b!"oauth") (fun _ => true) ⟨[], some [typed]⟩ :=
  C85_partial tokSyn_lawful _ _ _ typed_writtenOut (by simp [NoVariable, attributeItems])
    (by simp [NoVariable, attributeItems, byType])

/-- It is accepted, as an option. -/
example : ∃ body, expand { debug := false } tokSyn (.name b!"oauth") (fun _ => true)
    ⟨[], some [byType]⟩ = .ok (.impl (.externCrate b!"oauth") body) ∧
      .ifSome b!"field" (.parameter false b!"field" (.plain .bound)) ∈ body := by
  refine ⟨_, rfl, ?_⟩
  decide +kernel

/-- The type makes no difference, the name does. -/
example : (∃ body, expand { debug := false } tokSyn (.name b!"oauth") (fun _ => true)
      ⟨[], some [byType]⟩ = .ok (.impl (.externCrate b!"oauth") body)) ∧
    ¬ ∃ body, expand { debug := false } tokSyn (.name b!"oauth") (fun _ => true)
      ⟨[], some [byName]⟩ = .ok (.impl (.externCrate b!"oauth") body) := by
  constructor
  · refine ⟨_, (C85_iff tokSyn_lawful _ _ _ typed_writtenOut _ _).mpr ⟨?_, ?_, rfl⟩⟩
    · simp [NoVariable, attributeItems]
    · simp [NoVariable, attributeItems, byType]
  · rintro ⟨body, h⟩
    have := ((C85_iff tokSyn_lawful _ _ _ named_writtenOut _ _).mp h).2.1 byName (by simp)
      (nameValue b!"rename" (.group (.litStr b!"q"))) (by decide)
    exact this _ rfl

end MacroExample

open MacroExample in
/-- C85 is false: a name given by a variable of the macro is refused. -/
theorem C85_violated : ¬ C85_claim := by
  intro h
  have := h _ tokSyn { debug := false } (.name b!"oauth") (fun _ => true) _ _ _ _ tokSyn_lawful
    named_writtenOut
  have h1 : expand { debug := false } tokSyn (.name b!"oauth") (fun _ => true) ⟨[], some [byName]⟩ =
    .ok (.errors [.expectedStr] true) := rfl
  have h2 : ∃ i body, expand { debug := false } tokSyn (.name b!"oauth") (fun _ => true)
    ⟨[], some [named]⟩ = .ok (.impl i body) := ⟨_, _, rfl⟩
  obtain ⟨i, body, h2⟩ := h2
  rw [h1, h2] at this
  cases this

/-- What is reported is the value, as if it was no string literal. -/
example : expand { debug := false } tokSyn (.name b!"oauth") (fun _ => true)
    ⟨[], some [MacroExample.byName]⟩ = .ok (.errors [.expectedStr] true) := rfl

end OAuth
