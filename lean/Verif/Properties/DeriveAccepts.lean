import Verif.Properties.DeriveErrors
import Verif.Spec.DeriveGrammar

/-
C24: what may be written in an attribute. C23: which structs are accepted, in terms of what is written.
-/

namespace OAuth

open Spec Derive

variable {τ : Type}

theorem metaParse_iff (S : Syn τ) (t t' : τ) (m : Meta) :
    Meta.parse S t = .ok (.ok (m, t')) ↔ ReadsItem S t m t' := by
  constructor
  · intro h
    unfold Meta.parse at h
    split at h
    · cases h
    · next p t₁ hp =>
      split at h
      · next hq =>
        split at h
        · cases h
        · next t₂ hg => cases h; exact .list hp hq hg
      · next hq =>
        split at h
        · next he =>
          split at h
          · cases h
          · next t₂ h2 =>
            split at h
            · cases h
            · next e t₃ h3 => cases h; exact .nameValue hp (by simpa using hq) he h2 h3
        · next he => cases h; exact .word hp (by simpa using hq) (by simpa using he)
  · intro h
    cases h with
    | word h1 h2 h3 => simp [Meta.parse, h1, h2, h3]
    | list h1 h2 h3 => simp [Meta.parse, h1, h2, h3]
    | nameValue h1 h2 h3 h4 h5 => simp [Meta.parse, h1, h2, h3, h4, h5]

theorem Spec.ReadsItem.size {S : Syn τ} (hS : Lawful S) {t t' : τ} {m : Meta} (h : ReadsItem S t m t') :
    S.size t' < S.size t := by
  cases h with
  | word h1 => exact hS.pathSize _ _ _ h1
  | list h1 _ h3 => exact Nat.lt_of_le_of_lt (hS.groupSize _ _ h3) (hS.pathSize _ _ _ h1)
  | nameValue h1 _ _ h4 h5 =>
    exact Nat.lt_of_le_of_lt (Nat.le_trans (hS.exprSize _ _ _ h5) (hS.eqSize _ _ h4))
      (hS.pathSize _ _ _ h1)

theorem parseTerminated_iff {S : Syn τ} (hS : Lawful S) (n : Nat) (t : τ) (ms : List Meta)
    (hn : S.size t < n) : parseTerminated S n t = .ok (.ok ms) ↔ ReadsItems S t ms := by
  induction n generalizing t ms with
  | zero => omega
  | succ n ih =>
    constructor
    · intro h
      unfold parseTerminated at h
      split at h
      · next he => cases h; exact .nil he
      · next he =>
        have he : S.isEmpty t = false := by simpa using he
        obtain ⟨r, hr, h⟩ := Except.bind_ok_iff.mp h
        split at h
        · cases h
        · next m t₁ =>
          rw [metaParse_iff] at hr
          split at h
          · next h1 => cases h; exact .last he hr h1
          · next h1 =>
            have h1 : S.isEmpty t₁ = false := by simpa using h1
            split at h
            · cases h
            · next t₂ h2 =>
              obtain ⟨r', hr', h⟩ := Except.bind_ok_iff.mp h
              have hlt : S.size t₂ < n := by
                have := hS.commaSize _ _ h2; have := hr.size hS; omega
              split at h
              · cases h
              · next ms' =>
                cases h
                exact .more he hr h1 h2 ((ih t₂ ms' hlt).mp hr')
    · intro h
      cases h with
      | nil he => simp [parseTerminated, he]
      | last he hr h1 => simp [parseTerminated, he, (metaParse_iff _ _ _ _).mpr hr, h1, Except.ok_bind']
      | more he hr h1 h2 h3 =>
        rename_i t₁ t₂ m ms
        have hlt : S.size t₂ < n := by
          have := hS.commaSize _ _ h2; have := hr.size hS; omega
        simp [parseTerminated, he, (metaParse_iff _ _ _ _).mpr hr, h1, h2, Except.ok_bind',
          (ih _ _ hlt).mpr h3]

/-- C24: an attribute can be read if and only if it has parentheses and between them items separated by
commas, with or without a last comma; an item is a path, or a path and a group in parentheses, or a path,
`=` and an expression. The items read are these, in this order. -/
theorem C24_arguments {S : Syn τ} (hS : Lawful S) (a : Attribute τ) (ms : List Meta) :
    argItems S a = some ms ↔ ∃ t, a.args = some t ∧ ReadsItems S t ms := by
  unfold argItems Attribute.parseArgs
  cases a.args with
  | none => simp
  | some t =>
    have key := parseTerminated_iff hS (S.size t + 1) t ms (Nat.lt_succ_self _)
    simp only [Option.some.injEq, exists_eq_left']
    rw [← key]
    constructor
    · intro h
      split at h
      · next ms' h' => rw [h', Option.some.inj h]
      · cases h
    · intro h; simp [h]

theorem fieldErrors_nil_iff {S : Syn τ} (hS : Lawful S) (f : SynField τ) :
    fieldErrors S f = [] ↔ AttributesInOrder S f.attrs := by
  rw [AttributesInOrder, ← C24_accepted_iff hS]
  have h := fieldNew_eq hS f []
  simp only [List.nil_append] at h
  unfold Field.new at h
  obtain ⟨⟨info, es⟩, hr, h⟩ := Except.bind_ok_iff.mp h
  simp only [Except.ok.injEq, Prod.mk.injEq] at h
  rw [hr]
  constructor
  · intro he; exact ⟨info, by rw [h.2, he]⟩
  · rintro ⟨info', h'⟩
    simp only [Except.ok.injEq, Prod.mk.injEq] at h'
    rw [← h.2, h'.2]

theorem declaredName_iff {S : Syn τ} (hS : Lawful S) (f : SynField τ) (h : fieldErrors S f = [])
    (n : Bytes) : DeclaredName S f n ↔ n = parameterName (understood S f) := by
  have hd := understood_describes hS f h
  unfold DeclaredName parameterName
  cases hr : (understood S f).info.rename with
  | none =>
    have : ∀ n', ¬ ∃ m ∈ attributeItems S f.attrs, SetsTo m (.rename n') := by
      intro n' hn'
      have := (hd.info.rename n').mpr hn'
      rw [hr] at this; cases this
    simp only [Option.getD_none, nameOf_iff, (nameOf_iff _ _).mp hd.ident]
    constructor
    · rintro (h1 | ⟨-, h1⟩)
      · exact absurd h1 (this n)
      · exact h1
    · intro h1
      exact .inr ⟨fun m hm n' hs => this n' ⟨m, hm, hs⟩, h1⟩
  | some r =>
    have h1 := (hd.info.rename r).mp hr
    simp only [Option.getD_some]
    constructor
    · rintro (h2 | ⟨h2, -⟩)
      · have := (hd.info.rename n).mpr h2
        rw [hr] at this; exact (Option.some.inj this).symm
      · obtain ⟨m, hm, hs⟩ := h1
        exact absurd hs (h2 m hm r)
    · rintro rfl; exact .inl h1

theorem imports_iff {S : Syn τ} (hS : Lawful S) (lookup : CrateLookup) (isIdent : Bytes → Bool)
    (attrs : List (Attribute τ)) (i : Import) :
    (∃ info, ContainerMeta.new S attrs [] = .ok (info, []) ∧
        importOf lookup isIdent info [] = .ok (i, [])) ↔
      AllParse S attrs ∧ Imports S lookup isIdent attrs i := by
  constructor
  · rintro ⟨info, h1, h2⟩
    obtain ⟨hp, h⟩ := (C24_container hS attrs info).mp h1
    refine ⟨hp, ?_⟩
    rcases h with ⟨hi, hk⟩ | ⟨p, hi, hk⟩
    · unfold importOf at h2
      rw [hk] at h2
      cases lookup with
      | name k =>
        simp only at h2
        split at h2 <;> cases h2
        next h => exact .name hi rfl h
      | itself c =>
        cases c with
        | none => cases h2
        | some k =>
          simp only at h2
          split at h2 <;> cases h2
          next h => exact .itself hi rfl h
      | manifestDirNotSet =>
        simp only at h2
        split at h2 <;> cases h2
        next h => exact .unknown hi rfl h
      | failed =>
        simp only at h2
        split at h2 <;> simp [Ctxt.addError] at h2
    · unfold importOf at h2
      rw [hk] at h2
      cases h2
      exact .use hi ⟨rfl, rfl⟩
  · rintro ⟨hp, h⟩
    have none_ok : attributeItems S attrs = [] → ContainerMeta.new S attrs [] = .ok ({}, []) :=
      fun hi => (C24_container hS attrs {}).mpr ⟨hp, .inl ⟨hi, rfl⟩⟩
    cases h with
    | @use m p hi hm =>
      obtain ⟨path, kind⟩ := m
      obtain ⟨h1, h2⟩ := hm
      simp only [IsCrateItem.IsIdentPath] at h1 h2
      subst h1 h2
      exact ⟨⟨some p⟩, (C24_container hS attrs _).mpr ⟨hp, .inr ⟨p, hi, rfl⟩⟩, rfl⟩
    | name hi hl hk => exact ⟨{}, none_ok hi, by simp [importOf, hl, hk]⟩
    | itself hi hl hk => exact ⟨{}, none_ok hi, by simp [importOf, hl, hk]⟩
    | unknown hi hl hk => exact ⟨{}, none_ok hi, by simp [importOf, hl, hk]⟩

/-- C23, in terms of what is written: a struct is accepted if and only if the attributes of every field
are in order, no two fields (skipped or not) stand for the same name, no field for the empty name, and
the library can be imported from where the struct, or else cargo, says. -/
theorem C23_accepted_written (cfg : Cfg) {S : Syn τ} (hS : Lawful S) (lookup : CrateLookup)
    (isIdent : Bytes → Bool) (attrs : List (Attribute τ)) (fs : List (SynField τ)) (i : Import) :
    (∃ body, expand cfg S lookup isIdent ⟨attrs, some fs⟩ = .ok (.impl i body)) ↔
      (∀ f ∈ fs, AttributesInOrder S f.attrs) ∧
      fs.Pairwise (fun f g => ∀ n, ¬ (DeclaredName S f n ∧ DeclaredName S g n)) ∧
      (∀ f ∈ fs, ¬ DeclaredName S f []) ∧
      AllParse S attrs ∧ Imports S lookup isIdent attrs i := by
  rw [← imports_iff hS]
  simp only [expand_impl_iff cfg hS, funext fieldName_eq, List.nodup_cons, List.flatMap_eq_nil_iff,
    exists_and_left, exists_eq, and_true, fieldErrors_nil_iff hS]
  refine and_congr_right fun ho => ?_
  have hn : ∀ f ∈ fs, ∀ n, DeclaredName S f n ↔ n = parameterName (understood S f) := fun f hf n =>
    declaredName_iff hS f ((fieldErrors_nil_iff hS f).mpr (ho f hf)) n
  rw [and_comm (a := _ ∉ _), and_assoc]
  refine and_congr ?_ (and_congr_left' ?_)
  · rw [List.Nodup, List.pairwise_map, List.pairwise_map]
    refine List.Pairwise.iff_of_mem fun {f g} hf hg => ?_
    constructor
    · rintro h n ⟨h1, h2⟩
      exact h (((hn f hf n).mp h1).symm.trans ((hn g hg n).mp h2))
    · intro h he
      exact h _ ⟨(hn f hf _).mpr rfl, (hn g hg _).mpr he⟩
  · simp only [List.mem_map, not_exists, not_and, and_imp, forall_exists_index]
    constructor
    · intro h f hf hd
      exact h _ f hf rfl ((hn f hf _).mp hd).symm
    · rintro h _ f hf rfl he
      exact h f hf ((hn f hf _).mpr he.symm)

namespace AcceptsExample

/-- The path made of one identifier. -/
def word (i : Bytes) : Path := ⟨false, [(i, false)]⟩

/-- `#[oauth1(rename = "x", skip,)] r#type: T` -/
def renamed : SynField (List Tok) :=
  { attrs := [⟨word b!"oauth1", some [.path (word b!"rename"), .eq, .expr (.litStr b!"x"), .comma,
      .path (word b!"skip"), .comma]⟩], ident := b!"r#type", ty := .other }

/-- `#[serde(rename)] r#type: T` -/
def raw : SynField (List Tok) :=
  { attrs := [⟨word b!"serde", some [.path (word b!"rename")]⟩], ident := b!"r#type", ty := .other }

/-- The items of an attribute with a last comma. -/
example : ReadsItems tokSyn [.path (word b!"rename"), .eq, .expr (.litStr b!"x"), .comma,
      .path (word b!"skip"), .comma]
    [⟨word b!"rename", .nameValue (.litStr b!"x")⟩, ⟨word b!"skip", .path⟩] :=
  .more rfl (.nameValue rfl rfl rfl rfl rfl) rfl rfl
    (.more rfl (.word rfl rfl rfl) rfl rfl (.nil rfl))

/-- Nothing can be read where a comma is missing. -/
example (ms : List Meta) : ¬ ReadsItems tokSyn [.path (word b!"skip"), .path (word b!"encoded")] ms := by
  intro h
  rcases h with h | ⟨_, hr, h⟩ | ⟨_, hr, _, h, _⟩
  · cases h
  all_goals
    rcases hr with ⟨h1, _, _⟩ | ⟨h1, h2, _⟩ | ⟨h1, _, h2, _, _⟩ <;> cases h1
  · cases h
  · cases h2
  · cases h2
  · cases h
  · cases h2
  · cases h2

/-- `renamed` stands for `x`, `raw` for `type`. -/
example : DeclaredName tokSyn renamed b!"x" ∧ DeclaredName tokSyn raw b!"type" := by
  refine ⟨.inl ⟨⟨word b!"rename", .nameValue (.litStr b!"x")⟩, by simp [show
    attributeItems tokSyn renamed.attrs = [⟨word b!"rename", .nameValue (.litStr b!"x")⟩,
      ⟨word b!"skip", .path⟩] from by decide], rfl, rfl, ?_⟩, .inr ⟨?_, (nameOf_iff _ _).mpr rfl⟩⟩
  · intro n hn; cases hn; decide
  · have : attributeItems tokSyn raw.attrs = [] := by decide
    simp [this]

/-- The struct of both is accepted. -/
example : ∃ body, expand { debug := false } tokSyn (.name b!"oauth") (fun _ => true)
    ⟨[], some [renamed, raw]⟩ = .ok (.impl (.externCrate b!"oauth") body) :=
  ⟨_, rfl⟩

/-- Two fields called `type` and `r#type` are not. -/
example : ¬ ∃ body, expand { debug := false } tokSyn (.name b!"oauth") (fun _ => true)
    ⟨[], some [raw, { raw with ident := b!"type" }]⟩ = .ok (.impl (.externCrate b!"oauth") body) := by
  rintro ⟨body, h⟩
  have hx := (C23_accepted_written _ tokSyn_lawful _ _ _ _ _).mp ⟨body, h⟩
  have hd : ∀ i, unraw i = b!"type" → DeclaredName tokSyn { raw with ident := i } b!"type" := by
    intro i hi
    have : attributeItems tokSyn raw.attrs = [] := by decide
    refine .inr ⟨?_, (nameOf_iff _ _).mpr hi.symm⟩
    simp [this]
  have := List.rel_of_pairwise_cons hx.2.1 (List.mem_singleton.mpr rfl)
  exact this b!"type" ⟨hd _ rfl, hd _ rfl⟩

end AcceptsExample

end OAuth
