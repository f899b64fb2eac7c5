import Verif.Proofs.Derive
import Verif.Properties.Interleave

/-
C21-C24: the derive macro.
-/

namespace OAuth

open Spec Derive

variable {τ : Type}

/-- The concrete `syn` used in examples keeps the contract. -/
theorem tokSyn_lawful : Lawful tokSyn where
  paren t h := by
    match t with
    | [] => cases h
    | x :: t => cases x <;> first | (cases h; done) | rfl
  eq t h := by
    match t with
    | [] => cases h
    | x :: t => cases x <;> first | (cases h; done) | rfl
  pathSize t p t' h := by
    match t with
    | [] => cases h
    | x :: t => cases x <;> first | (cases h; done) | (cases h; exact Nat.lt_succ_self _)
  groupSize t t' h := by
    match t with
    | [] => cases h
    | x :: t => cases x <;> first | (cases h; done) | (cases h; exact Nat.le_succ _)
  eqSize t t' h := by
    match t with
    | [] => cases h
    | x :: t => cases x <;> first | (cases h; done) | (cases h; exact Nat.le_succ _)
  exprSize t e t' h := by
    match t with
    | [] => cases h
    | x :: t => cases x <;> first | (cases h; done) | (cases h; exact Nat.le_succ _)
  commaSize t t' h := by
    match t with
    | [] => cases h
    | x :: t => cases x <;> first | (cases h; done) | (cases h; exact Nat.le_succ _)

/-! ### C24: attributes -/

/-- C24: a field's attributes are accepted iff they parse, each item is a known name with the right kind
of value, and no name occurs twice across all of them. -/
theorem C24_accepted_iff {S : Syn τ} (hS : Lawful S) (attrs : List (Attribute τ)) :
    (∃ info, FieldMeta.new S attrs [] = .ok (info, [])) ↔
      AllParse S attrs ∧ (∀ m ∈ attributeItems S attrs, ∃ t, SetsTo m t) ∧
        ((attributeItems S attrs).map Meta.path).Nodup := by
  obtain ⟨info, es, h1, h2, h3⟩ := newMeta_spec hS FieldMeta.addMeta attrs {}
  have key := adds_iff (attributeItems S attrs) configures_nil
  simp only [false_implies, implies_true, and_true] at key
  unfold FieldMeta.new
  constructor
  · rintro ⟨info', h⟩
    rw [h1] at h
    simp only [List.nil_append, Except.ok.injEq, Prod.mk.injEq] at h
    obtain ⟨h4, h5⟩ := h2 h.2
    exact ⟨h4, key.mp ⟨_, h5⟩⟩
  · rintro ⟨h4, h5⟩
    obtain ⟨m, hm⟩ := key.mpr h5
    have := h3 m h4 hm
    exact ⟨info, by rw [h1, this]; rfl⟩

/-- C24: the resulting configuration is the one described by the items. -/
theorem C24_configuration {S : Syn τ} (hS : Lawful S) (attrs : List (Attribute τ)) (info : FieldMeta)
    (h : FieldMeta.new S attrs [] = .ok (info, [])) :
    Configures (fun t => ∃ m ∈ attributeItems S attrs, SetsTo m t) info := by
  obtain ⟨info', es, h1, h2, -⟩ := newMeta_spec hS FieldMeta.addMeta attrs {}
  unfold FieldMeta.new at h
  rw [h1] at h
  simp only [List.nil_append, Except.ok.injEq, Prod.mk.injEq] at h
  obtain ⟨h, he⟩ := h
  subst h
  exact (adds_configures configures_nil (h2 he).2).congr (by simp)

/-- C24: neither the order of the items nor their grouping into attributes matters. -/
theorem C24_order_independent {S : Syn τ} (hS : Lawful S) (a b : List (Attribute τ))
    (ha : AllParse S a) (hb : AllParse S b)
    (hperm : (attributeItems S a).Perm (attributeItems S b)) (info : FieldMeta) :
    FieldMeta.new S a [] = .ok (info, []) ↔ FieldMeta.new S b [] = .ok (info, []) := by
  have main : ∀ a b : List (Attribute τ), AllParse S b →
      (attributeItems S a).Perm (attributeItems S b) → FieldMeta.new S a [] = .ok (info, []) →
      FieldMeta.new S b [] = .ok (info, []) := by
    intro a b hb hperm h
    obtain ⟨-, h2, h3⟩ := (C24_accepted_iff hS a).mp ⟨_, h⟩
    obtain ⟨info', h'⟩ := (C24_accepted_iff hS b).mpr
      ⟨hb, fun m hm => h2 m (hperm.mem_iff.mpr hm), (hperm.map _).nodup_iff.mp h3⟩
    have c1 := C24_configuration hS a info h
    have c2 := (C24_configuration hS b info' h').congr
      (has' := fun t => ∃ m ∈ attributeItems S a, SetsTo m t)
      (fun t => by simp only [hperm.mem_iff])
    rw [c1.unique c2]; exact h'
  exact ⟨main a b hb hperm, main b a ha hperm.symm⟩

/-- C24: the attributes of other macros make no difference. -/
theorem C24_others_ignored {μ : Type} (S : Syn τ) (addMeta : μ → Meta → Except Err μ)
    (attrs : List (Attribute τ)) (m : μ) (cx : Ctxt) :
    newMeta S addMeta attrs m cx = newMeta S addMeta (attrs.filter isOauth1) m cx := by
  induction attrs generalizing m cx with
  | nil => rfl
  | cons a attrs ih =>
    by_cases ha : a.path.getIdent = some b!"oauth1"
    · rw [List.filter_cons_of_pos ((isOauth1_iff a).mpr ha)]
      simp only [newMeta, ha, if_true]
      congr 1; funext r
      cases r with
      | error e => exact ih _ _
      | ok l => exact ih _ _
    · rw [List.filter_cons_of_neg (by simp [isOauth1_false ha])]
      simp only [newMeta, ha, if_false]
      exact ih m cx

/-- C24: the macro does not panic on any attributes. -/
theorem C24_no_panic {μ : Type} {S : Syn τ} (hS : Lawful S) (addMeta : μ → Meta → Except Err μ)
    (attrs : List (Attribute τ)) (m : μ) (cx : Ctxt) :
    ∃ r, newMeta S addMeta attrs m cx = .ok r := by
  obtain ⟨info, es, h1, -, -⟩ := newMeta_spec hS addMeta attrs m
  exact ⟨_, h1 cx⟩

/-- C24 for the attributes of the struct: the only item is `crate = path`, at most once. -/
theorem C24_container {S : Syn τ} (hS : Lawful S) (attrs : List (Attribute τ)) (info : ContainerMeta) :
    ContainerMeta.new S attrs [] = .ok (info, []) ↔
      AllParse S attrs ∧ ((attributeItems S attrs = [] ∧ info.krate = none) ∨
        ∃ p, attributeItems S attrs =
            [⟨{ leadingColon := false, segments := [(b!"crate", false)] }, .nameValue (.path p)⟩] ∧
          info.krate = some p) := by
  have step : ∀ (m m' : ContainerMeta) (x : Meta), m.addMeta x = .ok m' ↔
      m.krate = none ∧ ∃ p, x = ⟨{ leadingColon := false, segments := [(b!"crate", false)] },
        .nameValue (.path p)⟩ ∧ m' = ⟨some p⟩ := by
    intro m m' x
    constructor
    · intro h
      unfold ContainerMeta.addMeta at h
      split at h
      · cases h
      · next name hid =>
        rw [getIdent_iff] at hid
        split at h
        · next hn =>
          subst hn
          obtain ⟨v, hv, h⟩ := Except.bind_ok_iff.mp h
          obtain ⟨e, w, h1, h2, h3, h4⟩ := (valueArm_ok_iff _ _ _ _ _).mp hv
          cases h
          rw [pathFromExpr_ok_iff] at h2
          subst h2
          refine ⟨h3, w, ?_, by rw [h4]⟩
          cases x; simp only at hid h1; rw [hid, h1]
        · cases h
    · rintro ⟨h1, p, rfl, rfl⟩
      simp [ContainerMeta.addMeta, Path.getIdent, valueArm, pathFromExpr, h1, Except.ok_bind']
  have adds : ∀ items (m' : ContainerMeta), Adds ContainerMeta.addMeta {} items m' ↔
      ((items = [] ∧ m'.krate = none) ∨ ∃ p, items =
        [⟨{ leadingColon := false, segments := [(b!"crate", false)] }, .nameValue (.path p)⟩] ∧
        m'.krate = some p) := by
    intro items m'
    constructor
    · intro h
      cases h with
      | nil => exact .inl ⟨rfl, rfl⟩
      | cons h1 h2 =>
        obtain ⟨-, p, rfl, rfl⟩ := (step _ _ _).mp h1
        cases h2 with
        | nil => exact .inr ⟨p, rfl, rfl⟩
        | cons h3 _ =>
          obtain ⟨h4, -⟩ := (step _ _ _).mp h3
          cases h4
    · rintro (⟨rfl, h⟩ | ⟨p, rfl, h⟩)
      · have : m' = {} := by cases m'; simp only at h; rw [h]
        rw [this]; exact .nil _
      · have : m' = ⟨some p⟩ := by cases m'; simp only at h; rw [h]
        rw [this]
        exact .cons ((step _ _ _).mpr ⟨rfl, p, rfl, rfl⟩) (.nil _)
  obtain ⟨info', es, h1, h2, h3⟩ := newMeta_spec hS ContainerMeta.addMeta attrs {}
  unfold ContainerMeta.new
  rw [h1, ← adds]
  constructor
  · intro h
    simp only [List.nil_append, Except.ok.injEq, Prod.mk.injEq] at h
    rw [← h.1]; exact h2 h.2
  · rintro ⟨h4, h5⟩
    have he := h3 _ h4 h5
    rw [he, (h2 he).2.unique h5]; rfl

/-- C24, from tokens: a comma-separated list of items is parsed to these items, with or without a comma
at the end (in the concrete `syn`). -/
theorem C24_items_parse (ms : List Meta) (trailing : Bool) (h : trailing = true → ms ≠ []) :
    parseTerminated tokSyn ((listToks ms ++ if trailing then [Tok.comma] else []).length + 1)
      (listToks ms ++ if trailing then [Tok.comma] else []) = .ok (.ok ms) := by
  have item : ∀ (m : Meta) (rest : List Tok), (rest = [] ∨ ∃ r, rest = .comma :: r) →
      Meta.parse tokSyn (itemToks m ++ rest) = .ok (.ok (m, rest)) := by
    intro m rest hrest
    obtain ⟨p, k⟩ := m
    cases k with
    | path =>
      rcases hrest with rfl | ⟨r, rfl⟩ <;> rfl
    | list => rcases hrest with rfl | ⟨r, rfl⟩ <;> rfl
    | nameValue e => rcases hrest with rfl | ⟨r, rfl⟩ <;> rfl
  have nonempty : ∀ (m : Meta) (rest : List Tok), tokSyn.isEmpty (itemToks m ++ rest) = false :=
    fun m rest => rfl
  have comma : ∀ r : List Tok, tokSyn.isEmpty (.comma :: r) = false ∧
      tokSyn.parseComma (.comma :: r) = some r := fun r => ⟨rfl, rfl⟩
  have main : ∀ (fuel : Nat) (ms : List Meta) (tail : List Tok), tail = [] ∨ (tail = [.comma] ∧ ms ≠ []) →
      ms.length < fuel → parseTerminated tokSyn fuel (listToks ms ++ tail) = .ok (.ok ms) := by
    intro fuel
    induction fuel with
    | zero => intro ms tail _ hl; omega
    | succ fuel ih =>
      intro ms tail ht hl
      match ms with
      | [] =>
        have : tail = [] := by rcases ht with h | h <;> simp_all
        subst this; rfl
      | [m] =>
        rcases ht with rfl | ⟨rfl, -⟩
        · simp only [listToks, parseTerminated, nonempty, item m [] (.inl rfl), Except.ok_bind',
            Bool.false_eq_true, if_false]
          rfl
        · have h2 : parseTerminated tokSyn fuel [] = .ok (.ok []) := by
            have := ih [] [] (.inl rfl) (by simp at hl ⊢; omega)
            simpa [listToks] using this
          simp only [listToks, parseTerminated, nonempty, item m [.comma] (.inr ⟨_, rfl⟩),
            Except.ok_bind', Bool.false_eq_true, if_false, comma, h2]
      | m :: m2 :: ms =>
        have h2 := ih (m2 :: ms) tail (by
          rcases ht with rfl | ⟨rfl, -⟩
          · exact .inl rfl
          · exact .inr ⟨rfl, by simp⟩) (by simp at hl ⊢; omega)
        have e : listToks (m :: m2 :: ms) ++ tail =
            itemToks m ++ .comma :: (listToks (m2 :: ms) ++ tail) := by
          simp [listToks]
        rw [e]
        simp only [parseTerminated, nonempty, item m (.comma :: _) (.inr ⟨_, rfl⟩), Except.ok_bind',
          Bool.false_eq_true, if_false, comma, h2]
  have hlen : ∀ ms : List Meta, ms.length ≤ (listToks ms).length := by
    intro ms
    induction ms with
    | nil => simp
    | cons m ms ih =>
      cases ms with
      | nil => simp [listToks, itemToks]
      | cons m2 ms =>
        simp only [listToks, List.length_append, List.length_cons, itemToks] at ih ⊢
        omega
  apply main
  · cases trailing with
    | false => exact .inl rfl
    | true => exact .inr ⟨rfl, h rfl⟩
  · have := hlen ms
    simp only [List.length_append]; omega

/-- An attribute `#[oauth1(...)]` with the given tokens. -/
def oauth1Attr (t : List Tok) : Attribute (List Tok) := ⟨⟨false, [(b!"oauth1", false)]⟩, some t⟩

/-- An attribute item `name`, or `name = value`. -/
def word (name : Bytes) : Meta := ⟨⟨false, [(name, false)]⟩, .path⟩
def nameValue (name : Bytes) (e : Expr) : Meta := ⟨⟨false, [(name, false)]⟩, .nameValue e⟩

/-- Two attributes, a foreign one between them, a trailing comma. -/
def exampleAttrs : List (Attribute (List Tok)) :=
  [oauth1Attr (listToks [nameValue b!"skip_if" (.path b!"str::is_empty"), word b!"encoded"]),
   ⟨⟨false, [(b!"serde", false)]⟩, none⟩,
   oauth1Attr (listToks [nameValue b!"rename" (.litStr b!"a.b")] ++ [.comma])]

example : (FieldMeta.new tokSyn exampleAttrs []).toOption =
    some ({ encoded := true, rename := some b!"a.b", skipIf := some b!"str::is_empty" }, []) := by
  decide +kernel

theorem exampleAttrs_ok : FieldMeta.new tokSyn exampleAttrs [] =
    .ok ({ encoded := true, rename := some b!"a.b", skipIf := some b!"str::is_empty" }, []) := by
  have h : (FieldMeta.new tokSyn exampleAttrs []).toOption =
    some ({ encoded := true, rename := some b!"a.b", skipIf := some b!"str::is_empty" }, []) := by
    decide +kernel
  cases he : FieldMeta.new tokSyn exampleAttrs [] with
  | error e => rw [he] at h; cases h
  | ok x => rw [he] at h; cases h; rfl

/-- What the theorems above say of them. -/
example : AllParse tokSyn exampleAttrs ∧ ((attributeItems tokSyn exampleAttrs).map Meta.path).Nodup ∧
    Configures (fun t => ∃ m ∈ attributeItems tokSyn exampleAttrs, SetsTo m t)
      { encoded := true, rename := some b!"a.b", skipIf := some b!"str::is_empty" } ∧
    FieldMeta.new tokSyn exampleAttrs.reverse [] =
      .ok ({ encoded := true, rename := some b!"a.b", skipIf := some b!"str::is_empty" }, []) ∧
    newMeta tokSyn FieldMeta.addMeta exampleAttrs {} [] =
      newMeta tokSyn FieldMeta.addMeta [exampleAttrs[0], exampleAttrs[2]] {} [] ∧
    ∃ r, newMeta tokSyn FieldMeta.addMeta [oauth1Attr [.comma, .comma]] {} [] = .ok r := by
  have h := (C24_accepted_iff tokSyn_lawful exampleAttrs).mp ⟨_, exampleAttrs_ok⟩
  refine ⟨h.1, h.2.2, C24_configuration tokSyn_lawful _ _ exampleAttrs_ok, ?_,
    C24_others_ignored tokSyn FieldMeta.addMeta exampleAttrs _ _, C24_no_panic tokSyn_lawful _ _ _ _⟩
  refine (C24_order_independent tokSyn_lawful exampleAttrs exampleAttrs.reverse h.1
    (fun a ha => h.1 a (List.mem_reverse.mp ha)) ?_ _).mp exampleAttrs_ok
  unfold attributeItems
  exact (((List.reverse_perm exampleAttrs).filter _).flatMap_right _).symm

/-- The other order and grouping. -/
example : (FieldMeta.new tokSyn [oauth1Attr (listToks [word b!"encoded",
      nameValue b!"rename" (.litStr b!"a.b"), nameValue b!"skip_if" (.path b!"str::is_empty")])]
    []).toOption = (FieldMeta.new tokSyn exampleAttrs []).toOption := by decide +kernel

/-- Rejected: unknown, wrong kind, repeated, not URI-safe. -/
example : (FieldMeta.new tokSyn [oauth1Attr (listToks [word b!"sign", word b!"fmt", word b!"skip",
      word b!"skip", nameValue b!"rename" (.litStr b!"a b")])] []).toOption.map (·.2) =
    some [.unknown, .expectedNameValue, .duplicateAttribute b!"skip", .notUriSafe] := by
  decide +kernel

/-- A container attribute. -/
example : (ContainerMeta.new tokSyn [oauth1Attr (listToks [nameValue b!"crate" (.path b!"oauth")])]
    []).toOption = some (⟨some b!"oauth"⟩, []) := by decide +kernel

/-! ### C21: declaration order -/

theorem understood_describes {S : Syn τ} (hS : Lawful S) (f : SynField τ)
    (h : fieldErrors S f = []) : Describes S f (understood S f) := by
  obtain ⟨info, es, h1, h2, -⟩ := fieldNew_spec hS f
  have hu : understood S f = { ident := unraw f.ident, ty := f.ty, info } := by
    simp [understood, h1]
  have he : es = [] := by simpa [fieldErrors, h1] using h
  obtain ⟨h3, h4⟩ := h2 he
  rw [hu]
  exact ⟨(nameOf_iff _ _).mpr rfl, rfl, h3, (adds_configures configures_nil h4).congr (by simp)⟩

theorem describes_unique {S : Syn τ} {f : SynField τ} {g h : Field} (hg : Describes S f g)
    (hh : Describes S f h) : g = h := by
  obtain ⟨g1, g2, -, g4⟩ := hg
  obtain ⟨h1, h2, -, h4⟩ := hh
  obtain ⟨gi, gt, gm⟩ := g
  obtain ⟨hi, ht, hm⟩ := h
  simp only at g1 g2 g4 h1 h2 h4
  rw [(nameOf_iff _ _).mp g1, g2, (nameOf_iff _ _).mp h1, h2, g4.unique h4]

/-- C21: the generated code does not depend on the order in which the fields are declared. -/
theorem C21_declaration_order (cfg : Cfg) {S : Syn τ} (hS : Lawful S) (lookup : CrateLookup)
    (isIdent : Bytes → Bool) (attrs : List (Attribute τ)) {fs gs : List (SynField τ)}
    (hperm : fs.Perm gs) (i : Import) (body : List Stmt) :
    expand cfg S lookup isIdent ⟨attrs, some fs⟩ = .ok (.impl i body) ↔
      expand cfg S lookup isIdent ⟨attrs, some gs⟩ = .ok (.impl i body) := by
  rw [expand_impl_iff cfg hS, expand_impl_iff cfg hS]
  have herr : fs.flatMap (fieldErrors S) = [] ↔ gs.flatMap (fieldErrors S) = [] := by
    simp only [List.flatMap_eq_nil_iff, hperm.mem_iff]
  have hp := hperm.map (understood S)
  have hnodup : ([] :: (fs.map (understood S)).map Field.name).Nodup ↔
      ([] :: (gs.map (understood S)).map Field.name).Nodup := ((hp.map _).cons _).nodup_iff
  constructor
  · rintro ⟨h1, h2, h3, h4⟩
    refine ⟨herr.mp h1, hnodup.mp h2, h3, ?_⟩
    rw [h4, sortByName_unique hp (List.nodup_cons.mp h2).2]
  · rintro ⟨h1, h2, h3, h4⟩
    refine ⟨herr.mpr h1, hnodup.mpr h2, h3, ?_⟩
    rw [h4, sortByName_unique hp.symm (List.nodup_cons.mp h2).2]

theorem kept_sorted {fs : List Field} (h : NameSorted fs) : NameSorted (kept fs) :=
  List.Pairwise.filter _ h

/-- C21: the calls of a derived request are those of the `AssertSorted` list of the pairs sent (up to
the choice between `serialize_parameter` and `serialize_parameter_encoded`), and their keys ascend. -/
theorem C21_as_assert_sorted (cfg : Cfg) {S : Syn τ} (hS : Lawful S) (lookup : CrateLookup)
    (isIdent : Bytes → Bool) (attrs : List (Attribute τ)) (fs : List (SynField τ)) (i : Import)
    (body : List Stmt) (h : expand cfg S lookup isIdent ⟨attrs, some fs⟩ = .ok (.impl i body))
    {V : Type} (sc : Scope V) (self : Bytes → V) :
    ∃ cs pairs, IsTrace (Derive.request sc self body) cs ∧
      IsTrace (AssertSorted.request cfg pairs) (cs.map Call.forget) ∧
      cs.filterMap Call.proto? = allProto ∧
      (cs.map Call.key).Pairwise (fun a b => bytesLe a b = true) ∧
      (pairs.map (·.1)).Pairwise (fun a b => bytesLe a b = true) := by
  obtain ⟨-, -, -, rfl⟩ := (expand_impl_iff cfg hS _ _ _ _ _ _).mp h
  have hs := kept_sorted (sortByName_sorted (fs.map (understood S)))
  generalize kept (sortByName (fs.map (understood S))) = gs at hs
  have hf := weaveCalls_forget sc self allProto gs hs
  have hpairs : ((sentPairs sc self gs).map (·.1)).Pairwise (fun a b => bytesLe a b = true) := by
    have hsub : ((sentPairs sc self gs).map (·.1)).Sublist (gs.map Field.name) := by
      clear hs hf
      induction gs with
      | nil => exact List.Sublist.refl _
      | cons g gs ih =>
        cases hc : fieldCall sc self g with
        | none =>
          have : sentPairs sc self (g :: gs) = sentPairs sc self gs := by simp [sentPairs, hc]
          rw [this]; exact ih.cons _
        | some c =>
          obtain ⟨v, h1, -, -⟩ := fieldCall_shape sc self g c hc
          have : sentPairs sc self (g :: gs) = (g.name, v) :: sentPairs sc self gs := by
            simp [sentPairs, hc, h1, Call.pair?]
          rw [this]; exact ih.cons₂ _
    exact List.Pairwise.sublist hsub (List.pairwise_map.mpr hs)
  refine ⟨weaveCalls sc self allProto gs, sentPairs sc self gs, isTrace_request sc self gs, ?_, ?_,
    ?_, hpairs⟩
  · rw [hf]; exact isTrace_assertSorted cfg _
  · have h1 : ∀ cs : List Call, cs.filterMap Call.proto? = (cs.map Call.forget).filterMap Call.proto? := by
      intro cs
      rw [List.filterMap_map]
      congr 1; funext c; cases c <;> rfl
    rw [h1, hf, weave_protos]
  · have h1 : ∀ cs : List Call, cs.map Call.key = (cs.map Call.forget).map Call.key := by
      intro cs
      rw [List.map_map]
      congr 1; funext c; cases c <;> rfl
    rw [h1, hf]
    exact (weave_sorted _ _ allProto_sorted hpairs).1

/-- C17 for derived requests: whatever the fields are, each of the eight protocol calls is made exactly once and
in order. -/
theorem C17_derived (cfg : Cfg) {S : Syn τ} (hS : Lawful S) (lookup : CrateLookup)
    (isIdent : Bytes → Bool) (attrs : List (Attribute τ)) (fs : List (SynField τ)) (i : Import)
    (body : List Stmt) (h : expand cfg S lookup isIdent ⟨attrs, some fs⟩ = .ok (.impl i body))
    {V : Type} (sc : Scope V) (self : Bytes → V) :
    ∃ cs, IsTrace (Derive.request sc self body) cs ∧
      cs.filterMap Call.proto? = [.callback, .consumerKey, .nonce, .signatureMethod, .timestamp,
        .token, .verifier, .version] ∧
      cs.length = 8 + (cs.filter Call.isRequest).length := by
  obtain ⟨cs, -, h1, -, h2, -, -⟩ := C21_as_assert_sorted cfg hS lookup isIdent attrs fs i body h sc self
  refine ⟨cs, h1, h2, ?_⟩
  have h3 : ∀ cs : List Call, cs.length = (cs.filterMap Call.proto?).length + (cs.filter Call.isRequest).length := by
    intro cs
    induction cs with
    | nil => rfl
    | cons c cs ih =>
      cases c <;> simp only [List.length_cons, List.filterMap_cons, List.filter_cons, Call.proto?, Call.isRequest] <;>
        simp only [if_true, Bool.false_eq_true, if_false, List.length_cons] <;> omega
  rw [h3 cs, h2]
  rfl

/-- C21: rejection does not depend on the order either. -/
theorem C21_rejection_order (cfg : Cfg) {S : Syn τ} (hS : Lawful S) (lookup : CrateLookup)
    (isIdent : Bytes → Bool) (attrs : List (Attribute τ)) {fs gs : List (SynField τ)}
    (hperm : fs.Perm gs) (es : List Err) (fb : Bool)
    (h : expand cfg S lookup isIdent ⟨attrs, some fs⟩ = .ok (.errors es fb)) :
    ∃ es', es' ≠ [] ∧ expand cfg S lookup isIdent ⟨attrs, some gs⟩ = .ok (.errors es' fb) := by
  have hno : ∀ i body, expand cfg S lookup isIdent ⟨attrs, some gs⟩ ≠ .ok (.impl i body) := by
    intro i body hg
    have := (C21_declaration_order cfg hS lookup isIdent attrs hperm i body).mpr hg
    rw [h] at this; cases this
  obtain ⟨info, es1, hc⟩ := container_eq hS attrs
  unfold expand at h hno ⊢
  simp only [newFields_eq hS, Except.ok_bind', checkDuplicates_eq, hc] at h hno ⊢
  rcases importOf_cx lookup isIdent info with ⟨e, he⟩ | ⟨j, es2, hi⟩
  · simp only [he] at h; cases h
  · simp only [hi, Except.ok_bind', methodBody_eq] at h hno ⊢
    split at h
    · cases h
      split
      · next hne => exact ⟨_, hne, rfl⟩
      · next hne => rw [if_neg hne] at hno; exact absurd rfl (hno _ _)
    · cases h

/-- A struct that is rejected, in either order. -/
example : ∃ es es' : List Err, es' ≠ [] ∧
    expand ⟨true, true, .std⟩ tokSyn .manifestDirNotSet (fun _ => true) ⟨[], some
      [⟨[], b!"x", .other⟩, ⟨[], b!"r#x", .other⟩, ⟨[oauth1Attr (listToks [word b!"fmt"])], b!"y", .other⟩]⟩ =
        .ok (.errors es true) ∧
    expand ⟨true, true, .std⟩ tokSyn .manifestDirNotSet (fun _ => true) ⟨[], some
      [⟨[oauth1Attr (listToks [word b!"fmt"])], b!"y", .other⟩, ⟨[], b!"r#x", .other⟩, ⟨[], b!"x", .other⟩]⟩ =
        .ok (.errors es' true) := by
  obtain ⟨es', h1, h2⟩ := C21_rejection_order ⟨true, true, .std⟩ tokSyn_lawful .manifestDirNotSet
    (fun _ => true) [] (fs := [⟨[], b!"x", .other⟩, ⟨[], b!"r#x", .other⟩,
      ⟨[oauth1Attr (listToks [word b!"fmt"])], b!"y", .other⟩])
    (gs := [⟨[oauth1Attr (listToks [word b!"fmt"])], b!"y", .other⟩, ⟨[], b!"r#x", .other⟩,
      ⟨[], b!"x", .other⟩]) (List.reverse_perm _).symm [.expectedNameValue, .duplicateParameter b!"x"] true rfl
  exact ⟨_, es', h1, rfl, h2⟩

/-! ### C22: attributes at work -/

/-- C22: in the calls made by a derived request, each field shows up exactly as its attributes say, at
most once; and there are no other request parameters. -/
theorem C22_fields (cfg : Cfg) {S : Syn τ} (hS : Lawful S) (lookup : CrateLookup)
    (isIdent : Bytes → Bool) (attrs : List (Attribute τ)) (fs : List (SynField τ)) (i : Import)
    (body : List Stmt) (h : expand cfg S lookup isIdent ⟨attrs, some fs⟩ = .ok (.impl i body))
    {V : Type} (sc : Scope V) (self : Bytes → V) :
    ∃ cs, IsTrace (Derive.request sc self body) cs ∧
      (∀ f ∈ fs, ∃ g, Describes S f g) ∧
      (∀ f ∈ fs, ∀ g, Describes S f g → ∀ c, SentAs sc g (self g.ident) c →
        cs.filter (fun c => c.isRequest && c.key == parameterName g) = [c]) ∧
      (∀ f ∈ fs, ∀ g, Describes S f g → (¬ ∃ c, SentAs sc g (self g.ident) c) →
        cs.filter (fun c => c.isRequest && c.key == parameterName g) = []) ∧
      (∀ c ∈ cs, c.isRequest = true → ∃ f ∈ fs, ∃ g, Describes S f g ∧
        SentAs sc g (self g.ident) c) := by
  obtain ⟨herr, hnodup, -, rfl⟩ := (expand_impl_iff cfg hS _ _ _ _ _ _).mp h
  rw [List.flatMap_eq_nil_iff] at herr
  have hdesc : ∀ f ∈ fs, Describes S f (understood S f) :=
    fun f hf => understood_describes hS f (herr f hf)
  have hmem : ∀ g, g ∈ kept (sortByName (fs.map (understood S))) ↔
      (∃ f ∈ fs, understood S f = g) ∧ g.info.skip = false := by
    intro g
    simp [kept, List.mem_filter, (sortByName_perm _).mem_iff]
  have hn : ((kept (sortByName (fs.map (understood S)))).map Field.name).Nodup := by
    refine List.Nodup.sublist (List.Sublist.map _ List.filter_sublist) ?_
    exact (((sortByName_perm _).map _).nodup_iff).mpr (List.nodup_cons.mp hnodup).2
  have hall := (List.nodup_cons.mp hnodup).2
  have hinj : ∀ f ∈ fs, ∀ f' ∈ fs, (understood S f).name = (understood S f').name →
      understood S f = understood S f' := by
    intro f hf f' hf' e
    have key : ∀ l : List Field, (l.map Field.name).Nodup → ∀ a ∈ l, ∀ b ∈ l, a.name = b.name →
        a = b := by
      intro l
      induction l with
      | nil => intro _ a ha; simp at ha
      | cons x l ih =>
        intro hn a ha b hb e
        rw [List.map_cons, List.nodup_cons] at hn
        rcases List.mem_cons.mp ha with e1 | ha1 <;> rcases List.mem_cons.mp hb with e2 | hb1
        · rw [e1, e2]
        · subst e1; exact absurd (List.mem_map.mpr ⟨b, hb1, e.symm⟩) hn.1
        · subst e2; exact absurd (List.mem_map.mpr ⟨a, ha1, e⟩) hn.1
        · exact ih hn.2 a ha1 b hb1 e
    exact key _ hall _ (List.mem_map.mpr ⟨f, hf, rfl⟩) _ (List.mem_map.mpr ⟨f', hf', rfl⟩) e
  -- the request calls about a name
  have hfilter : ∀ (gs : List Field), (gs.map Field.name).Nodup → ∀ g ∈ gs,
      (gs.filterMap (fieldCall sc self)).filter (fun c => c.key == g.name) =
        (fieldCall sc self g).toList := by
    intro gs
    induction gs with
    | nil => intro _ g hg; simp at hg
    | cons x gs ih =>
      intro hn g hg
      rw [List.map_cons, List.nodup_cons] at hn
      have hx : (x :: gs).filterMap (fieldCall sc self) =
          (fieldCall sc self x).toList ++ gs.filterMap (fieldCall sc self) := by
        cases hc : fieldCall sc self x <;> simp [hc]
      rw [hx, List.filter_append]
      rcases List.mem_cons.mp hg with e | hg
      · subst e
        have h1 : (gs.filterMap (fieldCall sc self)).filter (fun c => c.key == g.name) = [] := by
          rw [List.filter_eq_nil_iff]
          intro c hc
          obtain ⟨y, hy, hyc⟩ := List.mem_filterMap.mp hc
          obtain ⟨_, -, -, hk⟩ := fieldCall_shape sc self y c hyc
          rw [hk]
          intro e
          exact hn.1 (List.mem_map.mpr ⟨y, hy, by simpa using e⟩)
        rw [h1, List.append_nil]
        cases hc : fieldCall sc self g with
        | none => rfl
        | some c =>
          obtain ⟨_, -, -, hk⟩ := fieldCall_shape sc self g c hc
          simp [hk]
      · rw [ih hn.2 g hg]
        have h1 : (fieldCall sc self x).toList.filter (fun c => c.key == g.name) = [] := by
          cases hc : fieldCall sc self x with
          | none => rfl
          | some c =>
            obtain ⟨_, -, -, hk⟩ := fieldCall_shape sc self x c hc
            have : ¬ x.name = g.name := by
              intro e; exact hn.1 (List.mem_map.mpr ⟨g, hg, e.symm⟩)
            simp [hk, this]
        rw [h1, List.nil_append]
  have hcs : ∀ k, (weaveCalls sc self allProto (kept (sortByName (fs.map (understood S))))).filter
      (fun c => c.isRequest && c.key == k) =
      ((kept (sortByName (fs.map (understood S)))).filterMap (fieldCall sc self)).filter
        (fun c => c.key == k) := by
    intro k
    rw [← weaveCalls_requests sc self allProto, List.filter_filter]
    congr 1; funext c; rw [Bool.and_comm]
  refine ⟨_, isTrace_request sc self _, fun f hf => ⟨_, hdesc f hf⟩, ?_, ?_, ?_⟩
  · intro f hf g hg c hc
    have := describes_unique hg (hdesc f hf)
    subst this
    have hk : understood S f ∈ kept (sortByName (fs.map (understood S))) :=
      (hmem _).mpr ⟨⟨f, hf, rfl⟩, hc.1⟩
    rw [hcs, ← fieldName_eq, hfilter _ hn _ hk,
      (fieldCall_iff sc self _ hc.1 c).mpr hc]
    rfl
  · intro f hf g hg hc
    have := describes_unique hg (hdesc f hf)
    subst this
    rw [hcs, ← fieldName_eq]
    by_cases hs : (understood S f).info.skip = true
    · rw [List.filter_eq_nil_iff]
      intro c hmemc
      obtain ⟨y, hy, hyc⟩ := List.mem_filterMap.mp hmemc
      obtain ⟨_, -, -, hk⟩ := fieldCall_shape sc self y c hyc
      obtain ⟨⟨f', hf', rfl⟩, hy'⟩ := (hmem y).mp hy
      rw [hk]
      intro e
      have := hinj f' hf' f hf (by simpa using e)
      rw [this, hs] at hy'; cases hy'
    · have hs' : (understood S f).info.skip = false := by simpa using hs
      rw [hfilter _ hn _ ((hmem _).mpr ⟨⟨f, hf, rfl⟩, hs'⟩)]
      cases hfc : fieldCall sc self (understood S f) with
      | none => rfl
      | some c => exact absurd ⟨c, (fieldCall_iff sc self _ hs' c).mp hfc⟩ hc
  · intro c hmemc hreq
    have : c ∈ (weaveCalls sc self allProto (kept (sortByName (fs.map (understood S))))).filter
        Call.isRequest := List.mem_filter.mpr ⟨hmemc, hreq⟩
    rw [weaveCalls_requests] at this
    obtain ⟨g, hg, hgc⟩ := List.mem_filterMap.mp this
    obtain ⟨⟨f, hf, rfl⟩, hs⟩ := (hmem g).mp hg
    exact ⟨f, hf, _, hdesc f hf, (fieldCall_iff sc self _ hs c).mp hgc⟩

/-- Values for the examples: texts and options of texts. -/
inductive Val
  | str (s : Bytes)
  | opt (o : Option Bytes)

/-- `Display`, `Option::as_ref`, the function `quoted` and the predicate `str::is_empty`. -/
def exampleScope : Scope Val where
  display | .str s => .ofBytes s | .opt _ => ⟨[], .err⟩
  asRef | .opt (some s) => some (.str s) | _ => none
  fmt _ v := match v with
    | .str s => ⟨[b!"<", s, b!">"], .ok⟩
    | .opt _ => ⟨[], .err⟩
  pred _ v := match v with
    | .str s => s.isEmpty
    | .opt _ => false

/-- A struct that uses every attribute: `q: Option<String>` with `skip_if` and `fmt`, `a: String` sent
as `zeta` and already encoded, `note: String` skipped, `oauth_token: Alias` with `option = true`. -/
def exampleFields : List (SynField (List Tok)) :=
  [⟨[oauth1Attr (listToks [nameValue b!"skip_if" (.path b!"str::is_empty"),
      nameValue b!"fmt" (.path b!"quoted")])], b!"q", .path false [(b!"Option", .angleBracketed 1)]⟩,
   ⟨[oauth1Attr (listToks [nameValue b!"rename" (.litStr b!"zeta"), word b!"encoded"])], b!"a",
      .path false [(b!"String", .none)]⟩,
   ⟨[oauth1Attr (listToks [word b!"skip"])], b!"note", .path false [(b!"String", .none)]⟩,
   ⟨[oauth1Attr (listToks [nameValue b!"option" (.litBool true)])], b!"r#oauth_token",
      .path false [(b!"Alias", .none)]⟩]

/-- The macro accepts it, in any order of declaration. -/
def exampleBody : List Stmt :=
  weaveStmts allProto (kept (sortByName (exampleFields.map (understood tokSyn))))

example : (expand ⟨true, true, .std⟩ tokSyn .manifestDirNotSet (fun _ => true)
      ⟨[], some exampleFields⟩).toOption =
      some (.impl (.externCrate b!"oauth1_request") exampleBody) ∧
    (expand ⟨true, true, .std⟩ tokSyn .manifestDirNotSet (fun _ => true)
      ⟨[], some exampleFields.reverse⟩).toOption =
      some (.impl (.externCrate b!"oauth1_request") exampleBody) := by decide +kernel

theorem exampleFields_ok : expand ⟨true, true, .std⟩ tokSyn .manifestDirNotSet (fun _ => true)
    ⟨[], some exampleFields⟩ = .ok (.impl (.externCrate b!"oauth1_request") exampleBody) := by
  have h : (expand ⟨true, true, .std⟩ tokSyn .manifestDirNotSet (fun _ => true)
      ⟨[], some exampleFields⟩).toOption =
      some (.impl (.externCrate b!"oauth1_request") exampleBody) := by decide +kernel
  cases he : expand ⟨true, true, .std⟩ tokSyn .manifestDirNotSet (fun _ => true)
      ⟨[], some exampleFields⟩ with
  | error e => rw [he] at h; cases h
  | ok x => rw [he] at h; cases h; rfl

/-- What the theorems above say of it. -/
example : expand ⟨true, true, .std⟩ tokSyn .manifestDirNotSet (fun _ => true)
    ⟨[], some exampleFields.reverse⟩ = .ok (.impl (.externCrate b!"oauth1_request") exampleBody) :=
  (C21_declaration_order _ tokSyn_lawful _ _ _ (List.reverse_perm _).symm _ _).mp exampleFields_ok
example (self : Bytes → Val) := C21_as_assert_sorted _ tokSyn_lawful _ _ _ _ _ _ exampleFields_ok
  exampleScope self
example (self : Bytes → Val) := C22_fields _ tokSyn_lawful _ _ _ _ _ _ exampleFields_ok exampleScope self
example (self : Bytes → Val) := C17_derived _ tokSyn_lawful _ _ _ _ _ _ exampleFields_ok
  exampleScope self

/-- What a value of that struct is sent as. -/
example : weaveCalls exampleScope (fun i => if i = b!"q" then .opt (some b!"x") else
      if i = b!"oauth_token" then .opt (some b!"t") else .str b!"1%20") allProto
      (kept (sortByName (exampleFields.map (understood tokSyn)))) =
    [.oauth .callback, .oauth .consumerKey, .oauth .nonce, .oauth .signatureMethod,
     .oauth .timestamp, .parameter b!"oauth_token" (.ofBytes b!"t"), .oauth .token, .oauth .verifier,
     .oauth .version, .parameter b!"q" ⟨[b!"<", b!"x", b!">"], .ok⟩,
     .parameterEncoded b!"zeta" (.ofBytes b!"1%20")] := by decide +kernel

/-- With an empty text and `None`. -/
example : weaveCalls exampleScope (fun i => if i = b!"q" then .opt (some b!"") else
      if i = b!"oauth_token" then .opt none else .str b!"1%20") allProto
      (kept (sortByName (exampleFields.map (understood tokSyn)))) =
    allProto.map .oauth ++ [.parameterEncoded b!"zeta" (.ofBytes b!"1%20")] := by decide +kernel

/-! ### C23: names -/

/-- The claim of C23: accepted structs have distinct names and URI-safe keys, and a name reported as a
duplicate belongs to two fields. -/
def C23_claim : Prop :=
  ∀ (τ : Type) (S : Syn τ), Lawful S → ∀ (cfg : Cfg) (lookup : CrateLookup) (isIdent : Bytes → Bool)
    (attrs : List (Attribute τ)) (fs : List (SynField τ)),
    (∀ i body, expand cfg S lookup isIdent ⟨attrs, some fs⟩ = .ok (.impl i body) →
      (∀ (V : Type) (sc : Scope V) (self : Bytes → V) (cs : List Call),
        IsTrace (Derive.request sc self body) cs →
          ((cs.filter Call.isRequest).map Call.key).Nodup ∧
          ∀ c ∈ cs, c.isRequest = true → ∀ b ∈ c.key, unreserved b = true)) ∧
    (∀ es fb, expand cfg S lookup isIdent ⟨attrs, some fs⟩ = .ok (.errors es fb) →
      ∀ n, .duplicateParameter n ∈ es → ∀ gs cx, newFields S fs [] = .ok (gs, cx) →
        2 ≤ (gs.map parameterName).count n)

/-- C23, names: all fields of an accepted struct (skipped or not) have distinct, non-empty names. -/
theorem C23_distinct_names (cfg : Cfg) {S : Syn τ} (hS : Lawful S) (lookup : CrateLookup)
    (isIdent : Bytes → Bool) (attrs : List (Attribute τ)) (fs : List (SynField τ)) (i : Import)
    (body : List Stmt) (h : expand cfg S lookup isIdent ⟨attrs, some fs⟩ = .ok (.impl i body)) :
    ∃ gs, newFields S fs [] = .ok (gs, []) ∧ (gs.map parameterName).Nodup ∧
      [] ∉ gs.map parameterName := by
  obtain ⟨h1, h2, -, -⟩ := (expand_impl_iff cfg hS _ _ _ _ _ _).mp h
  have e : Field.name = parameterName := funext fieldName_eq
  rw [e] at h2
  have h3 := List.nodup_cons.mp h2
  exact ⟨fs.map (understood S), by rw [newFields_eq hS, h1]; rfl, h3.2, h3.1⟩

/-- The struct of the examples. -/
example := C23_distinct_names _ tokSyn_lawful _ _ _ _ _ _ exampleFields_ok

/-- C23, converse: a struct whose fields are in order and have distinct, non-empty names is not
rejected on account of its fields. -/
theorem C23_accepts (cfg : Cfg) {S : Syn τ} (hS : Lawful S) (isIdent : Bytes → Bool)
    (hid : isIdent b!"oauth1_request" = true) (fs : List (SynField τ))
    (hok : ∀ f ∈ fs, ∃ info, FieldMeta.new S f.attrs [] = .ok (info, []))
    (gs : List Field) (hgs : newFields S fs [] = .ok (gs, []))
    (hn : ([] :: gs.map parameterName).Nodup) :
    ∃ body, expand cfg S .manifestDirNotSet isIdent ⟨[], some fs⟩ =
      .ok (.impl (.externCrate b!"oauth1_request") body) := by
  refine ⟨_, (expand_impl_iff cfg hS _ _ _ _ _ _).mpr ⟨?_, ?_, ?_, rfl⟩⟩
  · rw [List.flatMap_eq_nil_iff]
    intro f hf
    obtain ⟨info, hi⟩ := hok f hf
    simp [fieldErrors, Field.new, hi, Except.ok_bind']
  · rw [newFields_eq hS] at hgs
    simp only [Except.ok.injEq, Prod.mk.injEq] at hgs
    rw [hgs.1, funext fieldName_eq]; exact hn
  · exact ⟨{}, rfl, by simp [importOf, hid]⟩

example : ∃ body, expand ⟨true, true, .std⟩ tokSyn .manifestDirNotSet (fun _ => true) ⟨[], some exampleFields⟩ =
    .ok (.impl (.externCrate b!"oauth1_request") body) := by
  obtain ⟨gs, h1, h2, h3⟩ := C23_distinct_names _ tokSyn_lawful _ _ _ _ _ _ exampleFields_ok
  refine C23_accepts _ tokSyn_lawful _ rfl _ (fun f hf => ?_) gs h1 (List.nodup_cons.mpr ⟨h3, h2⟩)
  have : ∀ f ∈ exampleFields, (FieldMeta.new tokSyn f.attrs []).toOption.map (·.2) = some [] := by
    decide +kernel
  have := this f hf
  cases he : FieldMeta.new tokSyn f.attrs [] with
  | error e => rw [he] at this; cases this
  | ok x =>
    rw [he] at this
    exact ⟨x.1, by rw [← Option.some.inj this]⟩

/-- The duplicates reported: those found in the sorted fields, and no others. -/
theorem duplicate_mem_iff (cfg : Cfg) {S : Syn τ} (hS : Lawful S) (lookup : CrateLookup)
    (isIdent : Bytes → Bool) (attrs : List (Attribute τ)) (fs : List (SynField τ)) {es : List Err}
    {fb : Bool} (h : expand cfg S lookup isIdent ⟨attrs, some fs⟩ = .ok (.errors es fb)) (n : Bytes) :
    .duplicateParameter n ∈ es ↔
      .duplicateParameter n ∈ reported (sortByName (fs.map (understood S))) [] := by
  obtain ⟨info, es1, hc⟩ := container_eq hS attrs
  constructor
  case mpr =>
    intro hm
    unfold expand at h
    simp only [newFields_eq hS, Except.ok_bind', checkDuplicates_eq, hc, List.nil_append] at h
    rcases importOf_cx lookup isIdent info with ⟨e, he⟩ | ⟨j, es2, hi⟩
    · simp only [he] at h; cases h
    · simp only [hi, Except.ok_bind', methodBody_eq] at h
      split at h
      · simp only [Except.ok.injEq, Expansion.errors.injEq] at h
        rw [← h.1]
        simp only [List.mem_append]
        exact .inl (.inl (.inr hm))
      · cases h
  case mp =>
    intro hmem
    have noDup : ∀ m : Err, (∀ f ∈ fs, m ∉ fieldErrors S f) → m ∉ es1 →
        (∀ es2 j, (∀ cx, importOf lookup isIdent info cx = .ok (j, cx ++ es2)) → m ∉ es2) →
        m ∈ es → m ∈ reported (sortByName (fs.map (understood S))) [] := by
      intro m hm1 hm2 hm3 hm
      unfold expand at h
      simp only [newFields_eq hS, Except.ok_bind', checkDuplicates_eq, hc, List.nil_append] at h
      rcases importOf_cx lookup isIdent info with ⟨e, he⟩ | ⟨j, es2, hi⟩
      · simp only [he] at h; cases h
      · simp only [hi, Except.ok_bind', methodBody_eq] at h
        split at h
        · simp only [Except.ok.injEq, Expansion.errors.injEq] at h
          rw [← h.1] at hm
          simp only [List.mem_append] at hm
          rcases hm with ((hm | hm) | hm) | hm
          · obtain ⟨f, hf, hm⟩ := List.mem_flatMap.mp hm
            exact absurd hm (hm1 f hf)
          · exact hm
          · exact absurd hm hm2
          · exact absurd hm (hm3 es2 j hi)
        · cases h
    -- errors of attributes and of the lookup are of other kinds
    have arms : ∀ (m : FieldMeta) (x : Meta), m.addMeta x ≠ .error (.duplicateParameter n) := by
      intro m x
      have hv : ∀ {α : Type} (f : Expr → Except Err α) (nm : Bytes) (k : MetaKind) (c : Option α),
          (∀ e, f e ≠ .error (.duplicateParameter n)) →
          valueArm f nm k c ≠ .error (.duplicateParameter n) := by
        intro α f nm k c hf
        cases k with
        | path => simp [valueArm]
        | list => simp [valueArm]
        | nameValue e =>
          simp only [valueArm]
          cases hfe : f e with
          | error x => intro hx; exact hf e (by rw [hfe]; rw [Except.error_bind'] at hx; cases hx; rfl)
          | ok v => rw [Except.ok_bind']; cases c <;> simp
      have hb : ∀ nm k c, boolArm nm k c ≠ .error (.duplicateParameter n) := by
        intro nm k c; cases k <;> cases c <;> simp [boolArm]
      have bindNe : ∀ {α : Type} (x : Except Err α) (f : α → FieldMeta),
          x ≠ .error (.duplicateParameter n) →
          (do let v ← x; Except.ok (f v) : Except Err FieldMeta) ≠ .error (.duplicateParameter n) := by
        intro α x f hx
        cases x with
        | error e => intro h; rw [Except.error_bind'] at h; cases h; exact hx rfl
        | ok v => intro h; cases h
      have hp : ∀ e, pathFromExpr e ≠ .error (.duplicateParameter n) := by
        intro e; cases e <;> simp [pathFromExpr]
      have hbo : ∀ e, boolFromExpr e ≠ .error (.duplicateParameter n) := by
        intro e; cases e <;> simp [boolFromExpr]
      have hu : ∀ e, uriSafeFromExpr e ≠ .error (.duplicateParameter n) := by
        intro e
        cases e <;> simp [uriSafeFromExpr]
        split <;> simp
      unfold FieldMeta.addMeta
      split
      · simp
      · repeat' split
        · exact bindNe _ _ (hb _ _ _)
        · exact bindNe _ _ (hv _ _ _ _ hp)
        · exact bindNe _ _ (hv _ _ _ _ hbo)
        · exact bindNe _ _ (hv _ _ _ _ hu)
        · exact bindNe _ _ (hb _ _ _)
        · exact bindNe _ _ (hv _ _ _ _ hp)
        · simp
    have cont : ∀ (m : ContainerMeta) (x : Meta), m.addMeta x ≠ .error (.duplicateParameter n) := by
      intro m x
      unfold ContainerMeta.addMeta
      split
      · simp
      · split
        · cases x.kind with
          | path => simp [valueArm, bind, Except.bind]
          | list => simp [valueArm, bind, Except.bind]
          | nameValue e =>
            cases e <;> cases m.krate <;> simp [valueArm, bind, Except.bind, pathFromExpr]
        · simp
    have parse := fun (a : Attribute τ) e => parseArgs_error (S := S) (a := a) (e := e)
    have loop : ∀ {μ : Type} (add : μ → Meta → Except Err μ),
        (∀ m x, add m x ≠ .error (.duplicateParameter n)) → ∀ (as : List (Attribute τ)) (m r : μ)
        (cx cx' : Ctxt), newMeta S add as m cx = .ok (r, cx') → .duplicateParameter n ∉ cx →
        .duplicateParameter n ∉ cx' := by
      intro μ add hadd as
      induction as with
      | nil => intro m r cx cx' h hcx; cases h; exact hcx
      | cons a as ih =>
        intro m r cx cx' h hcx
        unfold newMeta at h
        split at h
        · obtain ⟨x, h1, h2⟩ := Except.bind_ok_iff.mp h
          cases x with
          | error e =>
            refine ih _ _ _ _ h2 ?_
            rw [parse a e h1]
            simp [Ctxt.addError, hcx]
          | ok l =>
            have fold : ∀ (l : List Meta) (m : μ) (cx : Ctxt), .duplicateParameter n ∉ cx →
                .duplicateParameter n ∉ (foldItems add l (m, cx)).2 := by
              intro l
              induction l with
              | nil => intro m cx hcx; exact hcx
              | cons x l ihl =>
                intro m cx hcx
                cases hx : add m x with
                | ok m' =>
                  have : foldItems add (x :: l) (m, cx) = foldItems add l (m', cx) := by
                    simp [foldItems, hx]
                  rw [this]; exact ihl _ _ hcx
                | error e =>
                  have : foldItems add (x :: l) (m, cx) = foldItems add l (m, cx.addError e) := by
                    simp [foldItems, hx]
                  rw [this]
                  refine ihl _ _ ?_
                  have : e ≠ .duplicateParameter n := fun he => hadd m x (by rw [hx, he])
                  simp [Ctxt.addError, hcx, this.symm]
            exact ih _ _ _ _ h2 (fold l m cx hcx)
        · exact ih _ _ _ _ h hcx
    exact noDup (.duplicateParameter n)
      (by
        intro f hf hm
        have h1 := fieldNew_eq hS f []
        unfold Field.new at h1
        obtain ⟨⟨info', cx'⟩, h2, h3⟩ := Except.bind_ok_iff.mp h1
        simp only [List.nil_append, Except.ok.injEq, Prod.mk.injEq] at h3
        refine loop _ arms _ _ _ _ _ h2 (by simp) ?_
        rw [h3.2]; exact hm)
      (by
        intro hm
        exact loop _ cont _ _ _ _ _ (hc []) (by simp) (by simpa using hm))
      (by
        intro es2 j hi hm
        have h1 := hi []
        unfold importOf at h1
        repeat' split at h1
        all_goals try (simp only at h1; split at h1)
        all_goals
          first
          | (cases h1; done)
          | (simp only [Except.ok.injEq, Prod.mk.injEq, List.nil_append, Ctxt.addError] at h1
             rw [← h1.2] at hm; simp at hm))
      hmem

/-- C23 without non-ASCII identifiers and without the empty name: what is missing from `C23_claim` is the
case of identifiers with reserved bytes, and of the name `""` being reported although it occurs once. -/
theorem C23_partial (cfg : Cfg) {S : Syn τ} (hS : Lawful S) (lookup : CrateLookup)
    (isIdent : Bytes → Bool) (attrs : List (Attribute τ)) (fs : List (SynField τ))
    (hident : ∀ f ∈ fs, ∀ n, NameOf f.ident n → ∀ b ∈ n, unreserved b = true) :
    (∀ i body, expand cfg S lookup isIdent ⟨attrs, some fs⟩ = .ok (.impl i body) →
      (∀ (V : Type) (sc : Scope V) (self : Bytes → V) (cs : List Call),
        IsTrace (Derive.request sc self body) cs →
          ((cs.filter Call.isRequest).map Call.key).Nodup ∧
          ∀ c ∈ cs, c.isRequest = true → ∀ b ∈ c.key, unreserved b = true)) ∧
    (∀ es fb, expand cfg S lookup isIdent ⟨attrs, some fs⟩ = .ok (.errors es fb) →
      ∀ n, n ≠ [] → .duplicateParameter n ∈ es → ∀ gs cx, newFields S fs [] = .ok (gs, cx) →
        2 ≤ (gs.map parameterName).count n) := by
  constructor
  · intro i body h V sc self cs htr
    obtain ⟨herr, hnodup, -, hbody⟩ := (expand_impl_iff cfg hS _ _ _ _ _ _).mp h
    rw [List.flatMap_eq_nil_iff] at herr
    subst hbody
    have := isTrace_unique htr (isTrace_request sc self _)
    subst this
    have hkey : ∀ gs : List Field, ((gs.filterMap (fieldCall sc self)).map Call.key).Sublist
        (gs.map Field.name) := by
      intro gs
      induction gs with
      | nil => exact List.Sublist.refl _
      | cons g gs ih =>
        cases hc : fieldCall sc self g with
        | none => simp only [List.filterMap_cons, hc, List.map_cons]; exact ih.cons _
        | some c =>
          obtain ⟨_, -, -, hk⟩ := fieldCall_shape sc self g c hc
          simp only [List.filterMap_cons, hc, List.map_cons, hk]; exact ih.cons₂ _
    have hn : ((kept (sortByName (fs.map (understood S)))).map Field.name).Nodup := by
      refine List.Nodup.sublist (List.Sublist.map _ List.filter_sublist) ?_
      exact (((sortByName_perm _).map _).nodup_iff).mpr (List.nodup_cons.mp hnodup).2
    refine ⟨?_, ?_⟩
    · rw [weaveCalls_requests]
      exact List.Nodup.sublist (hkey _) hn
    · intro c hc hreq b hb
      have : c ∈ (weaveCalls sc self allProto (kept (sortByName (fs.map (understood S))))).filter
          Call.isRequest := List.mem_filter.mpr ⟨hc, hreq⟩
      rw [weaveCalls_requests] at this
      obtain ⟨g, hg, hgc⟩ := List.mem_filterMap.mp this
      obtain ⟨_, -, -, hk⟩ := fieldCall_shape sc self g c hgc
      have hg' : g ∈ fs.map (understood S) :=
        (sortByName_perm _).mem_iff.mp (List.mem_filter.mp hg).1
      obtain ⟨f, hf, rfl⟩ := List.mem_map.mp hg'
      have hd := understood_describes hS f (herr f hf)
      rw [hk, fieldName_eq, parameterName] at hb
      cases hr : (understood S f).info.rename with
      | none =>
        rw [hr] at hb
        exact hident f hf _ hd.ident b hb
      | some n =>
        rw [hr] at hb
        obtain ⟨m, -, hw⟩ := (hd.info.rename n).mp hr
        exact hw.2.2 n rfl b hb
  · intro es fb h n hne hmem gs cx hgs
    rw [newFields_eq hS] at hgs
    simp only [Except.ok.injEq, Prod.mk.injEq] at hgs
    obtain ⟨rfl, -⟩ := hgs
    have hrep := (duplicate_mem_iff cfg hS lookup isIdent attrs fs h n).mp hmem
    rcases reported_sound _ _ _ hrep with ⟨rest, h1, -⟩ | h1
    · exact absurd h1.symm hne
    · rw [((sortByName_perm _).map _).count_eq] at h1
      rwa [funext fieldName_eq] at h1

/-- The struct of the examples. -/
example := (C23_partial ⟨true, true, .std⟩ tokSyn_lawful .manifestDirNotSet (fun _ => true) [] exampleFields
  (by simp only [nameOf_iff, forall_eq]; decide +kernel)).1 _ _ exampleFields_ok

/-- A lone field with an empty name is reported as a duplicate. -/
theorem C23_empty_name_reported : ∃ fs : List (SynField (List Tok)), fs.length = 1 ∧
    expand ⟨true, true, .std⟩ tokSyn .manifestDirNotSet (fun _ => true) ⟨[], some fs⟩ =
      .ok (.errors [.duplicateParameter []] true) := by
  refine ⟨[⟨[oauth1Attr (listToks [nameValue b!"rename" (.litStr [])])], b!"a", .other⟩], rfl, ?_⟩
  rfl

/-- An identifier outside ASCII (here `ñ`) becomes a key that is not URI-safe. -/
theorem C23_non_ascii_key : ∃ (body : List Stmt),
    expand ⟨true, true, .std⟩ tokSyn .manifestDirNotSet (fun _ => true)
      ⟨[], some [⟨[], b!"ñ", .other⟩]⟩ = .ok (.impl (.externCrate b!"oauth1_request") body) ∧
    ∃ cs, IsTrace (Derive.request exampleScope (fun _ => .str b!"1") body) cs ∧
      Call.parameter b!"ñ" (.ofBytes b!"1") ∈ cs ∧ ¬ ∀ b ∈ b!"ñ", unreserved b = true := by
  refine ⟨_, (expand_impl_iff _ tokSyn_lawful _ _ _ _ _ _).mpr ⟨?_, ?_, ⟨{}, rfl, rfl⟩, rfl⟩, _,
    isTrace_request _ _ _, ?_, ?_⟩ <;> decide +kernel

/-- A field may be called like a protocol parameter: the request then has two parameters of that name. -/
theorem C23_protocol_name : ∃ (body : List Stmt),
    expand ⟨true, true, .std⟩ tokSyn .manifestDirNotSet (fun _ => true)
      ⟨[], some [⟨[], b!"oauth_nonce", .other⟩]⟩ =
        .ok (.impl (.externCrate b!"oauth1_request") body) ∧
    ∃ cs, IsTrace (Derive.request exampleScope (fun _ => .str b!"1") body) cs ∧
      (cs.map Call.key).count b!"oauth_nonce" = 2 := by
  refine ⟨_, (expand_impl_iff _ tokSyn_lawful _ _ _ _ _ _).mpr ⟨?_, ?_, ⟨{}, rfl, rfl⟩, rfl⟩, _,
    isTrace_request _ _ _, ?_⟩ <;> decide +kernel

/-- So the claim is false, on both counts. -/
theorem C23_violated : ¬ C23_claim := by
  intro h
  obtain ⟨body, h1, cs, h2, h3, h4⟩ := C23_non_ascii_key
  exact h4 (((h _ _ tokSyn_lawful _ _ _ _ _).1 _ _ h1 _ _ _ _ h2).2 _ h3 rfl)

theorem C23_violated_duplicates : ¬ C23_claim := by
  intro h
  obtain ⟨fs, hl, he⟩ := C23_empty_name_reported
  have := (h _ _ tokSyn_lawful _ _ _ _ _).2 _ _ he [] (by simp) _ _ (newFields_eq tokSyn_lawful fs [])
  have h2 := List.count_le_length (a := ([] : Bytes))
    (l := (fs.map (understood tokSyn)).map parameterName)
  rw [List.length_map, List.length_map, hl] at h2
  omega

/-- Two fields that really share a name, one of them skipped: still rejected. -/
example : (expand ⟨true, true, .std⟩ tokSyn .manifestDirNotSet (fun _ => true) ⟨[], some
      [⟨[], b!"x", .other⟩, ⟨[oauth1Attr (listToks [nameValue b!"rename" (.litStr b!"x"),
        word b!"skip"])], b!"y", .other⟩]⟩).toOption =
    some (.errors [.duplicateParameter b!"x"] true) := by decide +kernel

end OAuth
