import Verif.Spec.Macros

/-
C75, C76, C77: the macros of oauth1-request/src/util.rs.
-/

namespace OAuth

open Spec Macros

/-! ### C75: `cfg_type_param_hack!` -/

theorem cfgTypeParamInner_items (build : Bytes → Bool) (s : Shell)
    (params : List (Option ParamAttr × TypeParam)) (accum : List TypeParam) (t : Tree)
    (h : cfgTypeParamInner s accum params = some t) :
    t.items build = [(s, accum ++ keptParams build params)] := by
  induction params generalizing accum t with
  | nil =>
    rw [cfgTypeParamInner] at h
    cases h
    simp [Tree.items, keptParams]
  | cons x rest ih =>
    obtain ⟨a, q⟩ := x
    cases a with
    | none =>
      rw [cfgTypeParamInner] at h
      rw [ih _ _ h]
      simp [keptParams]
    | some a =>
      cases a with
      | other => rw [cfgTypeParamInner] at h; cases h
      | cfg p =>
        rw [cfgTypeParamInner] at h
        simp only [Option.bind_eq_bind, Option.bind_eq_some_iff] at h
        obtain ⟨t1, h1, t2, h2, h3⟩ := h
        cases h3
        rw [Tree.items, Tree.items, Tree.items, ih _ _ h1, ih _ _ h2]
        cases e : p.eval build <;> simp [Pred.eval, e, keptParams]

theorem cfgTypeParamInner_isSome (s : Shell) (params : List (Option ParamAttr × TypeParam))
    (accum : List TypeParam) : (∃ t, cfgTypeParamInner s accum params = some t) ↔
      ∀ x ∈ params, ∀ text, x.1 ≠ some (.other text) := by
  induction params generalizing accum with
  | nil => simp [cfgTypeParamInner]
  | cons x rest ih =>
    obtain ⟨a, q⟩ := x
    rw [List.forall_mem_cons]
    cases a with
    | none => rw [cfgTypeParamInner, ih]; simp
    | some a =>
      cases a with
      | other text =>
        rw [cfgTypeParamInner]
        simp only [reduceCtorEq, exists_false, false_iff]
        exact fun h => h.1 text rfl
      | cfg p =>
        rw [cfgTypeParamInner]
        simp only [Option.bind_eq_bind, Option.bind_eq_some_iff]
        constructor
        · rintro ⟨t, t1, h1, -⟩
          exact ⟨by simp, (ih _).mp ⟨t1, h1⟩⟩
        · rintro ⟨-, h⟩
          obtain ⟨t1, h1⟩ := (ih (accum ++ [q])).mpr h
          obtain ⟨t2, h2⟩ := (ih accum).mpr h
          exact ⟨_, t1, h1, t2, h2, rfl⟩

/-- C75: in every build exactly one item is left of what `cfg_type_param_hack!` expands to, the one it was
given, with those of the type parameters whose `#[cfg(…)]` holds, in order. -/
theorem C75_one_item (build : Bytes → Bool) (s : Shell) (params : List (Option ParamAttr × TypeParam))
    (t : Tree) (h : cfgTypeParamHack s params = some t) :
    t.items build = [(s, keptParams build params)] :=
  cfgTypeParamInner_items build s params [] t h

/-- C75: the macro fails only on parameters with an attribute other than `#[cfg(…)]`. -/
theorem C75_expands_iff (s : Shell) (params : List (Option ParamAttr × TypeParam)) :
    (∃ t, cfgTypeParamHack s params = some t) ↔ ∀ x ∈ params, ∀ text, x.1 ≠ some (.other text) :=
  cfgTypeParamInner_isSome s params []

/-- C75, for the way the crate uses it: `#[cfg(p)] W = D, #[cfg(not(p))] W` leaves one parameter `W`
between those before and after, with the default exactly in the builds where `p` holds. -/
theorem C75_default (build : Bytes → Bool) (s : Shell) (p : Pred) (before after : List TypeParam)
    (w : Bytes) (b d : Option Bytes) (t : Tree)
    (h : cfgTypeParamHack s (before.map (fun q => (none, q)) ++
      [(some (.cfg p), ⟨w, b, d⟩), (some (.cfg (.not p)), ⟨w, b, none⟩)] ++
      after.map (fun q => (none, q))) = some t) :
    t.items build = [(s, before ++ [⟨w, b, if p.eval build then d else none⟩] ++ after)] := by
  rw [C75_one_item build s _ t h]
  have hn : ∀ l : List TypeParam, keptParams build (l.map fun q => (none, q)) = l := by
    intro l
    induction l with
    | nil => rfl
    | cons q l ih => simpa [keptParams] using ih
  have ha : ∀ l m, keptParams build (l ++ m) = keptParams build l ++ keptParams build m := by
    intro l m; simp [keptParams]
  rw [ha, ha, hn, hn]
  cases e : p.eval build <;> simp [keptParams, Pred.eval, e]

/-- `struct Builder<'a, SM, #[cfg(feature = "alloc")] C = String, #[cfg(not(feature = "alloc"))] C, T = C>`
(lib.rs l.240-255) -/
def builderParams : List (Option ParamAttr × TypeParam) :=
  [(none, ⟨b!"SM", none, none⟩), (some (.cfg (.atom b!"alloc")), ⟨b!"C", none, some b!"String"⟩),
    (some (.cfg (.not (.atom b!"alloc"))), ⟨b!"C", none, none⟩), (none, ⟨b!"T", none, some b!"C"⟩)]

def builderShell : Shell :=
  ⟨[b!"derive(Clone, Debug)"], b!"pub", b!"struct", b!"Builder", [b!"'a"], b!"{ … }", false⟩

/-- It expands to four items behind `cfg`s, … -/
example : (cfgTypeParamHack builderShell builderParams).isSome = true := by decide +kernel

/-- … of which one is left. -/
example : ∃ t, cfgTypeParamHack builderShell builderParams = some t ∧
    t.items (fun f => f == b!"alloc") = [(builderShell, [⟨b!"SM", none, none⟩,
      ⟨b!"C", none, some b!"String"⟩, ⟨b!"T", none, some b!"C"⟩])] ∧
    t.items (fun _ => false) = [(builderShell, [⟨b!"SM", none, none⟩, ⟨b!"C", none, none⟩,
      ⟨b!"T", none, some b!"C"⟩])] := by
  obtain ⟨t, ht⟩ := (C75_expands_iff builderShell builderParams).mpr (by simp [builderParams])
  exact ⟨t, ht, C75_default _ _ (.atom b!"alloc") [_] [_] b!"C" none (some b!"String") t ht,
    C75_default _ _ (.atom b!"alloc") [_] [_] b!"C" none (some b!"String") t ht⟩

/-! ### C76: `doc_auto_cfg!` -/

/-- What the macro makes of the attributes of an item. -/
def addDocCfg (attrs : List Attr) : List Attr :=
  attrs.flatMap fun | .cfg p => [.docCfg p, .cfg p] | a => [a]

theorem docCoerceInner_eq (attrs accum : List Attr) (i : Bytes) :
    docCoerceInner accum attrs i = (accum ++ attrs, i) := by
  induction attrs generalizing accum with
  | nil => rfl
  | cons a attrs ih =>
    cases a with
    | doc e => rw [docCoerceInner, ih]; simp
    | _ => rfl

theorem docCoerceExpr_eq (attrs : List Attr) (i : Bytes) : docCoerceExpr attrs i = (attrs, i) :=
  docCoerceInner_eq attrs [] i

theorem docAutoCfgInner_attrs (attrs accum : List Attr) (i : Bytes) (rest : List Piece) :
    docAutoCfgInner accum (attrs.map .attr ++ .item i :: rest) =
      docAutoCfgInner (accum ++ addDocCfg attrs) (.item i :: rest) := by
  induction attrs generalizing accum with
  | nil => simp [addDocCfg]
  | cons a attrs ih =>
    obtain ⟨x, l, hl⟩ : ∃ x l, attrs.map Piece.attr ++ .item i :: rest = x :: l := by
      cases attrs with
      | nil => exact ⟨_, _, rfl⟩
      | cons b l => exact ⟨_, _, rfl⟩
    rw [List.map_cons, List.cons_append, hl]
    cases a <;> rw [docAutoCfgInner] <;> first
      | (rw [← hl, ih]; simp [addDocCfg])
      | (intro p hp; cases hp)

theorem docAutoCfg_grouped {pieces : List Piece} {items : List (List Attr × Bytes)}
    (h : Grouped pieces items) :
    docAutoCfg pieces = some (items.map fun x => (addDocCfg x.1, x.2)) := by
  unfold docAutoCfg
  induction h with
  | nil => rfl
  | item attrs i _ ih =>
    rw [docAutoCfgInner_attrs, docAutoCfgInner, ih, docCoerceExpr_eq]
    rfl

/-- Input is either grouped, or it ends in attributes without an item. -/
theorem grouped_or (pieces : List Piece) :
    (∃ items, Grouped pieces items) ∨ ∃ init a, pieces = init ++ [.attr a] := by
  suffices h : ∀ (n : Nat) (attrs : List Attr) (pieces : List Piece), pieces.length ≤ n →
      (∃ items, Grouped (attrs.map .attr ++ pieces) items) ∨
        ∃ init a, attrs.map Piece.attr ++ pieces = init ++ [.attr a] by
    simpa using h pieces.length [] pieces (Nat.le_refl _)
  intro n
  induction n with
  | zero =>
    intro attrs pieces hp
    have : pieces = [] := List.length_eq_zero_iff.mp (Nat.le_zero.mp hp)
    subst this
    rcases List.eq_nil_or_concat attrs with rfl | ⟨l, a, rfl⟩
    · exact .inl ⟨[], .nil⟩
    · exact .inr ⟨l.map .attr, a, by simp⟩
  | succ n ih =>
    intro attrs pieces hp
    cases pieces with
    | nil => exact ih attrs [] (Nat.zero_le _)
    | cons x rest =>
      simp only [List.length_cons, Nat.add_le_add_iff_right] at hp
      cases x with
      | attr a =>
        have := ih (attrs ++ [a]) rest hp
        simpa using this
      | item i =>
        rcases ih [] rest hp with ⟨items, h⟩ | ⟨init, a, h⟩
        · exact .inl ⟨_, .item attrs i (by simpa using h)⟩
        · refine .inr ⟨attrs.map .attr ++ .item i :: init, a, ?_⟩
          have : rest = init ++ [.attr a] := by simpa using h
          rw [this]; simp

theorem docAutoCfg_dangling (init : List Piece) (a : Attr) (accum : List Attr) :
    docAutoCfgInner accum (init ++ [.attr a]) = none := by
  induction init generalizing accum with
  | nil => cases a <;> cases accum <;> rfl
  | cons x init ih =>
    obtain ⟨y, l, hl⟩ : ∃ y l, init ++ [Piece.attr a] = y :: l := by
      cases init with
      | nil => exact ⟨_, _, rfl⟩
      | cons b l => exact ⟨_, _, rfl⟩
    rw [List.cons_append]
    cases x with
    | item i => rw [docAutoCfgInner, ih]; rfl
    | attr b =>
      rw [hl]
      cases b <;> rw [docAutoCfgInner] <;> first | (rw [← hl, ih]) | (intro p hp; cases hp)

/-- C76: `doc_auto_cfg!` keeps the items and their order; each has the attributes it had, in order, and for
each `#[cfg(…)]` a `#[doc(cfg(…))]` with the same predicate; so each is kept in the same builds. -/
theorem C76_items {pieces : List Piece} {items : List (List Attr × Bytes)} (h : Grouped pieces items)
    (hnew : ∀ x ∈ items, ∀ a ∈ x.1, Attr.isDocCfg a = false) :
    ∃ out, docAutoCfg pieces = some out ∧ out.map (·.2) = items.map (·.2) ∧
      out.map (fun x => x.1.filter fun a => !Attr.isDocCfg a) = items.map (·.1) ∧
      (∀ x ∈ out, docCfgPreds x.1 = cfgPreds x.1) ∧
      ∀ build, out.map (fun x => present build x.1) = items.map (fun x => present build x.1) := by
  have hf : ∀ attrs : List Attr, (∀ a ∈ attrs, Attr.isDocCfg a = false) →
      (addDocCfg attrs).filter (fun a => !Attr.isDocCfg a) = attrs ∧
      docCfgPreds (addDocCfg attrs) = cfgPreds (addDocCfg attrs) ∧
      cfgPreds (addDocCfg attrs) = cfgPreds attrs := by
    intro attrs
    induction attrs with
    | nil => intro _; exact ⟨rfl, rfl, rfl⟩
    | cons a attrs ih =>
      intro h
      obtain ⟨h1, h2, h3⟩ := ih fun b hb => h b (List.mem_cons_of_mem _ hb)
      have ha := h a (List.mem_cons_self ..)
      simp only [addDocCfg, docCfgPreds, cfgPreds] at h1 h2 h3 ⊢
      cases a <;> simp_all [Attr.isDocCfg]
  refine ⟨_, docAutoCfg_grouped h, by simp, ?_, ?_, ?_⟩
  · rw [List.map_map]
    exact List.map_congr_left fun x hx => (hf x.1 (hnew x hx)).1
  · intro y hy
    obtain ⟨x, hx, rfl⟩ := List.mem_map.mp hy
    exact (hf x.1 (hnew x hx)).2.1
  · intro build
    rw [List.map_map]
    refine List.map_congr_left fun x hx => ?_
    simp only [Function.comp, present, (hf x.1 (hnew x hx)).2.2]

/-- C76: it fails exactly on input that ends in an attribute. -/
theorem C76_expands_iff (pieces : List Piece) :
    (∃ out, docAutoCfg pieces = some out) ↔ ∃ items, Grouped pieces items := by
  constructor
  · rintro ⟨out, h⟩
    rcases grouped_or pieces with hg | ⟨init, a, rfl⟩
    · exact hg
    · rw [docAutoCfg, docAutoCfg_dangling] at h; cases h
  · rintro ⟨items, h⟩; exact ⟨_, docAutoCfg_grouped h⟩

/-- `#[cfg(feature = "hmac-sha1")] pub use …; pub use …; /// … #[cfg(…)] pub use …;` -/
def examplePieces : List Piece :=
  [.attr (.cfg (.atom b!"hmac-sha1")), .item b!"pub use self::hmac_sha1::HmacSha1;",
    .item b!"pub use self::plaintext::Plaintext;", .attr (.doc b!"\"PLAINTEXT\""), .attr (.other b!"inline"),
    .attr (.cfg (.atom b!"alloc")), .item b!"pub use self::plaintext::PLAINTEXT;"]

def exampleItems : List (List Attr × Bytes) :=
  [([.cfg (.atom b!"hmac-sha1")], b!"pub use self::hmac_sha1::HmacSha1;"),
    ([], b!"pub use self::plaintext::Plaintext;"),
    ([.doc b!"\"PLAINTEXT\"", .other b!"inline", .cfg (.atom b!"alloc")],
      b!"pub use self::plaintext::PLAINTEXT;")]

theorem examplePieces_grouped : Grouped examplePieces exampleItems :=
  .item [_] _ (.item [] _ (.item [_, _, _] _ .nil))

example := C76_items examplePieces_grouped (by decide +kernel)
example : docAutoCfg examplePieces = some
    [([.docCfg (.atom b!"hmac-sha1"), .cfg (.atom b!"hmac-sha1")], b!"pub use self::hmac_sha1::HmacSha1;"),
      ([], b!"pub use self::plaintext::Plaintext;"),
      ([.doc b!"\"PLAINTEXT\"", .other b!"inline", .docCfg (.atom b!"alloc"), .cfg (.atom b!"alloc")],
        b!"pub use self::plaintext::PLAINTEXT;")] := by decide +kernel
example : docAutoCfg (examplePieces ++ [.attr (.other b!"inline")]) = none := by decide +kernel

/-! ### C77: `options!` -/

/-- The claim of C77: whatever types the fields of a struct in `options!` have, the setters compile. -/
def C77_claim : Prop := ∀ fields : List (Bytes × FieldTy), SettersCompile (options fields)

theorem mem_implSetters (fields : List (Bytes × FieldTy)) (s : Setter) :
    s ∈ implSetters fields ↔ ∃ f ∈ fields, s = match f with
      | (n, .option t) => ⟨n, .intoOption t, true⟩
      | (n, .bool) => ⟨n, .bool, false⟩
      | (n, .other t) => ⟨n, .intoOption t, false⟩ := by
  induction fields with
  | nil => simp [implSetters]
  | cons f fields ih =>
    obtain ⟨n, ty⟩ := f
    cases ty <;> simp [implSetters, ih]

/-- C77, exactly: the setters compile if and only if every field is a `bool` or (by that name) an
`Option<…>`: the rule for other types assigns the argument as it is. -/
theorem C77_iff (fields : List (Bytes × FieldTy)) :
    SettersCompile (options fields) ↔ ∀ f ∈ fields, ∀ t, f.2 ≠ .other t := by
  unfold SettersCompile options
  simp only [mem_implSetters]
  constructor
  · rintro h ⟨n, ty⟩ hf t ht
    simp only at ht
    subst ht
    obtain ⟨g, -, -, hw⟩ := h _ ⟨_, hf, rfl⟩
    obtain ⟨m, ty⟩ := g
    cases ty <;> simp [SetterTyped] at hw
  · rintro h s ⟨⟨n, ty⟩, hf, rfl⟩
    refine ⟨_, hf, ?_⟩
    cases ty with
    | option t => exact ⟨rfl, rfl⟩
    | bool => exact ⟨rfl, trivial⟩
    | other t => exact absurd rfl (h _ hf t)

/-- C77 for the types that `auth::Options` uses. -/
theorem C77_partial (fields : List (Bytes × FieldTy))
    (h : ∀ f ∈ fields, f.2 = .bool ∨ ∃ t, f.2 = .option t) : SettersCompile (options fields) := by
  refine (C77_iff fields).mpr fun f hf t ht => ?_
  rcases h f hf with e | ⟨u, e⟩ <;> rw [e] at ht <;> cases ht

/-- C77 is violated by a field of another type. -/
theorem C77_violated : ¬ C77_claim := by
  intro h
  exact (C77_iff _).mp (h [(b!"retries", .other b!"u32")]) _ (List.mem_cons_self ..) _ rfl

/-- C77: there is one setter for each field, in order, by its name; it changes that field and no other, and
the last of several calls to it counts. -/
theorem C77_setters (fields : List (Bytes × FieldTy)) :
    (options fields).2.map Setter.name = fields.map (·.1) ∧
    ∀ s ∈ (options fields).2, ∀ (v w : Value) (self : Bytes → Value),
      s.run v self s.name = v ∧ (∀ n, n ≠ s.name → s.run v self n = self n) ∧
      s.run w (s.run v self) = s.run w self := by
  constructor
  · unfold options
    induction fields with
    | nil => rfl
    | cons f fields ih =>
      obtain ⟨n, ty⟩ := f
      cases ty <;> simpa [implSetters] using ih
  · intro s _ v w self
    refine ⟨by simp [Setter.run], fun n hn => by simp [Setter.run, hn], ?_⟩
    funext n
    by_cases hn : n = s.name <;> simp [Setter.run, hn]

/-- serializer/auth.rs l.46-68. -/
def authOptions : List (Bytes × FieldTy) :=
  [(b!"callback", .option b!"&'a str"), (b!"verifier", .option b!"&'a str"), (b!"nonce", .option b!"&'a str"),
    (b!"timestamp", .option b!"NonZeroU64"), (b!"version", .bool)]

example : SettersCompile (options authOptions) := (C77_iff _).mpr (by simp [authOptions])
example := C77_partial authOptions (by simp [authOptions])
example := C77_setters authOptions

end OAuth
