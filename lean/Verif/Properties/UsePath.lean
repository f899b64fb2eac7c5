import Mathlib.Tactic.DeriveEncodable
import Verif.Properties.DeriveDocs
import Verif.Spec.UseTree

/-
C100: the path given as `crate` is one that can be imported.
-/

namespace OAuth

open Spec Derive

variable {τ : Type}

/-- C100, as one would have it: if the macro accepts a struct without reporting an error, the `use` item
in its output is a `use` item of Rust. `text` is the text by which `Model/Derive` names a path. -/
def C100_claim : Prop :=
  ∀ (τ : Type) (S : Syn τ) (cfg : Cfg) (lookup : CrateLookup) (isIdent : Bytes → Bool)
    (text : PathExpr → Bytes) (attrs : List (Attribute τ)) (fs : List (SynField τ)) (p : PathExpr)
    (body : List Stmt), Lawful S → Function.Injective text → Identifiers (isIdent · = true) →
    IsExprPath (isIdent · = true) p →
    expand cfg S lookup isIdent ⟨attrs, some fs⟩ = .ok (.impl (.use (text p)) body) →
    IsUseDeclaration (isIdent · = true) (useItem p)

theorem SimplePath.tokens {I : Bytes → Prop} {t : List PTok} (h : SimplePath I t) :
    ∀ x ∈ t, x = .pathSep ∨ ∃ n, x = .ident n ∧ IsSimpleSegment I n := by
  induction h with
  | one h => intro x hx; rw [List.mem_singleton] at hx; exact .inr ⟨_, hx, h⟩
  | global h =>
    intro x hx
    simp only [List.mem_cons, List.not_mem_nil, or_false] at hx
    rcases hx with rfl | rfl
    · exact .inl rfl
    · exact .inr ⟨_, rfl, h⟩
  | snoc _ h ih =>
    intro x hx
    simp only [List.mem_append, List.mem_cons, List.not_mem_nil, or_false] at hx
    rcases hx with hx | rfl | rfl
    · exact ih x hx
    · exact .inl rfl
    · exact .inr ⟨_, rfl, h⟩

/-- Two names side by side are not the end of a simple path. -/
theorem SimplePath.not_names {I : Bytes → Prop} {t : List PTok} {a b : Bytes}
    (ht : t ≠ []) (h : SimplePath I (t ++ [.ident a, .ident b])) : False := by
  generalize hu : t ++ [PTok.ident a, PTok.ident b] = u at h
  cases h with
  | one =>
    have := congrArg List.length hu
    simp at this
  | global =>
    have := congrArg List.length hu
    simp at this
    exact ht this
  | snoc =>
    have := (List.append_inj' hu rfl).2
    simp at this

theorem tokens_ne_nil (p : PathExpr) : p.tokens ≠ [] := by
  simp [PathExpr.tokens, PathSegment.tokens]

theorem simplePath_iff {I : Bytes → Prop} (hI : ¬ I b!"Self") (p : PathExpr) (hp : IsExprPath I p) :
    SimplePath I p.tokens ↔ Importable p := by
  constructor
  · intro h
    have hm := SimplePath.tokens h
    have seg : ∀ s ∈ p.first :: p.rest, ∀ x ∈ s.tokens, x ∈ p.tokens := by
      intro s hs x hx
      rw [List.mem_cons] at hs
      simp only [PathExpr.tokens, List.mem_append, List.mem_flatMap]
      rcases hs with rfl | hs
      · exact .inl (.inr hx)
      · exact .inr ⟨s, hs, List.mem_cons_of_mem _ hx⟩
    refine ⟨?_, ?_, ?_, ?_⟩
    · rw [List.eq_nil_iff_forall_not_mem]
      intro a ha
      have := hm (.punct '#'.toUInt8) (by
        simp only [PathExpr.tokens, List.mem_append, List.mem_flatMap]
        exact .inl (.inl (.inl ⟨a, ha, by simp⟩)))
      simp at this
    · cases hq : p.qself with
      | none => rfl
      | some q =>
        have := hm (.punct '<'.toUInt8) (by
          simp [PathExpr.tokens, hq])
        simp at this
    · intro s hs
      cases ha : s.args with
      | none => rfl
      | some a =>
        have := hm (.punct '<'.toUInt8) (seg s hs _ (by simp [PathSegment.tokens, ha]))
        simp at this
    · intro s hs he
      have := hm (.ident s.ident) (seg s hs _ (by simp [PathSegment.tokens]))
      simp only [reduceCtorEq, PTok.ident.injEq, false_or] at this
      obtain ⟨n, rfl, h | h⟩ := this
      · exact hI (he ▸ h)
      · rw [he] at h
        revert h
        decide
  · rintro ⟨h1, h2, h3, h4⟩
    have seg : ∀ s ∈ p.first :: p.rest, IsSimpleSegment I s.ident :=
      fun s hs => (hp s hs).resolve_right (h4 s hs)
    have tok : ∀ s ∈ p.first :: p.rest, s.tokens = [.ident s.ident] :=
      fun s hs => by simp [PathSegment.tokens, h3 s hs]
    have more : ∀ (l : List PathSegment) (t : List PTok), (∀ s ∈ l, s ∈ p.first :: p.rest) →
        SimplePath I t → SimplePath I (t ++ l.flatMap fun s => .pathSep :: s.tokens) := by
      intro l
      induction l with
      | nil => intro t _ ht; simpa using ht
      | cons s l ih =>
        intro t hl ht
        have hs := hl s List.mem_cons_self
        rw [List.flatMap_cons, ← List.append_assoc, tok s hs]
        exact ih _ (fun x hx => hl x (List.mem_cons_of_mem _ hx)) (.snoc ht (seg s hs))
    unfold PathExpr.tokens
    refine more _ _ (fun s hs => List.mem_cons_of_mem _ hs) ?_
    rw [h1, h2, tok _ List.mem_cons_self]
    cases p.leadingColon
    · exact .one (seg _ List.mem_cons_self)
    · exact .global (seg _ List.mem_cons_self)

/-- C100: exactly when the `use` item made of a path is one of Rust. -/
theorem C100_iff {I : Bytes → Prop} (hI : Identifiers I) {p : PathExpr} (hp : IsExprPath I p) :
    IsUseDeclaration I (useItem p) ↔ Importable p := by
  rw [← simplePath_iff hI.self_ p hp]
  constructor
  · rintro ⟨u, hu, h⟩
    have h : p.tokens ++ [.ident b!"as", .ident b!"_oauth1_request"] = u := by
      have h : (PTok.ident b!"use" :: (p.tokens ++ [.ident b!"as", .ident b!"_oauth1_request"])) ++
          [.punct ';'.toUInt8] = .ident b!"use" :: u ++ [.punct ';'.toUInt8] := by
        rw [← h]; simp [useItem]
      exact (List.cons.inj (List.append_cancel_right h)).2
    have last : ∀ {q : List PTok} {x : PTok}, p.tokens ++ [.ident b!"as", .ident b!"_oauth1_request"] =
        q ++ [x] → x = .ident b!"_oauth1_request" := by
      intro q x h
      have := congrArg List.getLast? h
      simpa using this.symm
    cases hu with
    | glob => cases last h
    | braces => cases last h
    | plain hs => exact (SimplePath.not_names (tokens_ne_nil p) (h ▸ hs)).elim
    | renamed hs _ => rwa [(List.append_inj' h rfl).1]
  · intro h
    exact ⟨_, .renamed h (.inl hI.alias), by simp [useItem]⟩

theorem writtenSegment_eq {s : PathSegment} {t : List PTok} (h : WrittenSegment s t) : s.tokens = t := by
  cases h <;> simp [PathSegment.tokens]

theorem writtenPath_eq {p : PathExpr} {t : List PTok} (h : WrittenPath p t) : p.tokens = t := by
  induction h with
  | one h => simp [PathExpr.tokens, writtenSegment_eq h]
  | global h => simp [PathExpr.tokens, writtenSegment_eq h]
  | qualified h => simp [PathExpr.tokens, writtenSegment_eq h]
  | snoc _ h ih => simp [PathExpr.tokens, writtenSegment_eq h, ← ih]
  | attr _ ih => simp [PathExpr.tokens, ← ih]

/-- C100: the path is in the item as it was written, be that a `use` item of Rust or not. -/
theorem C100_verbatim {p : PathExpr} {t : List PTok} (h : WrittenPath p t) :
    useItem p = [.ident b!"use"] ++ t ++ [.ident b!"as", .ident b!"_oauth1_request", .punct ';'.toUInt8] := by
  simp [useItem, writtenPath_eq h]

/-- `#[a] <T>::b::c::<D>`. -/
example : useItem ⟨[b!"a"], some [.ident b!"T"], false, ⟨b!"b", none⟩, [⟨b!"c", some [.ident b!"D"]⟩]⟩ =
    [.ident b!"use", .punct '#'.toUInt8, .group '['.toUInt8 b!"a", .punct '<'.toUInt8, .ident b!"T",
      .punct '>'.toUInt8, .pathSep, .ident b!"b", .pathSep, .ident b!"c", .pathSep, .punct '<'.toUInt8,
      .ident b!"D", .punct '>'.toUInt8, .ident b!"as", .ident b!"_oauth1_request", .punct ';'.toUInt8] :=
  C100_verbatim (.attr (.snoc (.qualified .plain) .generic))

/-- C100, for the structs whose `crate` is a path that can be imported. -/
theorem C100_partial {S : Syn τ} (cfg : Cfg) (lookup : CrateLookup) (isIdent : Bytes → Bool)
    (text : PathExpr → Bytes) {attrs : List (Attribute τ)} {fs : List (SynField τ)} {p : PathExpr}
    {body : List Stmt} (hI : Identifiers (isIdent · = true)) (hp : IsExprPath (isIdent · = true) p)
    (_ : expand cfg S lookup isIdent ⟨attrs, some fs⟩ = .ok (.impl (.use (text p)) body))
    (h : Importable p) : IsUseDeclaration (isIdent · = true) (useItem p) :=
  (C100_iff hI hp).mpr h

/-- C100: what is imported is what the path names, under the name the rest of the code uses. -/
theorem C100_names {p : PathExpr} (h : Importable p) :
    useItem p = useAs p.leadingColon ((p.first :: p.rest).map (·.ident)) b!"_oauth1_request" := by
  have tok : ∀ s ∈ p.first :: p.rest, s.tokens = [.ident s.ident] :=
    fun s hs => by simp [PathSegment.tokens, h.args s hs]
  have more : ∀ (l : List PathSegment) (s : PathSegment), (∀ x ∈ s :: l, x.tokens = [.ident x.ident]) →
      [PTok.pathSep].intercalate (((s :: l).map (·.ident)).map fun n => [.ident n]) =
        s.tokens ++ l.flatMap (fun s => .pathSep :: s.tokens) := by
    intro l
    induction l with
    | nil => intro s hs; simp [List.intercalate, hs s List.mem_cons_self]
    | cons x l ih =>
      intro s hs
      have := ih x fun y hy => hs y (List.mem_cons_of_mem _ hy)
      rw [List.flatMap_cons, hs s List.mem_cons_self]
      simp only [List.map_cons, List.intercalate, List.intersperse_cons_cons, List.flatten_cons] at this ⊢
      rw [this]
      simp
  unfold useItem useAs simplePathTokens PathExpr.tokens
  rw [more _ _ tok, h.attrs, h.qself]
  simp

/-- C100: the macro does not look at the path: if it accepts a struct, it accepts it with the attribute
`crate = path` instead of its own, whatever the path. -/
theorem C100_any_path {S : Syn τ} (hS : Lawful S) (cfg : Cfg) (lookup : CrateLookup)
    (isIdent : Bytes → Bool) {attrs attrs' : List (Attribute τ)} {fs : List (SynField τ)}
    {q : Bytes} (ha : attributeItems S attrs' = [docItem b!"crate" (.nameValue (.path q))])
    (hr : AllParse S attrs') {i : Import} {body : List Stmt}
    (h : expand cfg S lookup isIdent ⟨attrs, some fs⟩ = .ok (.impl i body)) :
    ∃ body, expand cfg S lookup isIdent ⟨attrs', some fs⟩ = .ok (.impl (.use q) body) := by
  obtain ⟨h1, h2, h3, -, -⟩ := (C23_accepted_written cfg hS lookup isIdent attrs fs _).mp ⟨_, h⟩
  exact (C23_accepted_written cfg hS lookup isIdent attrs' fs _).mpr
    ⟨h1, h2, h3, hr, .use ha ⟨rfl, rfl⟩⟩

namespace UsePathExample

/-- The names that are not identifiers here. -/
def ident (n : Bytes) : Bool := n ∉ [b!"Self", b!"super", b!"self", b!"crate", b!"as", b!"use"]

theorem identifiers : Identifiers (ident · = true) := ⟨by decide, by decide⟩

/-- `a::<u8>::b`. -/
def generic : PathExpr := ⟨[], none, false, ⟨b!"a", some [.ident b!"u8"]⟩, [⟨b!"b", none⟩]⟩
/-- `<T as Trait>::x`. -/
def qualified : PathExpr :=
  ⟨[], some [.ident b!"T", .ident b!"as", .ident b!"Trait"], false, ⟨b!"x", none⟩, []⟩
/-- `#[a] b`. -/
def attributed : PathExpr := ⟨[b!"a"], none, false, ⟨b!"b", none⟩, []⟩
/-- `Self`. -/
def selfType : PathExpr := ⟨[], none, false, ⟨b!"Self", none⟩, []⟩
/-- `::oauth1_request::super_`, `crate::oauth`. -/
def simple : PathExpr := ⟨[], none, true, ⟨b!"oauth1_request", none⟩, [⟨b!"super_", none⟩]⟩
def inCrate : PathExpr := ⟨[], none, false, ⟨b!"crate", none⟩, [⟨b!"oauth", none⟩]⟩

theorem written : ∀ p ∈ [generic, qualified, attributed, selfType, simple, inCrate],
    IsExprPath (ident · = true) p := by
  unfold IsExprPath IsSimpleSegment
  decide

instance : Encodable UInt8 :=
  Encodable.ofLeftInjection UInt8.toNat (fun n => some (UInt8.ofNat n)) (by simp)

deriving instance Encodable for PTok
deriving instance Encodable for PathSegment
deriving instance Encodable for PathExpr

/-- A text for every path. -/
def text (p : PathExpr) : Bytes := List.replicate (Encodable.encode p) 0

theorem text_injective : Function.Injective text := fun p q h => by
  have := congrArg List.length h
  simpa [text] using this

def attr (p : PathExpr) : Attribute (List Tok) :=
  oauth1Attr (listToks [docItem b!"crate" (.nameValue (.path (text p)))])

theorem accepted (p : PathExpr) : ∃ body, expand { debug := false } tokSyn .failed ident
    ⟨[attr p], some []⟩ = .ok (.impl (.use (text p)) body) := ⟨_, rfl⟩

end UsePathExample

open UsePathExample

/-- C100 is false: `#[oauth1(crate = a::<u8>::b)]` is accepted. -/
theorem C100_violated : ¬ C100_claim := by
  intro h
  obtain ⟨body, hx⟩ := accepted generic
  have hw := written generic (by simp)
  have := (C100_iff identifiers hw).mp
    (h _ _ _ _ _ _ _ _ _ _ tokSyn_lawful text_injective identifiers hw hx)
  exact absurd (this.args _ List.mem_cons_self) (by decide)

/-- None of the four kinds makes a `use` item. -/
example : ∀ p ∈ [generic, qualified, attributed, selfType],
    ¬ IsUseDeclaration (ident · = true) (useItem p) := by
  intro p hp h
  have hi := (C100_iff identifiers (written p (by
    simp only [List.mem_cons, List.not_mem_nil, or_false] at hp ⊢; tauto))).mp h
  simp only [List.mem_cons, List.not_mem_nil, or_false] at hp
  rcases hp with rfl | rfl | rfl | rfl
  · exact absurd (hi.args _ List.mem_cons_self) (by decide)
  · exact absurd hi.qself (by decide)
  · exact absurd hi.attrs (by decide)
  · exact hi.self_ _ List.mem_cons_self rfl

/-- `use ::oauth1_request::super_ as _oauth1_request;`, `use crate::oauth as _oauth1_request;`. -/
example : IsUseDeclaration (ident · = true) (useItem simple) := by
  obtain ⟨body, hx⟩ := accepted simple
  exact C100_partial _ _ _ text identifiers (written _ (by simp)) hx
    ⟨rfl, rfl, by decide, by decide⟩
example : IsUseDeclaration (ident · = true) (useItem inCrate) := by
  obtain ⟨body, hx⟩ := accepted inCrate
  exact C100_partial _ _ _ text identifiers (written _ (by simp)) hx
    ⟨rfl, rfl, by decide, by decide⟩

example : useItem simple = useAs true [b!"oauth1_request", b!"super_"] b!"_oauth1_request" :=
  C100_names ⟨rfl, rfl, by decide, by decide⟩

/-- From one path to another. -/
example : ∃ body, expand { debug := false } tokSyn .failed ident ⟨[attr qualified], some []⟩ =
    .ok (.impl (.use (text qualified)) body) := by
  obtain ⟨body, hx⟩ := accepted simple
  exact C100_any_path tokSyn_lawful _ _ _ rfl
    (by intro a ha _; rw [List.mem_singleton] at ha; subst ha; rfl) hx

end OAuth
