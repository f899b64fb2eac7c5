import Verif.Proofs.DeriveCode
import Verif.Properties.Derive

/-
C63, C64: the code generated by `#[derive(Request)]`, binding by binding: its variables never capture a
name from an attribute, and it compiles exactly when the fields are as their attributes say.
-/

namespace OAuth

open Derive Spec

variable {τ V T : Type}

/-! ### C63: hygiene -/

/-- C63: the generated method is the request of the coarser rendering of the macro, about which the other
theorems on derived requests speak. -/
theorem C63_request (cfg : Cfg) {S : Syn τ} (hS : Lawful S) {sp : Spans} (hsp : Foreign sp)
    (lookup : CrateLookup) (isIdent : Bytes → Bool) (attrs : List (Attribute τ))
    (fs : List (SynField τ)) (i : Import) (body : List Stmt)
    (h : expand cfg S lookup isIdent ⟨attrs, some fs⟩ = .ok (.impl i body)) :
    ∃ code, expandCode cfg S sp lookup isIdent ⟨attrs, some fs⟩ = .ok (.impl i code) ∧
      ∀ (V : Type) (sc : Scope V) (self : Bytes → V),
        codeRequest sc self code = Derive.request sc self body := by
  refine ⟨_, (expandCode_impl_iff cfg hS sp _ _ _ _ _ _).mpr ⟨⟨body, h⟩, rfl⟩, fun V sc self => ?_⟩
  obtain ⟨-, -, -, rfl⟩ := (expand_impl_iff cfg hS _ _ _ _ _ _).mp h
  have ht := isTrace_request sc self (kept (sortByName (fs.map (understood S))))
  unfold codeRequest
  unfold Derive.request at ht ⊢
  congr
  funext σ ω R s
  refine Eq.trans ?_ (ht σ ω R s).symm
  simp only [exec_method sc self R hsp]
  simp

/-- C63: in this rendering, too, the macro reports the same errors, with or without the `impl` that goes with
them, and panics in the same cases. -/
theorem C63_errors (cfg : Cfg) (S : Syn τ) (sp : Spans) (lookup : CrateLookup) (isIdent : Bytes → Bool)
    (input : Input τ) :
    (∀ es b, expandCode cfg S sp lookup isIdent input = .ok (.errors es b) ↔
      expand cfg S lookup isIdent input = .ok (.errors es b)) ∧
    (∀ e, expandCode cfg S sp lookup isIdent input = .error e ↔
      expand cfg S lookup isIdent input = .error e) := by
  unfold expandCode expand
  cases input.fields with
  | none => simp
  | some fs =>
    simp only
    cases newFields S fs [] with
    | error e => simp [Except.error_bind']
    | ok r =>
      simp only [Except.ok_bind']
      cases ContainerMeta.new S input.attrs (checkDuplicates (sortByName r.1) [] r.2) with
      | error e => simp [Except.error_bind']
      | ok r' =>
        simp only [Except.ok_bind']
        cases importOf lookup isIdent r'.1 r'.2 with
        | error e => simp [Except.error_bind']
        | ok r'' =>
          simp only [Except.ok_bind']
          split
          · simp
          · simp [methodCode_eq, methodBody_eq, Except.ok_bind']

/-- C63: the tokens generated for an accepted struct, run with the scoping rules of Rust, do what the
fields and the attributes say and nothing else: whatever the functions in the attributes are called, they
are the ones in scope where the struct is, and each temporary refers to the field it was made for. -/
theorem C63_fields (cfg : Cfg) {S : Syn τ} (hS : Lawful S) {sp : Spans} (hsp : Foreign sp)
    (lookup : CrateLookup) (isIdent : Bytes → Bool) (attrs : List (Attribute τ))
    (fs : List (SynField τ)) (i : Import) (code : Code)
    (h : expandCode cfg S sp lookup isIdent ⟨attrs, some fs⟩ = .ok (.impl i code))
    (sc : Scope V) (self : Bytes → V) :
    ∃ cs, IsTrace (codeRequest sc self code) cs ∧ cs.filterMap Call.proto? = allProto ∧
      (cs.map Call.key).Pairwise (fun a b => bytesLe a b = true) ∧
      (∀ f ∈ fs, ∃ g, Describes S f g) ∧
      (∀ f ∈ fs, ∀ g, Describes S f g → ∀ c, SentAs sc g (self g.ident) c →
        cs.filter (fun c => c.isRequest && c.key == parameterName g) = [c]) ∧
      (∀ f ∈ fs, ∀ g, Describes S f g → (¬ ∃ c, SentAs sc g (self g.ident) c) →
        cs.filter (fun c => c.isRequest && c.key == parameterName g) = []) ∧
      (∀ c ∈ cs, c.isRequest = true → ∃ f ∈ fs, ∃ g, Describes S f g ∧
        SentAs sc g (self g.ident) c) := by
  obtain ⟨⟨body, hb⟩, rfl⟩ := (expandCode_impl_iff cfg hS sp _ _ _ _ _ _).mp h
  obtain ⟨code, hc, heq⟩ := C63_request cfg hS hsp lookup isIdent attrs fs i body hb
  rw [h] at hc
  cases hc
  rw [heq V sc self]
  obtain ⟨cs, htr, h1⟩ := C22_fields cfg hS lookup isIdent attrs fs i body hb sc self
  obtain ⟨cs', -, htr', -, h2, h3, -⟩ := C21_as_assert_sorted cfg hS lookup isIdent attrs fs i body hb sc self
  obtain rfl := isTrace_unique htr htr'
  exact ⟨cs, htr, h2, h3, h1⟩


/-- A struct whose attributes use the names of the generated variables: `a: Option<String>` with
`fmt = tmp` and `skip_if = value`, and `b: String` with `fmt = fmt` and `skip_if = helper`. -/
def hygieneFields : List (SynField (List Tok)) :=
  [⟨[oauth1Attr (listToks [nameValue b!"fmt" (.path b!"tmp"), nameValue b!"skip_if" (.path b!"value")])],
      b!"a", .path false [(b!"Option", .angleBracketed 1)]⟩,
   ⟨[oauth1Attr (listToks [nameValue b!"fmt" (.path b!"fmt"),
      nameValue b!"skip_if" (.path b!"helper")])], b!"b", .path false [(b!"String", .none)]⟩]

/-- All tokens of the struct have one context. -/
def oneContext : Spans := ⟨fun _ => 1, fun _ => 1, fun _ => 1⟩

theorem oneContext_foreign : Foreign oneContext := ⟨by simp [oneContext], by simp [oneContext],
  by simp [oneContext]⟩

/-- What is generated for it. -/
def hygieneCode : Code :=
  let tmp : Id := ⟨b!"tmp", 1⟩
  let fmt : Id := ⟨b!"fmt", 0⟩
  let oauth (c : Code) : Code :=
    .oauth serId .callback <| .oauth serId .consumerKey <| .oauth serId .nonce <|
    .oauth serId .signatureMethod <| .oauth serId .timestamp <| .oauth serId .token <|
    .oauth serId .verifier <| .oauth serId .version c
  .letS helperId (.newHelper true true) <|
  .ifLet bindId (.letIn tmp (.addrOfField this b!"a") (.asRef (.var tmp)))
    (.ite (.not (.call (.skipIfImplsFn helperId (.path b!"value" 1)) (.letIn tmp (.var bindId) (.var tmp))))
      (.letS fmt (.fmtImplsFn helperId (.path b!"tmp" 1)) <|
        .letS tmp (.var bindId) <|
        .parameter serId false b!"a" (.fmt helperId (.var fmt) (.var tmp)) .nil) .nil) <|
  .ite (.not (.call (.skipIfImplsFn helperId (.path b!"helper" 1))
      (.letIn tmp (.addrOfField this b!"b") (.var tmp))))
    (.letS fmt (.fmtImplsFn helperId (.path b!"fmt" 1)) <|
      .letS tmp (.addrOfField this b!"b") <|
      .parameter serId false b!"b" (.fmt helperId (.var fmt) (.var tmp)) .nil) <|
  oauth (.fin serId)

theorem hygieneFields_ok : expandCode ⟨true, true, .std⟩ tokSyn oneContext .manifestDirNotSet (fun _ => true)
    ⟨[], some hygieneFields⟩ = .ok (.impl (.externCrate b!"oauth1_request") hygieneCode) := by
  have h : (expandCode ⟨true, true, .std⟩ tokSyn oneContext .manifestDirNotSet (fun _ => true)
    ⟨[], some hygieneFields⟩).toOption =
      some (.impl (.externCrate b!"oauth1_request") hygieneCode) := by decide +kernel
  cases he : expandCode ⟨true, true, .std⟩ tokSyn oneContext .manifestDirNotSet (fun _ => true)
      ⟨[], some hygieneFields⟩ with
  | error e => rw [he] at h; cases h
  | ok x => rw [he] at h; cases h; rfl

/-- What the theorems above say of it and of the struct of the other examples. -/
example (sc : Scope V) (self : Bytes → V) := C63_fields ⟨true, true, .std⟩ tokSyn_lawful oneContext_foreign _ _
  _ _ _ _ hygieneFields_ok sc self
example := C63_request _ tokSyn_lawful oneContext_foreign _ _ _ _ _ _ exampleFields_ok

/-- Had `let tmp = …;` come first, the function `tmp` could not be named: the code is not valid. -/
example (sc : Scope V) (self : Bytes → V) :
    ((RExpr.letIn ⟨b!"tmp", 1⟩ (.addrOfField this b!"b")
      (.fmtImplsFn helperId (.path b!"tmp" 1))).eval sc self
        [(helperId, .helper true true), (this, .this)]).toOption = none ∧
    (RExpr.eval sc self [(helperId, .helper true true), (this, .this)]
      (.fmtImplsFn helperId (.path b!"tmp" 1))).toOption = some (.fmtFn (sc.fmt b!"tmp")) := by
  constructor <;> rfl

/-! ### C64: types -/

/-- The claim of C64: the method generated for an accepted struct compiles exactly if the type of each
field that is sent is as its attributes say. -/
def C64_claim : Prop :=
  ∀ (τ : Type) (S : Syn τ), Lawful S → ∀ (cfg : Cfg) (sp : Spans), Foreign sp →
    ∀ (lookup : CrateLookup) (isIdent : Bytes → Bool) (attrs : List (Attribute τ))
    (fs : List (SynField τ)) (i : Import) (code : Code),
    expandCode cfg S sp lookup isIdent ⟨attrs, some fs⟩ = .ok (.impl i code) →
    ∀ (T : Type) (Γ : Typing T), code.typechecks Γ = true ↔
      ∀ f ∈ fs, ∀ g, Describes S f g → g.info.skip = false → WellTyped Γ g

/-- C64, exactly: it compiles if and only if moreover no constant, static, unit or tuple struct in scope
has the name of a variable of the generated code. -/
theorem C64_iff (cfg : Cfg) {S : Syn τ} (hS : Lawful S) {sp : Spans} (hsp : Foreign sp)
    (lookup : CrateLookup) (isIdent : Bytes → Bool) (attrs : List (Attribute τ))
    (fs : List (SynField τ)) (i : Import) (code : Code)
    (h : expandCode cfg S sp lookup isIdent ⟨attrs, some fs⟩ = .ok (.impl i code)) (Γ : Typing T) :
    code.typechecks Γ = true ↔
      (∀ n, Binds (fun g => ∃ f ∈ fs, Describes S f g) n → Γ.constant n = false) ∧
      ∀ f ∈ fs, ∀ g, Describes S f g → g.info.skip = false → WellTyped Γ g := by
  obtain ⟨⟨body, hb⟩, rfl⟩ := (expandCode_impl_iff cfg hS sp _ _ _ _ _ _).mp h
  obtain ⟨herr, -, -, -⟩ := (expand_impl_iff cfg hS _ _ _ _ _ _).mp hb
  rw [List.flatMap_eq_nil_iff] at herr
  have hdesc : ∀ f ∈ fs, Describes S f (understood S f) :=
    fun f hf => understood_describes hS f (herr f hf)
  have hmem : ∀ g, g ∈ sortByName (fs.map (understood S)) ↔ ∃ f ∈ fs, Describes S f g := by
    intro g
    rw [(sortByName_perm _).mem_iff, List.mem_map]
    constructor
    · rintro ⟨f, hf, rfl⟩; exact ⟨f, hf, hdesc f hf⟩
    · rintro ⟨f, hf, hg⟩; exact ⟨f, hf, describes_unique (hdesc f hf) hg⟩
  rw [check_method Γ hsp, funext fun g => propext (hmem g)]
  refine and_congr_right fun _ => ⟨fun h f hf g hg => h g ⟨f, hf, hg⟩, fun h g hg => ?_⟩
  obtain ⟨f, hf, hg⟩ := hg
  exact h f hf g hg

/-- C64 where no constant has one of the seven names. -/
theorem C64_partial (cfg : Cfg) {S : Syn τ} (hS : Lawful S) {sp : Spans} (hsp : Foreign sp)
    (lookup : CrateLookup) (isIdent : Bytes → Bool) (attrs : List (Attribute τ))
    (fs : List (SynField τ)) (i : Import) (code : Code)
    (h : expandCode cfg S sp lookup isIdent ⟨attrs, some fs⟩ = .ok (.impl i code)) (Γ : Typing T)
    (hc : ∀ n ∈ [b!"serializer", b!"helper", b!"tmp", b!"value", b!"fmt", b!"f", b!"t"], Γ.constant n = false) :
    code.typechecks Γ = true ↔
      ∀ f ∈ fs, ∀ g, Describes S f g → g.info.skip = false → WellTyped Γ g := by
  rw [C64_iff cfg hS hsp lookup isIdent attrs fs i code h Γ]
  refine and_iff_right fun n hn => hc n ?_
  cases hn <;> simp

/-- Types for the examples. -/
inductive ExTy
  | string
  | unit
  | option (t : ExTy)
  deriving DecidableEq

/-- `String` is the only displayable type, `quoted` formats it and the predicates accept it. -/
def exampleTyping (field : Bytes → ExTy) (constant : Bytes → Bool) : Typing ExTy where
  field := field
  unOption | .option t => some t | _ => none
  display t := t == .string
  fmtOk _ t := t == .string
  predOk _ t := t == .string
  constant := constant

example (Γ : Typing ExTy) := C64_iff ⟨true, true, .std⟩ tokSyn_lawful oneContext_foreign _ _ _ _ _ _
  hygieneFields_ok Γ
example (field : Bytes → ExTy) := C64_partial ⟨true, true, .std⟩ tokSyn_lawful oneContext_foreign _ _ _ _ _ _
  hygieneFields_ok (exampleTyping field fun _ => false) (fun _ _ => rfl)

/-- The struct of the hygiene example compiles with the right types, … -/
example : hygieneCode.typechecks (exampleTyping
    (fun i => if i = b!"a" then .option .string else .string) fun _ => false) = true := by
  decide +kernel

/-- … not if `a` is no option, or `b` an option, or `b` not accepted by the functions, … -/
example : hygieneCode.typechecks (exampleTyping (fun _ => .string) fun _ => false) = false ∧
    hygieneCode.typechecks (exampleTyping (fun _ => .option .string) fun _ => false) = false ∧
    hygieneCode.typechecks (exampleTyping
      (fun i => if i = b!"a" then .option .string else .unit) fun _ => false) = false := by
  decide +kernel

/-- … not where there is a constant called `t`, … -/
example : hygieneCode.typechecks (exampleTyping
    (fun i => if i = b!"a" then .option .string else .string) fun n => n == b!"t") = false := by
  decide +kernel

/-- … and not where there is a constant called `value`. -/
theorem C64_violated : ¬ C64_claim := by
  intro hclaim
  have h : expandCode ⟨true, true, .std⟩ tokSyn oneContext .manifestDirNotSet (fun _ => true)
      ⟨[], some hygieneFields⟩ = .ok (.impl (.externCrate b!"oauth1_request") hygieneCode) := by
    have : (expandCode ⟨true, true, .std⟩ tokSyn oneContext .manifestDirNotSet (fun _ => true)
      ⟨[], some hygieneFields⟩).toOption =
        some (.impl (.externCrate b!"oauth1_request") hygieneCode) := by decide +kernel
    revert this
    cases expandCode ⟨true, true, .std⟩ tokSyn oneContext .manifestDirNotSet (fun _ => true)
      ⟨[], some hygieneFields⟩ with
    | error e => intro h; cases h
    | ok c => intro h; simpa [Except.toOption] using h
  have ht (c : Bytes → Bool) := hclaim _ _ tokSyn_lawful _ _ oneContext_foreign _ _ _ _ _ _ h ExTy
    (exampleTyping (fun i => if i = b!"a" then .option .string else .string) c)
  have h1 := (ht fun _ => false).mp (by decide +kernel)
  have h2 := (ht fun n => n = b!"value").mpr h1
  revert h2
  decide +kernel

end OAuth
