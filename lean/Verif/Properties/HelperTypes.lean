import Verif.Properties.DeriveCode
import Verif.Spec.HelperTypes

/-
C101: the functions named in `fmt` and `skip_if` are those that could be called with a reference to the
field.
-/

namespace OAuth

open Spec Derive

variable {τ T : Type}

theorem find?_takesRef (P : Program T) (head bound : T → Bool) (t : T) :
    (match (P.chain t).find? head with | some u => bound u | none => false) = true ↔
      TakesRef P head bound t := by
  unfold TakesRef
  constructor
  · intro h
    cases hf : (P.chain t).find? head with
    | none => simp [hf] at h
    | some u =>
      rw [hf] at h
      obtain ⟨hu, as, bs, hc, hn⟩ := List.find?_eq_some_iff_append.mp hf
      exact ⟨as, u, bs, hc, fun v hv => by simpa using hn v hv, hu, h⟩
  · rintro ⟨as, u, bs, hc, hn, hu, hb⟩
    have : (P.chain t).find? head = some u :=
      List.find?_eq_some_iff_append.mpr ⟨hu, as, bs, hc, fun v hv => by simp [hn v hv]⟩
    rw [this]
    exact hb

theorem satisfies_display {s : Sig T} {f : FnValue T} :
    s.satisfies .display = some f ↔ s = ⟨[.ref f.head, .formatter], .fmtResult, f.bound⟩ := by
  obtain ⟨ps, r, b⟩ := s
  constructor
  · intro h
    unfold Sig.satisfies at h
    simp only at h
    split at h
    · cases h; rfl
    · cases h
  · intro h
    cases h
    rfl

theorem satisfies_predicate {s : Sig T} {f : FnValue T} :
    s.satisfies .predicate = some f ↔ s = ⟨[.ref f.head], .bool, f.bound⟩ := by
  obtain ⟨ps, r, b⟩ := s
  constructor
  · intro h
    unfold Sig.satisfies at h
    simp only at h
    split at h
    · cases h; rfl
    · cases h
  · intro h
    cases h
    rfl

variable [DecidableEq T]

/-- With the order of helper.rs. -/
theorem fmt_args (P : Program T) (f : FnValue T) (t : T) :
    (match Infer.args P {} fmtParams [.function f, .reference t] with
      | some st => st.done
      | none => false) = true ↔ TakesRef P f.head f.bound t := by
  rw [← find?_takesRef]
  simp only [fmtParams, Infer.args, Infer.arg, Bool.true_and]
  cases h : (P.chain t).find? f.head with
  | none => simp
  | some u => simp [Infer.done]

/-- C101: the call of `fmt` compiles exactly if the path is a function that could be called with a reference
to the value and a formatter, and returns their result. -/
theorem C101_fmt (P : Program T) (p : ExprPath) (t : T) :
    P.typing.fmtOk p t = true ↔ Formats P p t := by
  show fmtCall P p t = true ↔ _
  unfold fmtCall fmtCallWith implsFn Formats
  cases hi : P.item p with
  | none => simp
  | some s =>
    simp only
    cases hs : s.satisfies .display with
    | none =>
      simp only [Bool.false_eq_true, false_iff]
      rintro ⟨head, bound, h, -⟩
      rw [satisfies_display (f := ⟨head, bound⟩) |>.mpr (Option.some.inj h)] at hs
      cases hs
    | some f =>
      rw [satisfies_display] at hs
      subst hs
      refine (fmt_args P f t).trans ⟨fun h => ⟨_, _, rfl, h⟩, ?_⟩
      rintro ⟨head, bound, h, ht⟩
      cases h
      exact ht

/-- C101: the call of `skip_if` compiles exactly if the path is a function that could be called with a
reference to the value, and returns a `bool`. -/
theorem C101_skip_if (P : Program T) (p : ExprPath) (t : T) :
    P.typing.predOk p t = true ↔ Decides P p t := by
  show predCall P p t = true ↔ _
  unfold predCall implsFn Decides
  cases hi : P.item p with
  | none => simp
  | some s =>
    simp only
    cases hs : s.satisfies .predicate with
    | none =>
      simp only [Bool.false_eq_true, false_iff]
      rintro ⟨head, bound, h, -⟩
      rw [satisfies_predicate (f := ⟨head, bound⟩) |>.mpr (Option.some.inj h)] at hs
      cases hs
    | some f =>
      rw [satisfies_predicate] at hs
      subst hs
      refine (find?_takesRef P f.head f.bound t).trans ⟨fun h => ⟨_, _, rfl, h⟩, ?_⟩
      rintro ⟨head, bound, h, ht⟩
      cases h
      exact ht

/-- C101: what counts as an option. -/
theorem C101_option (P : Program T) (t u : T) :
    P.typing.unOption t = some u ↔ OptionOf P t u := by
  show asRefCall P t = some u ↔ _
  unfold asRefCall OptionOf
  constructor
  · intro h
    cases hf : (P.chain t).find? (fun u => (P.option u).isSome) with
    | none => simp [hf] at h
    | some o =>
      rw [hf] at h
      obtain ⟨-, as, bs, hc, hn⟩ := List.find?_eq_some_iff_append.mp hf
      exact ⟨as, o, bs, hc, fun v hv => by simpa using hn v hv, h⟩
  · rintro ⟨as, o, bs, hc, hn, hu⟩
    have : (P.chain t).find? (fun u => (P.option u).isSome) = some o :=
      List.find?_eq_some_iff_append.mpr ⟨by simp [hu], as, bs, hc, fun v hv => by simp [hn v hv]⟩
    rw [this]
    exact hu

theorem wellTyped_iff (P : Program T) (f : Field) : WellTyped P.typing f ↔ FieldTyped P f := by
  have hs (t : T) : Suits P.typing f t ↔ TypeSuits P f t := by
    unfold Suits TypeSuits
    simp only [C101_fmt, C101_skip_if]
    rfl
  unfold WellTyped FieldTyped
  simp only [C101_option, hs]
  rfl

/-- C101: the code generated for an accepted struct compiles exactly if each field that is sent has a type
for which the functions in its attributes could be called by hand (and no constant has the name of a
variable, see C64). -/
theorem C101_code (cfg : Cfg) {S : Syn τ} (hS : Lawful S) {sp : Spans} (hsp : Foreign sp)
    (lookup : CrateLookup) (isIdent : Bytes → Bool) (attrs : List (Attribute τ))
    (fs : List (SynField τ)) (i : Import) (code : Code)
    (h : expandCode cfg S sp lookup isIdent ⟨attrs, some fs⟩ = .ok (.impl i code)) (P : Program T) :
    code.typechecks P.typing = true ↔
      (∀ n, Binds (fun g => ∃ f ∈ fs, Describes S f g) n → P.constant n = false) ∧
      ∀ f ∈ fs, ∀ g, Describes S f g → g.info.skip = false → FieldTyped P g := by
  rw [C64_iff cfg hS hsp lookup isIdent attrs fs i code h]
  simp only [wellTyped_iff]
  rfl

/-- C101: a function that takes a reference to one type fits the fields that dereference to that type, in
any number of steps. -/
theorem C101_one_type (P : Program T) {p : ExprPath} {u : T}
    (hp : P.item p = some ⟨[.ref fun v => decide (v = u), .formatter], .fmtResult, fun _ => true⟩) (t : T) :
    P.typing.fmtOk p t = true ↔ u ∈ P.chain t := by
  rw [C101_fmt]
  constructor
  · rintro ⟨head, bound, hi, as, v, bs, hc, -, hv, -⟩
    rw [hp] at hi
    cases hi
    rw [hc, ← of_decide_eq_true hv]
    simp
  · intro hu
    obtain ⟨as, bs, hc, hn⟩ := List.eq_append_cons_of_mem hu
    refine ⟨_, _, hp, as, u, bs, hc, fun v hv => ?_, by simp, rfl⟩
    simp only [decide_eq_false_iff_not]
    rintro rfl
    exact hn hv

/-- C101: a function for references to any type with a bound is called for the type of the field itself,
whatever that dereferences to. -/
theorem C101_generic (P : Program T) {p : ExprPath} {bound : T → Bool}
    (hp : P.item p = some ⟨[.ref fun _ => true, .formatter], .fmtResult, bound⟩) {t : T} {rest : List T}
    (ht : P.chain t = t :: rest) : P.typing.fmtOk p t = bound t := by
  rw [Bool.eq_iff_iff, C101_fmt]
  constructor
  · rintro ⟨head, b, hi, as, v, bs, hc, hn, -, hb⟩
    rw [hp] at hi
    cases hi
    cases as with
    | nil =>
      rw [ht] at hc
      cases hc
      exact hb
    | cons a as => simpa using hn a List.mem_cons_self
  · intro hb
    exact ⟨_, _, hp, [], t, rest, ht, by simp, rfl, hb⟩

/-- C101: with the parameters of the helper in the other order, only functions for the type of the field
itself could be used; the comment in helper.rs is right. -/
theorem C101_order (P : Program T) (p : ExprPath) {t : T} {rest : List T} (ht : P.chain t = t :: rest) :
    fmtCallWith [.reference, .function] P p t = true ↔
      ∃ head bound, P.item p = some ⟨[.ref head, .formatter], .fmtResult, bound⟩ ∧
        head t = true ∧ bound t = true := by
  unfold fmtCallWith implsFn
  cases hi : P.item p with
  | none => simp
  | some s =>
    simp only
    cases hs : s.satisfies .display with
    | none =>
      simp only [Bool.false_eq_true, false_iff]
      rintro ⟨head, bound, h, -⟩
      rw [satisfies_display (f := ⟨head, bound⟩) |>.mpr (Option.some.inj h)] at hs
      cases hs
    | some f =>
      rw [satisfies_display] at hs
      subst hs
      simp only [List.map_cons, List.map_nil, Infer.args, Infer.arg, ht, List.find?_cons_of_pos, Infer.done,
        decide_true, Bool.true_and, List.all_cons, List.all_nil, Bool.and_true, Bool.and_eq_true]
      constructor
      · intro h; exact ⟨_, _, rfl, h⟩
      · rintro ⟨head, bound, h, hh⟩
        cases h
        exact hh

namespace HelperTypesExample

/-- Some types. -/
inductive Ty
  | unit | u8 | str | string | vec (t : Ty) | box (t : Ty) | ref (t : Ty) | option (t : Ty)
  deriving DecidableEq

def chain : Ty → List Ty
  | .string => [.string, .str]
  | .box t => .box t :: chain t
  | .ref t => .ref t :: chain t
  | t => [t]

/-- Which of them are `Display`, and `AsRef<str>`. -/
def display : Ty → Bool
  | .u8 | .str | .string => true
  | .box t | .ref t => display t
  | _ => false
def asRefStr : Ty → Bool
  | .str | .string => true
  | .ref t => asRefStr t
  | _ => false

def is (t : Ty) : ParamTy Ty := .ref fun u => decide (u = t)
def always : Ty → Bool := fun _ => true

/-- The functions of tests/ui/typeck.rs, of helper.rs l.85, and two of the standard library. -/
def functions : List (Bytes × Sig Ty) :=
  [(b!"fmt_missing_arg", ⟨[is .unit], .fmtResult, always⟩),
   (b!"fmt_arg_not_ref", ⟨[.other, .formatter], .fmtResult, always⟩),
   (b!"fmt_arg_mismatch", ⟨[is .u8, .formatter], .fmtResult, always⟩),
   (b!"fmt_trait_bound_unsatisfied", ⟨[.ref always, .formatter], .fmtResult, asRefStr⟩),
   (b!"fmt_ret_mismatch", ⟨[is .unit, .formatter], .other, always⟩),
   (b!"skip_if_too_many_args", ⟨[is .u8, .other], .bool, always⟩),
   (b!"skip_if_arg_not_ref", ⟨[.other], .bool, always⟩),
   (b!"skip_if_arg_mismatch", ⟨[is .unit], .bool, always⟩),
   (b!"skip_if_trait_bound_unsatisfied", ⟨[.ref always], .bool, asRefStr⟩),
   (b!"skip_if_ret_mismatch", ⟨[is .u8], .other, always⟩),
   (b!"fmt_str", ⟨[is .str, .formatter], .fmtResult, always⟩),
   (b!"str::is_empty", ⟨[is .str], .bool, always⟩),
   (b!"Vec::is_empty", ⟨[.ref fun | .vec _ => true | _ => false], .bool, always⟩)]

def program (field : Bytes → Ty) : Program Ty where
  field := field
  option | .option t => some t | _ => none
  display := display
  chain := chain
  item p := functions.lookup p
  constant _ := false

def someProgram : Program Ty := program fun _ => .unit

/-- tests/ui/typeck.rs: none of these compiles (the last of each kind is no function at all). -/
example : [b!"fmt_missing_arg", b!"fmt_arg_not_ref", b!"fmt_arg_mismatch",
    b!"fmt_trait_bound_unsatisfied", b!"fmt_ret_mismatch", b!"NOT_FN"].map
      (fun p => someProgram.typing.fmtOk p .unit) = List.replicate 6 false ∧
    [b!"skip_if_too_many_args", b!"skip_if_arg_not_ref", b!"skip_if_arg_mismatch",
      b!"skip_if_trait_bound_unsatisfied", b!"skip_if_ret_mismatch", b!"NOT_FN"].map
      (fun p => someProgram.typing.predOk p .u8) = List.replicate 6 false := by decide

/-- … nor do `not_display` and `option_not_option`. -/
example : someProgram.typing.display .unit = false ∧ someProgram.typing.unOption .u8 = none := by decide

/-- helper.rs l.81-99 `it_compiles`: a `String` with a function for `str`. -/
example : someProgram.typing.fmtOk b!"fmt_str" .string = true :=
  (C101_one_type someProgram (u := .str) rfl .string).mpr (by decide)
example : Formats someProgram b!"fmt_str" .string := (C101_fmt _ _ _).mp (by decide)

/-- It would not with the other order, though a `str` would. -/
example : fmtCallWith [.reference, .function] someProgram b!"fmt_str" .string = false ∧
    fmtCallWith [.reference, .function] someProgram b!"fmt_str" .str = true := by decide
example := C101_order someProgram b!"fmt_str" (t := .string) rfl

/-- A generic function is not called for the content of a box: `Box<String>` is no `AsRef<str>`. -/
example : someProgram.typing.fmtOk b!"fmt_trait_bound_unsatisfied" (.box .string) = false ∧
    someProgram.typing.fmtOk b!"fmt_trait_bound_unsatisfied" .string = true :=
  ⟨C101_generic someProgram (p := b!"fmt_trait_bound_unsatisfied") (bound := asRefStr) (t := .box .string) rfl rfl,
    C101_generic someProgram (p := b!"fmt_trait_bound_unsatisfied") (bound := asRefStr) (t := .string) rfl rfl⟩

/-- `skip_if = str::is_empty` on `String` and `&str`, `skip_if = Vec::is_empty` on `Box<Vec<u8>>`. -/
example : Decides someProgram b!"str::is_empty" .string ∧
    Decides someProgram b!"str::is_empty" (.ref .str) ∧
    Decides someProgram b!"Vec::is_empty" (.box (.vec .u8)) ∧
    ¬ Decides someProgram b!"Vec::is_empty" .string := by
  simp only [← C101_skip_if]
  decide

/-- `Box<Option<String>>` is treated as an option with `option = true`. -/
example : OptionOf someProgram (.box (.option .string)) .string := (C101_option _ _ _).mp (by decide)

/-- The struct of the example of C63. -/
example (field : Bytes → Ty) := C101_code ⟨true, true, .std⟩ tokSyn_lawful oneContext_foreign _ _ _ _ _ _
  hygieneFields_ok (program field)

end HelperTypesExample

end OAuth
