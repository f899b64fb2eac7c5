import Verif.Model.CtxtDrop
import Verif.Properties.DeriveErrors

/-
C95: the context that collects the errors of the macro is always used up; its drop bomb does not go off, and
does not turn another panic into an abort of the compiler.
-/

namespace OAuth

open Spec Derive

variable {τ : Type}

namespace Derive.Owning

theorem bind_apply {α β : Type} (x : Owning α) (f : α → Owning β) (cx : Option Ctxt) :
    (x >>= f) cx = match x cx with
      | (.ok a, cx) => f a cx
      | (.error p, cx) => (.error p, cx) := rfl

theorem pure_apply {α : Type} (a : α) (cx : Option Ctxt) : (Pure.pure a : Owning α) cx = (.ok a, cx) := rfl

theorem new_apply (cx : Option Ctxt) : new cx = (.ok (), some []) := rfl

theorem borrow_apply {α : Type} (f : Ctxt → Except Panic (α × Ctxt)) (errors : Ctxt) :
    borrow f (some errors) = match f errors with
      | .ok (a, errors) => (.ok a, some errors)
      | .error p => (.error p, some errors) := rfl

theorem takeError_apply (errors : Ctxt) : takeError (some errors) = (.ok errors, none) := rfl

end Derive.Owning

open Derive.Owning in
/-- C95: with the owner of the errors modelled, the macro ends as it does without: the bomb never goes off. -/
theorem C95_same (cfg : Cfg) (S : Syn τ) (lookup : CrateLookup) (isIdent : Bytes → Bool)
    (input : Input τ) :
    (expandOwning cfg S lookup isIdent input).run =
      match expand cfg S lookup isIdent input with
      | .ok e => .returned e
      | .error p => .panicked p := by
  unfold expandOwning expand run
  cases input.fields with
  | none => rfl
  | some fields =>
    simp only [bind_apply, new_apply, borrow_apply]
    cases newFields S fields [] with
    | error p => rfl
    | ok r =>
      obtain ⟨fs, cx⟩ := r
      simp only [Except.ok_bind', borrow_apply]
      cases ContainerMeta.new S input.attrs (checkDuplicates (sortByName fs) [] cx) with
      | error p => rfl
      | ok r =>
        obtain ⟨info, cx⟩ := r
        simp only [Except.ok_bind', borrow_apply]
        cases importOf lookup isIdent info cx with
        | error p => rfl
        | ok r =>
          obtain ⟨im, cx⟩ := r
          simp only [Except.ok_bind', borrow_apply, takeError_apply]
          by_cases hcx : cx = []
          · subst hcx
            simp only [ne_eq, not_true_eq_false, if_false, bind_apply, lift]
            cases methodBody cfg (sortByName fs) with
            | error p => rfl
            | ok b => rfl
          · rw [if_pos hcx, if_pos hcx]
            rfl

/-- C95: so the macro neither panics for want of `take_error` nor aborts the compiler, whatever its input, the
parser, the names of crates and the build. -/
theorem C95_never (cfg : Cfg) (S : Syn τ) (lookup : CrateLookup) (isIdent : Bytes → Bool)
    (input : Input τ) :
    (expandOwning cfg S lookup isIdent input).run ≠ .mustTake ∧
      (expandOwning cfg S lookup isIdent input).run ≠ .aborted := by
  rw [C95_same]
  cases expand cfg S lookup isIdent input <;> exact ⟨nofun, nofun⟩

/-- C95: what the bomb is for. Of any code: it goes off exactly if the code returns and has not taken the
errors of its context, whether or not there are any; and it never makes a panic an abort. -/
theorem C95_bomb {α : Type} (x : Owning α) :
    (x.run = .mustTake ↔ ∃ a cx, x none = (.ok a, some cx)) ∧
      (∀ p, x.run = .panicked p ↔ ∃ cx, x none = (.error p, cx)) ∧ x.run ≠ .aborted := by
  unfold Owning.run Owning.dropPanics
  rcases h : x none with ⟨r, cx⟩
  cases r <;> cases cx <;> simp

open Derive.Owning in
/-- C95: forgetting to take the errors is noticed in every run that gets so far, also without errors. -/
theorem C95_forgotten (cfg : Cfg) (S : Syn τ) (lookup : CrateLookup) (isIdent : Bytes → Bool)
    (input : Input τ) {e : Expansion} (h : expand cfg S lookup isIdent input = .ok e)
    {fields : List (SynField τ)} (hf : input.fields = some fields) :
    (do
      Owning.new
      let fs ← Owning.borrow (newFields S fields)
      Owning.borrow fun cx => .ok ((), checkDuplicates (sortByName fs) [] cx)
      let info ← Owning.borrow (ContainerMeta.new S input.attrs)
      Owning.borrow (importOf lookup isIdent info) : Owning Import).run = .mustTake := by
  unfold expand at h
  rw [hf] at h
  unfold run
  simp only [bind_apply, new_apply, borrow_apply]
  cases h1 : newFields S fields [] with
  | error p => simp only [h1, Except.error_bind'] at h; cases h
  | ok r =>
    obtain ⟨fs, cx⟩ := r
    simp only [h1, Except.ok_bind', borrow_apply] at h ⊢
    cases h2 : ContainerMeta.new S input.attrs (checkDuplicates (sortByName fs) [] cx) with
    | error p => simp only [h2, Except.error_bind'] at h; cases h
    | ok r =>
      obtain ⟨info, cx⟩ := r
      simp only [h2, Except.ok_bind', borrow_apply] at h ⊢
      cases h3 : importOf lookup isIdent info cx with
      | error p => simp only [h3, Except.error_bind'] at h; cases h
      | ok r => rfl

/-- Without errors, with errors, and with a panic (`CARGO_CRATE_NAME` is not set) while the context is there. -/
example :
    (expandOwning ⟨true, true, .std⟩ tokSyn .manifestDirNotSet (fun _ => true)
        ⟨[], some [⟨[], b!"x", .other⟩]⟩).run ≠ .mustTake ∧
      (expandOwning ⟨true, true, .std⟩ tokSyn .failed (fun _ => true) ⟨[], some []⟩).run =
        .returned (.errors [.crateLookup] true) ∧
      (expandOwning ⟨true, true, .std⟩ tokSyn (.itself none) (fun _ => true) ⟨[], some []⟩).run =
        .panicked .derive := by decide +kernel

example : (do
      Owning.new
      let fs ← Owning.borrow (newFields tokSyn [⟨[], b!"x", .other⟩])
      Owning.borrow fun cx => .ok ((), checkDuplicates (sortByName fs) [] cx)
      let info ← Owning.borrow (ContainerMeta.new tokSyn [])
      Owning.borrow (importOf .manifestDirNotSet (fun _ => true) info) : Owning Import).run = .mustTake := by
  obtain ⟨e, h⟩ : ∃ e, expand ⟨true, true, .std⟩ tokSyn .manifestDirNotSet (fun _ => true)
      ⟨[], some [⟨[], b!"x", .other⟩]⟩ = .ok e := ⟨_, rfl⟩
  exact C95_forgotten _ tokSyn _ _ _ h rfl

end OAuth
