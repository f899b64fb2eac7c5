import Verif.Model.Derive

/-! The owner of the macro's errors (`Ctxt`, ctxt.rs): it must be used up by `take_error`, and panics if it is
dropped otherwise. `Model/Derive` has the errors as a list and leaves out who owns them; here the context is a
resource that is there or not, and the end of its scope is modelled, for a function that returns and for one
that unwinds. -/

namespace OAuth.Derive

/-- How a function that may own a `Ctxt` ends. -/
inductive Ending (α : Type)
  | returned (a : α)
  | panicked (p : Panic)
  /-- ctxt.rs l.38: the panic "must call `Ctxt::take_error`". -/
  | mustTake
  /-- A second panic while the first one unwinds aborts the process, here the compiler. -/
  | aborted
  deriving DecidableEq, Repr

/-- Code that may own a `Ctxt` (in a local variable). The context is kept when the code panics, as it then is
still there to be dropped. -/
abbrev Owning (α : Type) := Option Ctxt → Except Panic α × Option Ctxt

namespace Owning

variable {α β : Type}

def pure (a : α) : Owning α := fun cx => (.ok a, cx)

def bind (x : Owning α) (f : α → Owning β) : Owning β := fun cx =>
  match x cx with
  | (.ok a, cx) => f a cx
  | (.error p, cx) => (.error p, cx)

instance : Monad Owning where
  pure := pure
  bind := bind

/-- ctxt.rs l.12-14 `Ctxt::new`, bound to the variable `cx` (lib.rs l.66). -/
def new : Owning Unit := fun _ => (.ok (), some [])

/-- A call with `&mut cx`. After a panic the errors do not matter.

There is no such call without a context: the compiler rejects it. -/
def borrow (f : Ctxt → Except Panic (α × Ctxt)) : Owning α := fun cx =>
  match cx with
  | some errors =>
    match f errors with
    | .ok (a, errors) => (.ok a, some errors)
    | .error p => (.error p, some errors)
  | none => (.error .derive, none)

/-- ctxt.rs l.28-32 `Ctxt::take_error`: the errors, and `mem::forget`, so that nothing is left to drop. -/
def takeError : Owning Ctxt := fun cx =>
  match cx with
  | some errors => (.ok errors, none)
  | none => (.error .derive, none)

/-- Code that does not use the context. -/
def lift (x : Except Panic α) : Owning α := fun cx => (x, cx)

/-- ctxt.rs l.35-41 `Drop::drop`: whether it panics. -/
def dropPanics (panicking : Bool) : Bool := !panicking

/-- Runs a function body that starts without a context; at its end the context is dropped, if there is one. -/
def run (x : Owning α) : Ending α :=
  match x none with
  | (.ok a, none) => .returned a
  | (.ok a, some _) => if dropPanics false then .mustTake else .returned a
  | (.error p, none) => .panicked p
  | (.error p, some _) => if dropPanics true then .aborted else .panicked p

end Owning

variable {τ : Type}

/-- lib.rs l.54-165 `expand_derive_oauth1_authorize`, with the owner of the errors. -/
def expandOwning (cfg : Cfg) (S : Syn τ) (lookup : CrateLookup) (isIdent : Bytes → Bool)
    (input : Input τ) : Owning Expansion :=
  match input.fields with
  | none => pure (.errors [.notNamedStruct] false)
  | some fields => do
    Owning.new
    let fields ← Owning.borrow (newFields S fields)
    let fields := sortByName fields
    Owning.borrow fun cx => .ok ((), checkDuplicates fields [] cx)
    let info ← Owning.borrow (ContainerMeta.new S input.attrs)
    let import_ ← Owning.borrow (importOf lookup isIdent info)
    let errors ← Owning.takeError
    if errors ≠ [] then pure (.errors errors true)
    else do
      let body ← Owning.lift (methodBody cfg fields)
      pure (.impl import_ body)

end OAuth.Derive
