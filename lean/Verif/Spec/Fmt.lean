import Verif.Model.Fmt
import Verif.Spec.Writer

/-
Specification vocabulary for formatting that may go on after a failed write.
-/

namespace OAuth.Spec

/-- The writer of `Model/Basic`, in which a failed write is the end. -/
def forget {W : Type} (wr : AnyWriter W) : Writer W :=
  ⟨fun w s => if (wr.writeStr w s).1 then some (wr.writeStr w s).2 else none⟩

/-- What is written if no write fails, and how the formatting then ends. -/
def shows : Fmt → Display
  | .ret o => { chunks := [], outcome := o }
  | .write s next => { chunks := s :: (shows (next true)).chunks, outcome := (shows (next true)).outcome }

/-- Formatting that does not return `Ok`, whatever the writer does. -/
def NeverOk : Fmt → Prop
  | .ret o => o ≠ .ok
  | .write _ next => NeverOk (next true) ∧ NeverOk (next false)

/-- Formatting that reports failed writes: it does not return `Ok` after one. -/
def Honest : Fmt → Prop
  | .ret _ => True
  | .write _ next => Honest (next true) ∧ NeverOk (next false)

/-- A writer that never fails. -/
def Unfailing {W : Type} (wr : AnyWriter W) : Prop := ∀ w s, (wr.writeStr w s).1 = true

/-- What a call on `Urlencoder` formats behind `key=`. -/
def formatted : FmtCall → Fmt
  | .parameter _ v => v.percentEncode
  | .parameterEncoded _ v => v

end OAuth.Spec
