import Mathlib.Data.Fintype.CardEmbedding
import Mathlib.Data.Fintype.BigOperators
import Mathlib.Algebra.BigOperators.Intervals
import Mathlib.Tactic.Linarith
import Mathlib.Tactic.NormNum
import Mathlib.Tactic.Ring
import Mathlib.SetTheory.Cardinal.Finite
import Mathlib.Tactic.FieldSimp
import Mathlib.Tactic.Positivity
import Mathlib.Algebra.Order.Field.Rat
import Verif.Model.Auth

/-
The chance that nonces collide, as in the comment of oauth1-request/src/serializer/auth.rs l.414-424:

    P = 1 - (2^72 - 1)/(2^72) * (2^72 - 2)/(2^72) * ... * (2^72 - 999999)/(2^72)

for one million nonces in a second, and 1/P seconds, "about 299 years", until the first collision.
-/

namespace OAuth.Spec

/-- Nine random bytes for each of `n` nonces. All are equally likely. -/
abbrev Draws (n : Nat) : Type := Fin n → Fin 9 → UInt8

/-- The share of the draws that have a property. -/
noncomputable def chance {n : Nat} (p : Draws n → Prop) : ℚ :=
  (Nat.card {d : Draws n // p d} : ℚ) / Nat.card (Draws n)

/-- The formula of the comment, for `n` nonces. -/
def commentFormula (n : Nat) : ℚ := 1 - ∏ k ∈ Finset.Ico 1 n, ((2 : ℚ) ^ 72 - k) / 2 ^ 72

/-- Seconds in a year (of the Gregorian calendar, on average). -/
def year : ℚ := 31556952

end OAuth.Spec
