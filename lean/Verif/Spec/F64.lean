import Mathlib.Algebra.Order.Field.Rat
import Mathlib.Algebra.Order.Group.Abs
import Mathlib.Tactic.NormNum

/-
IEEE 754 binary64 and the time values of ECMAScript.
-/

namespace OAuth.Spec

/-- IEEE 754-2008 section 3.3: the finite numbers of binary64, `m * 2 ^ e` with 53 binary digits. -/
def IsF64 (x : ℚ) : Prop := ∃ m e : ℤ, |m| < 2 ^ 53 ∧ -1074 ≤ e ∧ e ≤ 971 ∧ x = m * 2 ^ e

/-- IEEE 754-2008 section 4.3.1: `z` is as near to `x` as a number of the format can be. -/
def Nearest (x z : ℚ) : Prop := IsF64 z ∧ ∀ y, IsF64 y → |x - z| ≤ |x - y|

/-- ECMA-262 section 21.4.1.1: the time values that `Date.now()` may return, in milliseconds. -/
def TimeValue (ms : Int) : Prop := -8640000000000000 ≤ ms ∧ ms ≤ 8640000000000000

end OAuth.Spec
