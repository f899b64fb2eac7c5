import Mathlib.Algebra.Order.Floor.Ring
import Mathlib.Data.Int.Log
import Mathlib.Data.Rat.Floor
import Verif.Model.Auth

/-! The clock of the `js` feature with the arithmetic it uses, which `Model/Auth` replaces by that of integers. -/

namespace OAuth

/-- The nearest integer, the even one of two. -/
def roundEven (y : ℚ) : ℤ :=
  if y - ⌊y⌋ < 1 / 2 then ⌊y⌋
  else if 1 / 2 < y - ⌊y⌋ then ⌊y⌋ + 1
  else if ⌊y⌋ % 2 = 0 then ⌊y⌋ else ⌊y⌋ + 1

/-- The result of an operation on `f64` (Rust: IEEE 754 binary64, round to nearest, ties to even) whose exact
result is `x`: a multiple of the place value of the last of 53 digits, or of the smallest positive number.
Simplification: no overflow to infinity, no signed zero. -/
def roundF64 (x : ℚ) : ℚ :=
  let e := max (Int.log 2 |x| - 52) (-1074)
  roundEven (x / 2 ^ e) * 2 ^ e

/-- `x as u64` for a finite `f64`: truncates, and saturates. -/
def asU64 (x : ℚ) : Nat := if x < 0 then 0 else min ⌊x⌋.toNat (2 ^ 64 - 1)

/-- serializer/auth.rs l.388 `(js_sys::Date::now() / 1000.0) as u64`; `Date.now()` gives `ms` milliseconds. -/
def jsTimestamp (ms : Int) : Nat := asU64 (roundF64 ((ms : ℚ) / 1000))

end OAuth
