import Verif.Model.Basic

/-
Specification: reading a decimal number (RFC 5849 section 3.3 for timestamps), written independently of
the formatting code.
-/

namespace OAuth.Spec

/-- The number a string of decimal digits denotes, most significant digit first; `none` for anything
else. -/
def readDecimalAux : Nat → Bytes → Option Nat
  | acc, [] => some acc
  | acc, c :: s => if 0x30 ≤ c.toNat ∧ c.toNat ≤ 0x39 then readDecimalAux (10 * acc + (c.toNat - 0x30)) s
    else none

/-- A non-empty string of digits. -/
def readDecimal (s : Bytes) : Option Nat := if s = [] then none else readDecimalAux 0 s

/-- The texts that denote a number below 2^64: digits, possibly after `+`. -/
def U64Text (s : Bytes) (n : Nat) : Prop :=
  (readDecimal s = some n ∨ ∃ r, s = 0x2B :: r ∧ readDecimal r = some n) ∧ n < 2 ^ 64

/-- RFC 5849 section 3.3: a positive integer, without sign or leading zeroes. -/
def PositiveInteger (s : Bytes) (n : Nat) : Prop :=
  readDecimal s = some n ∧ 0 < n ∧ s.head? ≠ some 0x30

instance (s : Bytes) (n : Nat) : Decidable (PositiveInteger s n) := by
  unfold PositiveInteger; infer_instance

end OAuth.Spec
