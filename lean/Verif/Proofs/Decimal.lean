import Verif.Spec.Decimal
import Verif.Proofs.Emit

/-
Decimal formatting against the specification of decimal numbers.
-/

namespace OAuth

open Spec

theorem readDecimalAux_append (acc : Nat) (a b : Bytes) :
    readDecimalAux acc (a ++ b) = (readDecimalAux acc a).bind fun n => readDecimalAux n b := by
  induction a generalizing acc with
  | nil => rfl
  | cons c a ih =>
    simp only [List.cons_append, readDecimalAux]
    split
    · exact ih _
    · rfl

theorem digit_toNat {d : Nat} (h : d < 10) : (UInt8.ofNat (48 + d)).toNat = 48 + d := by
  simp only [UInt8.toNat_ofNat']
  omega

theorem readDecimalAux_digit (acc d : Nat) (h : d < 10) :
    readDecimalAux acc [UInt8.ofNat (48 + d)] = some (10 * acc + d) := by
  simp only [readDecimalAux, digit_toNat h]
  rw [if_pos (by omega)]
  congr 2
  omega

theorem readDecimalAux_decimal (fuel n : Nat) (h : n < fuel) :
    readDecimalAux 0 (decimalAux fuel n) = some n := by
  induction fuel generalizing n with
  | zero => omega
  | succ fuel ih =>
    simp only [decimalAux]
    split
    · next hn =>
      rw [readDecimalAux_digit _ _ hn]
      simp
    · next hn =>
      rw [readDecimalAux_append, ih (n / 10) (by omega)]
      simp only [Option.bind_some]
      rw [readDecimalAux_digit _ _ (Nat.mod_lt _ (by decide))]
      congr 1
      omega

theorem decimalAux_head (fuel n : Nat) (h : n < fuel) (hn : 0 < n) :
    (decimalAux fuel n).head? ≠ some 0x30 ∧ decimalAux fuel n ≠ [] := by
  induction fuel generalizing n with
  | zero => omega
  | succ fuel ih =>
    simp only [decimalAux]
    split
    · next hlt =>
      refine ⟨?_, by simp⟩
      simp only [List.head?_cons, ne_eq, Option.some.injEq]
      intro he
      have := congrArg UInt8.toNat he
      rw [digit_toNat hlt] at this
      have h30 : (0x30 : UInt8).toNat = 48 := rfl
      omega
    · next hlt =>
      obtain ⟨h1, h2⟩ := ih (n / 10) (by omega) (by omega)
      refine ⟨?_, by simp⟩
      cases hd : decimalAux fuel (n / 10) with
      | nil => exact absurd hd h2
      | cons c s => rw [hd] at h1; exact h1

/-- `Display for u64` prints what the specification reads. -/
theorem readDecimal_decimal (n : Nat) : readDecimal (decimal n) = some n := by
  have hne : decimal n ≠ [] := by
    unfold decimal decimalAux
    split <;> simp
  rw [readDecimal, if_neg hne]
  exact readDecimalAux_decimal _ _ (by omega)

theorem decimal_positive (n : Nat) (h : 0 < n) : PositiveInteger (decimal n) n :=
  ⟨readDecimal_decimal n, h, (decimalAux_head _ _ (by omega) h).1⟩

theorem decimal_injective {m n : Nat} (h : decimal m = decimal n) : m = n := by
  have h1 := readDecimal_decimal m
  rw [h, readDecimal_decimal] at h1
  exact (Option.some.inj h1).symm

end OAuth
