import Mathlib.Algebra.Order.Round
import Mathlib.Tactic.FieldSimp
import Mathlib.Tactic.Linarith
import Mathlib.Tactic.Positivity
import Mathlib.Tactic.Ring
import Verif.Model.JsClock
import Verif.Spec.F64

/-
C99: the timestamp taken from `Date.now()`.
-/

namespace OAuth

open Spec

theorem roundEven_near (y : ℚ) : |y - roundEven y| ≤ 1 / 2 := by
  have h1 := Int.floor_le y
  have h2 := Int.lt_floor_add_one y
  unfold roundEven
  split
  · rw [abs_le]; constructor <;> linarith
  · split
    · push_cast; rw [abs_le]; constructor <;> linarith
    · split
      · rw [abs_le]; constructor <;> linarith
      · push_cast; rw [abs_le]; constructor <;> linarith

/-- C99: of two integers that are equally near, the even one is taken. -/
theorem C99_ties {y : ℚ} {n : ℤ} (h : |y - n| = 1 / 2) (he : n % 2 = 0) : roundEven y = n := by
  have h1 := Int.floor_le y
  have h2 := Int.lt_floor_add_one y
  rcases (abs_eq (by norm_num)).mp h with h | h
  · have hf : ⌊y⌋ = n := by rw [Int.floor_eq_iff]; constructor <;> linarith
    unfold roundEven
    rw [hf, if_neg (by linarith), if_neg (by linarith), if_pos he]
  · have hf : ⌊y⌋ = n - 1 := by
      rw [Int.floor_eq_iff]; push_cast; constructor <;> linarith
    unfold roundEven
    rw [hf]
    push_cast
    rw [if_neg (by linarith), if_neg (by linarith), if_neg (by omega)]
    omega

/-- 2.5 and 3.5. -/
example : roundEven (5 / 2) = 2 ∧ roundEven (7 / 2) = 4 :=
  ⟨C99_ties (by norm_num [abs_of_pos]) (by decide), C99_ties (by norm_num [abs_of_neg]) (by decide)⟩

/-- No integer is nearer. -/
theorem roundEven_nearest (y : ℚ) (n : ℤ) : |y - roundEven y| ≤ |y - n| := by
  by_cases h : n = roundEven y
  · rw [h]
  · have h1 := roundEven_near y
    have h2 : (1 : ℚ) ≤ |(n : ℚ) - roundEven y| := by
      have : (1 : ℤ) ≤ |n - roundEven y| := Int.one_le_abs (sub_ne_zero.mpr h)
      exact_mod_cast this
    have h3 : |(n : ℚ) - roundEven y| ≤ |y - roundEven y| + |y - n| := by
      have := abs_sub_le (n : ℚ) y (roundEven y)
      rw [abs_sub_comm (n : ℚ) y] at this
      linarith
    linarith

/-- Of the multiples of `2 ^ e`, none is nearer. -/
theorem round_scaled (x : ℚ) (e : ℤ) (n : ℤ) :
    |x - roundEven (x / 2 ^ e) * 2 ^ e| ≤ |x - n * 2 ^ e| := by
  have hp : (0 : ℚ) < 2 ^ e := zpow_pos (by norm_num) e
  have h := mul_le_mul_of_nonneg_right (roundEven_nearest (x / 2 ^ e) n) hp.le
  have key : ∀ m : ℤ, |x / 2 ^ e - m| * 2 ^ e = |x - m * 2 ^ e| := by
    intro m
    rw [← abs_of_pos hp, ← abs_mul, abs_of_pos hp]
    congr 1
    field_simp
  rwa [key, key] at h

theorem multiple_of_le {m e e' : ℤ} (h : e ≤ e') : ∃ n : ℤ, (m : ℚ) * 2 ^ e' = n * 2 ^ e := by
  refine ⟨m * 2 ^ (e' - e).toNat, ?_⟩
  push_cast
  rw [← zpow_natCast, Int.toNat_of_nonneg (by omega), mul_assoc, ← zpow_add₀ (by norm_num)]
  congr 2
  omega

theorem isF64_round {x : ℚ} {e : ℤ} (he : -1074 ≤ e) (he' : e ≤ 970) (hx : |x / 2 ^ e| ≤ 2 ^ 53) :
    IsF64 (roundEven (x / 2 ^ e) * 2 ^ e) := by
  have h1 := roundEven_near (x / 2 ^ e)
  have h2 : |(roundEven (x / 2 ^ e) : ℚ)| < 2 ^ 53 + 1 := by
    have := abs_sub_abs_le_abs_sub (roundEven (x / 2 ^ e) : ℚ) (x / 2 ^ e)
    rw [abs_sub_comm] at this
    linarith
  have h3 : |roundEven (x / 2 ^ e)| < 2 ^ 53 + 1 := by exact_mod_cast h2
  by_cases h4 : |roundEven (x / 2 ^ e)| < 2 ^ 53
  · exact ⟨_, e, h4, he, by omega, rfl⟩
  · have h5 : |roundEven (x / 2 ^ e)| = 2 ^ 53 := by omega
    have hz : (2 : ℚ) ^ (e + 1) = 2 ^ e * 2 := zpow_add_one₀ (by norm_num) e
    rcases (abs_eq (by norm_num)).mp h5 with h6 | h6
    · refine ⟨2 ^ 52, e + 1, by norm_num, by omega, by omega, ?_⟩
      rw [h6, hz]; push_cast; ring
    · refine ⟨-2 ^ 52, e + 1, by norm_num, by omega, by omega, ?_⟩
      rw [h6, hz]; push_cast; ring

/-- `roundF64` rounds as IEEE 754 says. -/
theorem roundF64_nearest {x : ℚ} (hx : |x| < 2 ^ (1023 : ℤ)) : Nearest x (roundF64 x) := by
  by_cases h0 : x = 0
  · subst h0
    have e0 : roundF64 0 = 0 := by simp [roundF64, roundEven]
    rw [e0]
    exact ⟨⟨0, 0, by norm_num, by norm_num, by norm_num, by simp⟩, fun y _ => by simp⟩
  · have hpos : 0 < |x| := abs_pos.mpr h0
    have hlo : (2 : ℚ) ^ Int.log 2 |x| ≤ |x| := by
      have := Int.zpow_log_le_self (b := 2) (by norm_num) hpos
      exact_mod_cast this
    have hhi : |x| < (2 : ℚ) ^ (Int.log 2 |x| + 1) := by
      have := Int.lt_zpow_succ_log_self (b := 2) (by norm_num) |x|
      exact_mod_cast this
    unfold roundF64
    generalize Int.log 2 |x| = k at hlo hhi
    have hk : k < 1023 := (zpow_lt_zpow_iff_right₀ (by norm_num : (1 : ℚ) < 2)).mp (lt_of_le_of_lt hlo hx)
    show Nearest x (roundEven (x / 2 ^ max (k - 52) (-1074)) * 2 ^ max (k - 52) (-1074))
    generalize he : max (k - 52) (-1074) = e
    have hp : (0 : ℚ) < 2 ^ e := zpow_pos (by norm_num) e
    constructor
    · refine isF64_round (by omega) (by omega) ?_
      rw [abs_div, abs_of_pos hp, div_le_iff₀ hp]
      refine hhi.le.trans ?_
      have : (2 : ℚ) ^ 53 * 2 ^ e = 2 ^ (53 + e) := by
        rw [zpow_add₀ (by norm_num)]; norm_num
      rw [this]
      exact zpow_le_zpow_right₀ (by norm_num) (by omega)
    · rintro y ⟨m, e', hm, he1, he2, rfl⟩
      by_cases hle : e ≤ e'
      · obtain ⟨n, hn⟩ := multiple_of_le (m := m) hle
        rw [hn]
        exact round_scaled x e n
      · have hek : e = k - 52 := by omega
        have hp' : (0 : ℚ) < 2 ^ e' := zpow_pos (by norm_num) e'
        have hy : |(m : ℚ) * 2 ^ e'| ≤ 2 ^ k := by
          rw [abs_mul, abs_of_pos hp']
          have h1 : |(m : ℚ)| ≤ 2 ^ 53 := by exact_mod_cast hm.le
          have h2 : (2 : ℚ) ^ 53 * 2 ^ e' = 2 ^ (53 + e') := by
            rw [zpow_add₀ (by norm_num)]; norm_num
          calc |(m : ℚ)| * 2 ^ e' ≤ 2 ^ 53 * 2 ^ e' := mul_le_mul_of_nonneg_right h1 hp'.le
            _ = 2 ^ (53 + e') := h2
            _ ≤ 2 ^ k := zpow_le_zpow_right₀ (by norm_num) (by omega)
        have h2k : (2 : ℚ) ^ k = 4503599627370496 * 2 ^ e := by
          rw [hek, zpow_sub₀ (by norm_num)]; norm_num; ring
        have hb : |x - roundEven (x / 2 ^ e) * 2 ^ e| ≤ |x| - 2 ^ k := by
          rcases le_or_gt 0 x with hs | hs
          · have := round_scaled x e (2 ^ 52)
            push_cast at this
            rw [← h2k] at this
            rw [abs_of_nonneg hs] at hlo ⊢
            rwa [abs_of_nonneg (by linarith : 0 ≤ x - 2 ^ k)] at this
          · have := round_scaled x e (-2 ^ 52)
            push_cast at this
            rw [neg_mul, ← h2k] at this
            rw [abs_of_neg hs] at hlo ⊢
            rw [abs_of_nonpos (by linarith : x - -2 ^ k ≤ 0)] at this
            linarith
        have := abs_sub_abs_le_abs_sub x ((m : ℚ) * 2 ^ e')
        linarith

theorem isF64_int {n : ℤ} (h : |n| < 2 ^ 53) : IsF64 n :=
  ⟨n, 0, h, by norm_num, by norm_num, by simp⟩

/-- What is nearest to a number of seconds has the same whole part. -/
theorem floor_nearest {ms : Int} (h : |ms| ≤ 2 ^ 53) {z : ℚ} (hz : Nearest ((ms : ℚ) / 1000) z) :
    ⌊z⌋ = ms / 1000 := by
  have hms := abs_le.mp h
  rw [Int.floor_eq_iff]
  have hlo : ((ms / 1000 : ℤ) : ℚ) ≤ (ms : ℚ) / 1000 := by
    rw [le_div_iff₀ (by norm_num)]
    exact_mod_cast (by omega : ms / 1000 * 1000 ≤ ms)
  have hhi : (ms : ℚ) / 1000 + 1 / 1000 ≤ ((ms / 1000 : ℤ) : ℚ) + 1 := by
    have : ((ms + 1 : ℤ) : ℚ) ≤ ((ms / 1000 + 1) * 1000 : ℤ) := by
      exact_mod_cast (by omega : ms + 1 ≤ (ms / 1000 + 1) * 1000)
    push_cast at this
    linarith
  constructor
  · by_contra hlt
    rw [not_le] at hlt
    have := hz.2 _ (isF64_int (n := ms / 1000) (abs_lt.mpr ⟨by omega, by omega⟩))
    rw [abs_of_nonneg (by linarith), abs_of_nonneg (by linarith)] at this
    linarith
  · by_contra hge
    rw [not_lt] at hge
    have hr := abs_sub_round ((ms : ℚ) / 1000 * 512)
    have hbound : |round ((ms : ℚ) / 1000 * 512)| < 2 ^ 53 := by
      have h1 : |(ms : ℚ)| ≤ 2 ^ 53 := by exact_mod_cast h
      have h2 := abs_sub_abs_le_abs_sub (round ((ms : ℚ) / 1000 * 512) : ℚ) ((ms : ℚ) / 1000 * 512)
      rw [abs_sub_comm] at h2
      have h3 : |(ms : ℚ) / 1000 * 512| = |(ms : ℚ)| * (512 / 1000) := by
        rw [abs_mul, abs_div]; norm_num; ring
      have : |(round ((ms : ℚ) / 1000 * 512) : ℚ)| < 2 ^ 53 := by
        rw [h3] at h2
        norm_num at h1 ⊢
        linarith
      exact_mod_cast this
    have h4 := hz.2 (round ((ms : ℚ) / 1000 * 512) * 2 ^ (-9 : ℤ)) ⟨_, -9, hbound, by norm_num, by norm_num, rfl⟩
    have h5 : |(ms : ℚ) / 1000 - round ((ms : ℚ) / 1000 * 512) * 2 ^ (-9 : ℤ)| ≤ 1 / 1024 := by
      have : (ms : ℚ) / 1000 - round ((ms : ℚ) / 1000 * 512) * 2 ^ (-9 : ℤ) =
          ((ms : ℚ) / 1000 * 512 - round ((ms : ℚ) / 1000 * 512)) * (1 / 512) := by
        norm_num; ring
      rw [this, abs_mul, abs_of_pos (by norm_num : (0 : ℚ) < 1 / 512)]
      linarith
    rw [abs_sub_comm, abs_of_nonneg (by linarith)] at h4
    linarith

/-- C99: the whole seconds of a number of milliseconds that `f64` can hold exactly, rounded in whichever way
IEEE 754 permits, are those of the number. -/
theorem C99_whole {ms : Int} (h : |ms| ≤ 2 ^ 53) {z : ℚ} (hz : Nearest ((ms : ℚ) / 1000) z) :
    asU64 z = (ms / 1000).toNat := by
  have hf := floor_nearest h hz
  have hms := abs_le.mp h
  unfold asU64
  split
  · rename_i hneg
    have : ⌊z⌋ < 0 := Int.floor_lt.mpr (by exact_mod_cast hneg)
    omega
  · rw [hf]
    have : (ms / 1000).toNat ≤ 2 ^ 64 - 1 := by omega
    omega

/-- The operation is the one of IEEE 754. -/
theorem C99_division {x : ℚ} (hx : |x| < 2 ^ (1023 : ℤ)) : Nearest x (roundF64 x) := roundF64_nearest hx

/-- C99: `as u64` is as the reference has it: towards zero where the result is a `u64`, else the nearest one. -/
theorem C99_cast (x : ℚ) :
    (x < 0 → asU64 x = 0) ∧
    (0 ≤ x → x < 2 ^ 64 → (asU64 x : ℚ) ≤ x ∧ x < asU64 x + 1) ∧
    (2 ^ 64 ≤ x → asU64 x = 2 ^ 64 - 1) := by
  unfold asU64
  refine ⟨fun h => if_pos h, fun h0 h1 => ?_, fun h => ?_⟩
  · rw [if_neg (not_lt.mpr h0)]
    have hf : (0 : ℤ) ≤ ⌊x⌋ := Int.floor_nonneg.mpr h0
    have hl : ⌊x⌋ < 2 ^ 64 := Int.floor_lt.mpr (by exact_mod_cast h1)
    have hm : min ⌊x⌋.toNat (2 ^ 64 - 1) = ⌊x⌋.toNat := by omega
    have hc : ((⌊x⌋.toNat : ℕ) : ℚ) = (⌊x⌋ : ℚ) := by
      exact_mod_cast congrArg (Int.cast : ℤ → ℚ) (Int.toNat_of_nonneg hf)
    rw [hm, hc]
    exact ⟨Int.floor_le x, Int.lt_floor_add_one x⟩
  · rw [if_neg (not_lt.mpr (le_trans (by positivity) h))]
    have hl : (2 : ℤ) ^ 64 ≤ ⌊x⌋ := Int.le_floor.mpr (by exact_mod_cast h)
    omega

/-- C99: for every time value of ECMAScript the timestamp is the number of whole seconds since the epoch, zero
before it. -/
theorem C99_timestamp {ms : Int} (h : TimeValue ms) :
    ((0 ≤ ms) → (jsTimestamp ms : Int) * 1000 ≤ ms ∧ ms < ((jsTimestamp ms : Int) + 1) * 1000) ∧
    (ms < 0 → jsTimestamp ms = 0) := by
  have habs : |ms| ≤ 2 ^ 53 := abs_le.mpr ⟨by have := h.1; omega, by have := h.2; omega⟩
  have hr : |(ms : ℚ) / 1000| < 2 ^ (1023 : ℤ) := by
    have h1 : |(ms : ℚ)| ≤ 2 ^ 53 := by exact_mod_cast habs
    rw [abs_div]
    have h2 : (2 : ℚ) ^ 53 ≤ 2 ^ (1023 : ℤ) := by
      have := zpow_le_zpow_right₀ (by norm_num : (1 : ℚ) ≤ 2) (by norm_num : (53 : ℤ) ≤ 1023)
      exact_mod_cast this
    have h3 : |(ms : ℚ)| / |(1000 : ℚ)| ≤ 2 ^ 53 / 1000 := by
      rw [abs_of_pos (by norm_num : (0 : ℚ) < 1000)]
      exact div_le_div_of_nonneg_right h1 (by norm_num)
    refine lt_of_le_of_lt h3 (lt_of_lt_of_le ?_ h2)
    norm_num
  have key : jsTimestamp ms = (ms / 1000).toNat := C99_whole habs (roundF64_nearest hr)
  rw [key]
  constructor <;> intro _ <;> omega

/-- C99 for the code: with the `js` feature, what the serializer uses as the current time is that of `Date.now()`
(the whole milliseconds of the clock), computed as it does. So what the other properties say of the `js` clock
holds with floating-point numbers. -/
theorem C99_code {cfg : Cfg} (hc : cfg.clock = .js) (w : World)
    (h : TimeValue (w.clock w.clockPos / 1000000)) :
    Authorizer.getCurrentTimestamp cfg w =
      .ok (jsTimestamp (w.clock w.clockPos / 1000000), { w with clockPos := w.clockPos + 1 }) := by
  have h1 := C99_timestamp h
  have key : jsTimestamp (w.clock w.clockPos / 1000000) = (w.clock w.clockPos / 1000000000).toNat := by
    rcases le_or_gt 0 (w.clock w.clockPos) with hs | hs
    · have := h1.1 (by omega)
      omega
    · have := h1.2 (by omega)
      omega
  rw [key]
  simp only [Authorizer.getCurrentTimestamp, hc]
  rfl

/-- Later time values do not give earlier timestamps. -/
theorem C99_monotone {ms ms' : Int} (h : TimeValue ms) (h' : TimeValue ms') (hle : ms ≤ ms') :
    jsTimestamp ms ≤ jsTimestamp ms' := by
  have h1 := C99_timestamp h
  have h2 := C99_timestamp h'
  rcases le_or_gt 0 ms with hs | hs
  · have := h1.1 hs
    have := h2.1 (by omega)
    omega
  · rw [h1.2 hs]
    exact Nat.zero_le _

/-- Concrete cases: a millisecond before a full second, the latest and the earliest time value. -/
example : TimeValue 1700000000999 ∧ jsTimestamp 1700000000999 = 1700000000 ∧
    jsTimestamp 8640000000000000 = 8640000000000 ∧ jsTimestamp (-8640000000000000) = 0 ∧
    jsTimestamp 999 = 0 := by
  have h : ∀ ms, TimeValue ms → _ := fun ms h => C99_timestamp (ms := ms) h
  have h1 := h 1700000000999 ⟨by omega, by omega⟩
  have h2 := h 8640000000000000 ⟨by omega, by omega⟩
  have h3 := h (-8640000000000000) ⟨by omega, by omega⟩
  have h4 := h 999 ⟨by omega, by omega⟩
  refine ⟨⟨by omega, by omega⟩, ?_, ?_, h3.2 (by omega), ?_⟩
  · have := h1.1 (by omega); omega
  · have := h2.1 (by omega); omega
  · have := h4.1 (by omega); omega

/-- The hypotheses of `C99_whole` and `C99_division`: a millisecond before a full second. -/
example : ∃ z, Nearest (((1700000000999 : ℤ) : ℚ) / 1000) z ∧ asU64 z = 1700000000 := by
  have h : |((1700000000999 : ℤ) : ℚ) / 1000| < 2 ^ (1023 : ℤ) := by
    rw [abs_of_pos (by norm_num)]
    exact lt_of_lt_of_le (by norm_num : _ < (2 : ℚ) ^ (53 : ℤ))
      (zpow_le_zpow_right₀ (by norm_num) (by norm_num))
  exact ⟨_, C99_division h, by rw [C99_whole (by norm_num) (C99_division h)]; decide⟩

/-- The hypotheses of `C99_code`. -/
example : ∃ (cfg : Cfg) (w : World), cfg.clock = .js ∧ TimeValue (w.clock w.clockPos / 1000000) ∧
    (Authorizer.getCurrentTimestamp cfg w).toOption.map (·.1) = some 1700000000 :=
  ⟨⟨true, true, .js⟩, { rng := fun _ => 0, clock := fun _ => 1700000000999999999 }, rfl,
    ⟨by decide, by decide⟩, rfl⟩

/-- That there is a bound matters: beyond it the quotient may be rounded up to the next second. -/
theorem C99_beyond : jsTimestamp 140738299181700992 = 140738299181701 := by
  have hx : (((140738299181700992 : ℤ) : ℚ) / 1000) = 140738299181700.992 := by norm_num
  have hlog : Int.log 2 (|140738299181700.992| : ℚ) = 47 := by
    rw [abs_of_pos (by norm_num)]
    apply le_antisymm
    · refine Int.lt_add_one_iff.mp ((Int.lt_zpow_iff_log_lt (by norm_num) (by norm_num)).mp ?_)
      norm_num
    · refine (Int.zpow_le_iff_le_log (by norm_num) (by norm_num)).mp ?_
      norm_num
  have hfloor : ⌊(140738299181700.992 : ℚ) * 32⌋ = 4503625573814431 := by
    rw [Int.floor_eq_iff]; norm_num
  have hround : roundEven ((140738299181700.992 : ℚ) * 32) = 4503625573814432 := by
    unfold roundEven
    rw [hfloor]
    norm_num
  have hf : roundF64 (140738299181700.992 : ℚ) = 140738299181701 := by
    unfold roundF64
    simp only [hlog]
    have : max ((47 : ℤ) - 52) (-1074) = -5 := by decide
    rw [this]
    have e : (140738299181700.992 : ℚ) / 2 ^ (-5 : ℤ) = 140738299181700.992 * 32 := by norm_num
    rw [e, hround]
    norm_num
  unfold jsTimestamp
  rw [hx, hf]
  unfold asU64
  have : ⌊(140738299181701 : ℚ)⌋ = 140738299181701 := by
    rw [Int.floor_eq_iff]; norm_num
  rw [this, if_neg (by norm_num)]
  decide

/-- 1.5, and a number that no `u64` holds. -/
example : asU64 (3 / 2) = 1 ∧ asU64 (2 ^ 70) = 18446744073709551615 := by
  obtain ⟨-, h, -⟩ := C99_cast (3 / 2)
  obtain ⟨h1, h2⟩ := h (by norm_num) (by norm_num)
  have h3 : asU64 (3 / 2) < 2 := by
    have : (asU64 (3 / 2) : ℚ) < 2 := lt_of_le_of_lt h1 (by norm_num)
    exact_mod_cast this
  have h4 : 0 < asU64 (3 / 2) := by
    have : (0 : ℚ) < asU64 (3 / 2) := by linarith
    exact_mod_cast this
  exact ⟨by omega, (C99_cast (2 ^ 70)).2.2 (by norm_num)⟩

end OAuth
