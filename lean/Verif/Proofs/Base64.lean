import Verif.Model.Base64
import Verif.Spec.Base64
import Verif.Spec.PercentEncoding
import Verif.Proofs.Bytes

/-
Base64: decoding inverts encoding.
-/

namespace OAuth

open Spec

/-- The specification's alphabet for an engine. -/
def alphabetOf (urlSafe : Bool) : Bytes := if urlSafe then base64UrlAlphabet else base64Alphabet

theorem symbol_value (u : Bool) (n : Nat) (h : n < 64) :
    (alphabetOf u).idxOf? (base64Symbol u n) = some n ∧ base64Symbol u n ≠ 0x3D := by
  have : ∀ u : Bool, ∀ n : Fin 64, (alphabetOf u).idxOf? (base64Symbol u n.val) = some n.val ∧
      base64Symbol u n.val ≠ 0x3D := by decide +kernel
  exact this u ⟨n, h⟩

/-- The 6-bit values of an encoding, without padding. -/
def base64Sixes : Bytes → List Nat
  | a :: b :: c :: rest =>
    a.toNat / 4 :: (a.toNat % 4 * 16 + b.toNat / 16) :: (b.toNat % 16 * 4 + c.toNat / 64) ::
      (c.toNat % 64) :: base64Sixes rest
  | [a, b] => [a.toNat / 4, a.toNat % 4 * 16 + b.toNat / 16, b.toNat % 16 * 4]
  | [a] => [a.toNat / 4, a.toNat % 4 * 16]
  | [] => []

theorem base64Sixes_lt (s : Bytes) : ∀ n ∈ base64Sixes s, n < 64 := by
  fun_induction base64Sixes s with
  | case1 a b c rest ih =>
    have := a.toNat_lt; have := b.toNat_lt; have := c.toNat_lt
    simp only [List.mem_cons]
    rintro n (rfl | rfl | rfl | rfl | h)
    · omega
    · omega
    · omega
    · omega
    · exact ih n h
  | case2 a b =>
    have := a.toNat_lt; have := b.toNat_lt
    simp only [List.mem_cons, List.not_mem_nil, or_false]
    rintro n (rfl | rfl | rfl) <;> omega
  | case3 a =>
    have := a.toNat_lt
    simp only [List.mem_cons, List.not_mem_nil, or_false]
    rintro n (rfl | rfl) <;> omega
  | case4 => simp

theorem base64Encode_eq (u pad : Bool) (s : Bytes) :
    base64Encode u pad s = (base64Sixes s).map (base64Symbol u) ++
      (if pad then List.replicate ((3 - s.length % 3) % 3) 0x3D else []) := by
  fun_induction base64Sixes s with
  | case1 a b c rest ih =>
    simp only [base64Encode, ih, List.map_cons, List.cons_append, List.length_cons]
    rw [show (rest.length + 1 + 1 + 1) % 3 = rest.length % 3 by omega]
  | case2 a b => cases pad <;> simp [base64Encode]
  | case3 a => cases pad <;> simp [base64Encode, List.replicate]
  | case4 => cases pad <;> simp [base64Encode]

theorem base64Values_map (u : Bool) (l : List Nat) (h : ∀ n ∈ l, n < 64) :
    base64Values (alphabetOf u) (l.map (base64Symbol u)) = some l := by
  induction l with
  | nil => rfl
  | cons n l ih =>
    simp only [List.map_cons, base64Values, (symbol_value u n (h n (by simp))).1,
      ih (fun m hm => h m (by simp [hm]))]

theorem ofNat_toNat_eq (b : UInt8) (n : Nat) (h : n = b.toNat) : UInt8.ofNat n = b := by
  subst h; simp

theorem base64Groups_sixes (s : Bytes) : base64Groups (base64Sixes s) = some s := by
  fun_induction base64Sixes s with
  | case1 a b c rest ih =>
    have := a.toNat_lt; have := b.toNat_lt; have := c.toNat_lt
    simp only [base64Groups, ih, Option.map_some, Option.some.injEq, List.cons.injEq, and_true]
    refine ⟨ofNat_toNat_eq _ _ ?_, ofNat_toNat_eq _ _ ?_, ofNat_toNat_eq _ _ ?_⟩ <;> omega
  | case2 a b =>
    have := a.toNat_lt; have := b.toNat_lt
    simp only [base64Groups]
    rw [if_pos (by omega)]
    simp only [Option.some.injEq, List.cons.injEq, and_true]
    refine ⟨ofNat_toNat_eq _ _ ?_, ofNat_toNat_eq _ _ ?_⟩ <;> omega
  | case3 a =>
    have := a.toNat_lt
    simp only [base64Groups]
    rw [if_pos (by omega)]
    simp only [Option.some.injEq, List.cons.injEq, and_true]
    refine ofNat_toNat_eq _ _ ?_; omega
  | case4 => rfl

theorem base64_decodeNoPad (u : Bool) (s : Bytes) :
    base64DecodeNoPad (alphabetOf u) (base64Encode u false s) = some s := by
  rw [base64Encode_eq]
  simp [base64DecodeNoPad, base64Values_map u _ (base64Sixes_lt s), base64Groups_sixes]

theorem base64Sixes_length (s : Bytes) : (base64Sixes s).length = (s.length * 4 + 2) / 3 := by
  fun_induction base64Sixes s with
  | case1 a b c rest ih => simp only [List.length_cons, ih]; omega
  | case2 a b => simp
  | case3 a => simp
  | case4 => rfl

theorem takeWhile_append_of_all {α : Type} {p : α → Bool} {l t : List α} (h : ∀ a ∈ l, p a = true) :
    (l ++ t).takeWhile p = l ++ t.takeWhile p := by
  induction l with
  | nil => rfl
  | cons a l ih =>
    simp only [List.cons_append, List.takeWhile_cons, h a (by simp), if_true,
      ih (fun b hb => h b (by simp [hb]))]

theorem dropWhile_append_of_all {α : Type} {p : α → Bool} {l t : List α} (h : ∀ a ∈ l, p a = true) :
    (l ++ t).dropWhile p = t.dropWhile p := by
  induction l with
  | nil => rfl
  | cons a l ih =>
    simp only [List.cons_append, List.dropWhile_cons, h a (by simp), if_true,
      ih (fun b hb => h b (by simp [hb]))]

theorem base64_decodePad (u : Bool) (s : Bytes) :
    base64DecodePad (alphabetOf u) (base64Encode u true s) = some s := by
  have hbody : ∀ c ∈ (base64Sixes s).map (base64Symbol u), (c != 0x3D) = true := by
    intro c hc
    obtain ⟨n, hn, rfl⟩ := List.mem_map.mp hc
    simpa using (symbol_value u n (base64Sixes_lt s n hn)).2
  have hpad : ∀ k : Nat, (List.replicate k (0x3D : UInt8)).takeWhile (· != 0x3D) = [] ∧
      (List.replicate k (0x3D : UInt8)).dropWhile (· != 0x3D) = List.replicate k 0x3D := by
    intro k; cases k <;> simp [List.replicate]
  rw [base64Encode_eq]
  simp only [if_true]
  unfold base64DecodePad
  simp only [takeWhile_append_of_all hbody, dropWhile_append_of_all hbody, (hpad _).1, (hpad _).2,
    List.append_nil]
  rw [if_pos]
  · simp [base64DecodeNoPad, base64Values_map u _ (base64Sixes_lt s), base64Groups_sixes]
  · constructor
    · simp only [List.length_append, List.length_map, base64Sixes_length, List.length_replicate]
      generalize s.length = n
      have h3 := Nat.div_add_mod n 3
      have hlt := Nat.mod_lt n (show 3 > 0 by decide)
      generalize n / 3 = q at h3
      generalize hr : n % 3 = r at h3 hlt
      match r, hlt with
      | 0, _ => subst h3; simp; omega
      | 1, _ => subst h3; simp; omega
      | 2, _ => subst h3; simp; omega
    · have : (3 - s.length % 3) % 3 = 0 ∨ (3 - s.length % 3) % 3 = 1 ∨ (3 - s.length % 3) % 3 = 2 := by
        omega
      rcases this with h | h | h <;> simp [h, List.replicate]

theorem base64Encode_injective (u pad : Bool) {s t : Bytes}
    (h : base64Encode u pad s = base64Encode u pad t) : s = t := by
  cases pad with
  | false =>
    have := base64_decodeNoPad u s
    rw [h, base64_decodeNoPad] at this
    simpa using this.symm
  | true =>
    have := base64_decodePad u s
    rw [h, base64_decodePad] at this
    simpa using this.symm

theorem base64UrlNoPad_length (s : Bytes) : (base64UrlNoPad s).length = (s.length * 4 + 2) / 3 := by
  simp [base64UrlNoPad, base64Encode_eq, base64Sixes_length]

theorem base64Standard_length (s : Bytes) : (base64Standard s).length = (s.length + 2) / 3 * 4 := by
  simp [base64Standard, base64Encode_eq, base64Sixes_length]
  omega

theorem base64UrlNoPad_unreserved (s : Bytes) : ∀ b ∈ base64UrlNoPad s, unreserved b = true := by
  have h64 : ∀ n : Fin 64, unreserved (base64Symbol true n.val) = true := by decide +kernel
  intro b hb
  simp only [base64UrlNoPad, base64Encode_eq, Bool.false_eq_true, if_false, List.append_nil,
    List.mem_map] at hb
  obtain ⟨n, hn, rfl⟩ := hb
  exact h64 ⟨n, base64Sixes_lt s n hn⟩

end OAuth
