import Mathlib.FieldTheory.Finite.Basic
import Mathlib.NumberTheory.LucasPrimality
import Verif.Spec.Rsa

/-
RSASSA-PKCS1-v1_5: what is signed with a valid key is verified, for that digest only.
-/

namespace OAuth

open Spec

/-- Exponents that undo each other modulo `p - 1` do so modulo a prime `p`. -/
theorem pow_modEq_prime {p : Nat} (hp : p.Prime) {ed : Nat} (hpos : 0 < ed) (h : (p - 1) ∣ (ed - 1))
    (m : Nat) : m ^ ed ≡ m [MOD p] := by
  haveI := Fact.mk hp
  rw [← ZMod.natCast_eq_natCast_iff, Nat.cast_pow]
  obtain ⟨c, hc⟩ := h
  have e : ed = (p - 1) * c + 1 := by omega
  rw [e]
  by_cases hm : (m : ZMod p) = 0
  · rw [hm, zero_pow (by omega)]
  · rw [pow_succ, pow_mul, ZMod.pow_card_sub_one_eq_one hm, one_pow, one_mul]

theorem rsa_inverse {key : RsaKey} (h : key.Valid Nat.Prime) (m : Nat) :
    (m ^ key.d % key.n) ^ key.e % key.n = m % key.n := by
  obtain ⟨p, q, hp, hq, hne, hn, h1, h2, hpos⟩ := h.factors
  have hco : p.Coprime q := (Nat.coprime_primes hp hq).mpr hne
  have h3 : m ^ (key.e * key.d) ≡ m [MOD key.n] := by
    rw [hn, ← Nat.modEq_and_modEq_iff_modEq_mul hco]
    exact ⟨pow_modEq_prime hp hpos h1 m, pow_modEq_prime hq hpos h2 m⟩
  have h4 : (m ^ key.d % key.n) ^ key.e ≡ (m ^ key.d) ^ key.e [MOD key.n] :=
    (Nat.mod_modEq _ _).pow _
  rw [← pow_mul, Nat.mul_comm] at h4
  exact h4.trans h3

/-! ### Bytes and numbers -/

theorem os2ip_append (a b : Bytes) : os2ip (a ++ b) = os2ip a * 256 ^ b.length + os2ip b := by
  have key : ∀ (b : Bytes) (x : Nat), b.foldl (fun n b => n * 256 + b.toNat) x =
      x * 256 ^ b.length + os2ip b := by
    intro b
    induction b with
    | nil => intro x; simp [os2ip]
    | cons c b ih =>
      intro x
      have e : os2ip (c :: b) = c.toNat * 256 ^ b.length + os2ip b := by
        have := ih (0 * 256 + c.toNat)
        rw [Nat.zero_mul, Nat.zero_add] at this
        rw [← this]
        simp [os2ip]
      rw [List.foldl_cons, ih, e, List.length_cons, pow_succ]
      ring
  rw [os2ip, List.foldl_append, key]
  rfl

theorem os2ip_lt (a : Bytes) : os2ip a < 256 ^ a.length := by
  induction a using List.reverseRecOn with
  | nil => simp [os2ip]
  | append_singleton a c ih =>
    have : c.toNat < 256 := c.toNat_lt
    have e : os2ip [c] = c.toNat := by simp [os2ip]
    rw [os2ip_append, List.length_append, pow_add, e]
    simp only [List.length_singleton, pow_one]
    omega

theorem i2osp_length (k n : Nat) : (i2osp k n).length = k := by
  induction k generalizing n with
  | zero => rfl
  | succ k ih => simp [i2osp, ih]

theorem os2ip_i2osp (k n : Nat) (h : n < 256 ^ k) : os2ip (i2osp k n) = n := by
  induction k generalizing n with
  | zero => simp at h; subst h; rfl
  | succ k ih =>
    have e : os2ip [UInt8.ofNat (n % 256)] = n % 256 := by
      simp only [os2ip, List.foldl_cons, List.foldl_nil, UInt8.toNat_ofNat']
      omega
    rw [i2osp, os2ip_append, ih _ (by rw [pow_succ] at h; omega), e]
    simp only [List.length_singleton, pow_one]
    omega

theorem i2osp_os2ip (s : Bytes) : i2osp s.length (os2ip s) = s := by
  induction s using List.reverseRecOn with
  | nil => rfl
  | append_singleton a c ih =>
    have : c.toNat < 256 := c.toNat_lt
    have e : os2ip [c] = c.toNat := by simp [os2ip]
    rw [List.length_append, List.length_singleton, i2osp, os2ip_append, e]
    simp only [List.length_singleton, pow_one]
    have e1 : (os2ip a * 256 + c.toNat) / 256 = os2ip a := by omega
    have e2 : (os2ip a * 256 + c.toNat) % 256 = c.toNat := by omega
    rw [e1, e2, ih]
    simp

theorem emsa_spec {k : Nat} {digest em : Bytes} (h : emsa k digest = some em) :
    em.length = k ∧ os2ip em < 256 ^ (k - 1) := by
  unfold emsa at h
  split at h
  · next hc =>
    cases h
    have hl : ([0x00, 0x01] ++ List.replicate (k - 38) 0xFF ++ [0x00] ++ sha1DigestInfo ++ digest :
        Bytes).length = k := by
      simp only [List.length_append, List.length_replicate, sha1DigestInfo, List.length_cons,
        List.length_nil, hc.1]
      omega
    refine ⟨hl, ?_⟩
    have e : ([0x00, 0x01] ++ List.replicate (k - 38) 0xFF ++ [0x00] ++ sha1DigestInfo ++ digest : Bytes) =
        [0x00] ++ ([0x01] ++ List.replicate (k - 38) 0xFF ++ [0x00] ++ sha1DigestInfo ++ digest) := by
      simp
    rw [e] at hl ⊢
    rw [List.length_append, List.length_singleton] at hl
    have e0 : os2ip [0x00] = 0 := rfl
    rw [os2ip_append, e0, Nat.zero_mul, Nat.zero_add]
    have := os2ip_lt ([0x01] ++ List.replicate (k - 38) 0xFF ++ [0x00] ++ sha1DigestInfo ++ digest)
    rw [show k - 1 = ([0x01] ++ List.replicate (k - 38) 0xFF ++ [0x00] ++ sha1DigestInfo ++ digest :
      Bytes).length by omega]
    exact this
  · cases h

theorem emsa_injective {k : Nat} {d d' em : Bytes} (h : emsa k d = some em) (h' : emsa k d' = some em) :
    d = d' := by
  unfold emsa at h h'
  split at h
  · split at h'
    · simp only [Option.some.injEq] at h h'
      rw [← h'] at h
      exact List.append_cancel_left h
    · cases h'
  · cases h

/-- What a valid key signs is verified as a signature of that digest, and of no other. -/
theorem rsa_verify_sign {key : RsaKey} (h : key.Valid Nat.Prime) {digest sig : Bytes}
    (hs : key.sign digest = some sig) (digest' : Bytes) :
    key.verify digest' sig = true ↔ digest' = digest := by
  obtain ⟨em, hem, rfl⟩ := Option.map_eq_some_iff.mp hs
  obtain ⟨hl, hlt⟩ := emsa_spec hem
  have hn : os2ip em < key.n := Nat.lt_of_lt_of_le hlt h.size.1
  have hn0 : 0 < key.n := by omega
  have hm : os2ip em ^ key.d % key.n < key.n := Nat.mod_lt _ hn0
  have e1 : os2ip (i2osp key.k (os2ip em ^ key.d % key.n)) = os2ip em ^ key.d % key.n :=
    os2ip_i2osp _ _ (Nat.lt_trans hm h.size.2)
  have e2 : i2osp key.k (os2ip em) = em := by
    conv_rhs => rw [← i2osp_os2ip em]
    rw [hl]
  unfold RsaKey.verify
  simp only [i2osp_length, e1, rsa_inverse h, Nat.mod_eq_of_lt hn, e2, hm, beq_self_eq_true,
    decide_true, Bool.and_self, Bool.true_and]
  constructor
  · intro hv
    cases hd : emsa key.k digest' with
    | none => rw [hd] at hv; cases hv
    | some em' =>
      rw [hd] at hv
      simp only [beq_iff_eq] at hv
      rw [← hv] at hd
      exact emsa_injective hd hem
  · rintro rfl
    rw [hem]
    simp

/-- A valid key of at least 46 bytes can sign any digest of 20 bytes. -/
theorem rsa_signs (key : RsaKey) (hk : 46 ≤ key.k) {digest : Bytes} (hd : digest.length = 20) :
    ∃ sig, key.sign digest = some sig := by
  unfold RsaKey.sign emsa
  rw [if_pos ⟨hd, hk⟩]
  exact ⟨_, rfl⟩

/-! ### A key -/

/-- Square and multiply. -/
def powMod (n : Nat) : Nat → Nat → Nat → Nat
  | 0, _, _ => 1 % n
  | fuel + 1, b, e =>
    if e = 0 then 1 % n
    else
      let r := powMod n fuel (b * b % n) (e / 2)
      if e % 2 = 1 then b * r % n else r

theorem powMod_eq (n fuel b e : Nat) (h : e < 2 ^ fuel) : powMod n fuel b e = b ^ e % n := by
  induction fuel generalizing b e with
  | zero => simp at h; subst h; simp [powMod]
  | succ fuel ih =>
    unfold powMod
    split
    · next h0 => subst h0; simp
    · have h2 : e / 2 < 2 ^ fuel := by rw [pow_succ] at h; omega
      simp only [ih _ _ h2]
      have e1 : (b * b % n) ^ (e / 2) % n = b ^ (2 * (e / 2)) % n := by
        rw [← Nat.pow_mod, pow_mul, pow_two]
      rw [e1]
      split
      · next ho =>
        rw [Nat.mul_mod_mod, ← pow_succ']
        congr 2
        omega
      · next ho =>
        congr 2
        omega

theorem prime_of_powMod (p a : Nat) (f : Nat → Prop) (hf : ∀ q, q.Prime → q ∣ p - 1 → f q)
    (fuel : Nat) (hfuel : p < 2 ^ fuel) (h1 : powMod p fuel a (p - 1) = 1) (hp : 1 < p)
    (h2 : ∀ q, f q → powMod p fuel a ((p - 1) / q) ≠ 1) : p.Prime := by
  have key : ∀ e, e < 2 ^ fuel → ((a : ZMod p) ^ e = 1 ↔ powMod p fuel a e = 1) := by
    intro e he
    rw [powMod_eq p fuel a e he, ← Nat.cast_pow, ← Nat.cast_one, ZMod.natCast_eq_natCast_iff,
      Nat.ModEq, Nat.mod_eq_of_lt hp]
  refine lucas_primality p (a : ZMod p) ((key _ (by omega)).mpr h1) ?_
  intro q hq hd h
  exact h2 q (hf q hq hd) ((key _ (Nat.lt_of_le_of_lt (Nat.div_le_self _ _) (by omega))).mp h)

theorem prime_dvd_proth {k m : Nat} (hk : k.Prime) {q : Nat} (hq : q.Prime) (h : q ∣ k * 2 ^ m) :
    q = k ∨ q = 2 := by
  rcases (Nat.Prime.dvd_mul hq).mp h with h | h
  · exact .inl ((Nat.prime_dvd_prime_iff_eq hq hk).mp h)
  · exact .inr ((Nat.prime_dvd_prime_iff_eq hq Nat.prime_two).mp (hq.dvd_of_dvd_pow h))

theorem examplePrime1 : (3 * 2 ^ 189 + 1).Prime := by
  refine prime_of_powMod _ 10 (fun q => q = 3 ∨ q = 2)
    (fun q hq hd => prime_dvd_proth (m := 189) Nat.prime_three hq hd) 192 (by decide)
    (by decide +kernel) (by decide) ?_
  rintro q (rfl | rfl) <;> decide +kernel

theorem examplePrime2 : (7 * 2 ^ 190 + 1).Prime := by
  refine prime_of_powMod _ 3 (fun q => q = 7 ∨ q = 2)
    (fun q hq hd => prime_dvd_proth (m := 190) (by decide) hq hd) 194 (by decide)
    (by decide +kernel) (by decide) ?_
  rintro q (rfl | rfl) <;> decide +kernel

/-- A key of 384 bits. -/
def exampleKey : RsaKey where
  n := (3 * 2 ^ 189 + 1) * (7 * 2 ^ 190 + 1)
  k := 48
  e := 65537
  d := 0x4ffff0000ffff0000ffff0000ffff0000ffff0000ffff0001

theorem exampleKey_valid : exampleKey.Valid Nat.Prime where
  size := by decide +kernel
  factors := ⟨_, _, examplePrime1, examplePrime2, by decide, rfl, by decide +kernel, by decide +kernel,
    by decide⟩

end OAuth
