import Verif.Spec.Collision
import Verif.Properties.Nonce
import Verif.Properties.Panics

/-
C69: how likely generated nonces are to collide.
-/

namespace OAuth

open Spec

/-- Bytes are the numbers below 256. -/
def byteEquiv : UInt8 ≃ Fin 256 :=
  ⟨fun b => b.toBitVec.toFin, fun i => ⟨⟨i⟩⟩, fun _ => rfl, fun _ => rfl⟩

instance : Fintype UInt8 := Fintype.ofEquiv _ byteEquiv.symm

theorem card_draw : Fintype.card (Fin 9 → UInt8) = 2 ^ 72 := by
  rw [Fintype.card_fun, Fintype.card_congr byteEquiv, Fintype.card_fin, Fintype.card_fin]; norm_num

/-- The nonce generated from nine bytes. -/
def nonceOf (d : Fin 9 → UInt8) : Bytes := ((Authorizer.genNonce (List.ofFn d)).toOption).getD []

theorem nonceOf_ok (d : Fin 9 → UInt8) : Authorizer.genNonce (List.ofFn d) = .ok (nonceOf d) := by
  obtain ⟨n, h, -⟩ := C32_nonce_text (List.ofFn d) (by simp)
  rw [nonceOf, h]; rfl

theorem nonceOf_injective : Function.Injective nonceOf := by
  intro a b h
  have := C32_nonce_injective (List.ofFn a) (List.ofFn b) (by simp) (by simp)
    (by rw [nonceOf_ok, nonceOf_ok, h])
  exact List.ofFn_injective this

/-- Two of the nonces generated from the draws are the same. -/
def Collide {n : Nat} (d : Draws n) : Prop := ∃ i j, i ≠ j ∧ nonceOf (d i) = nonceOf (d j)

/-- C69: of all draws for `n` nonces, exactly `2^72 * (2^72 - 1) * … * (2^72 - n + 1)` give nonces that
are all different. -/
theorem C69_count (n : Nat) :
    Nat.card {d : Draws n // ¬ Collide d} = (2 ^ 72).descFactorial n := by
  have e : {d : Draws n // ¬ Collide d} ≃ (Fin n ↪ (Fin 9 → UInt8)) :=
    { toFun := fun d => ⟨d.1, fun i j h => by
        by_contra hn
        exact d.2 ⟨i, j, hn, by rw [h]⟩⟩
      invFun := fun f => ⟨f, fun ⟨i, j, hn, h⟩ => hn (f.injective (nonceOf_injective h))⟩
      left_inv := fun _ => rfl
      right_inv := fun _ => rfl }
  rw [Nat.card_congr e, Nat.card_eq_fintype_card, Fintype.card_embedding_eq, card_draw, Fintype.card_fin]

theorem card_draws (n : Nat) : Nat.card (Draws n) = (2 ^ 72) ^ n := by
  rw [Nat.card_eq_fintype_card, Fintype.card_fun, card_draw, Fintype.card_fin]

theorem chance_compl {n : Nat} (p : Draws n → Prop) : chance p = 1 - chance fun d => ¬ p d := by
  classical
  have hpos : (Nat.card (Draws n) : ℚ) ≠ 0 := by rw [card_draws]; positivity
  have h := Fintype.card_subtype_compl p
  have hle := Fintype.card_subtype_le p
  unfold chance
  rw [eq_sub_iff_add_eq, ← add_div, div_eq_one_iff_eq hpos, ← Nat.cast_add]
  congr 1
  simp only [Nat.card_eq_fintype_card]
  omega

/-- The product of the shares of free nonces. -/
def allDifferent (N : Nat) (n : Nat) : ℚ := ∏ k ∈ Finset.range n, ((N : ℚ) - k) / N

theorem descFactorial_eq (N n : Nat) (hN : 0 < N) (hn : n ≤ N) :
    (N.descFactorial n : ℚ) / (N : ℚ) ^ n = allDifferent N n := by
  have hN' : (N : ℚ) ≠ 0 := by positivity
  induction n with
  | zero => simp [allDifferent]
  | succ n ih =>
    have ih := ih (by omega)
    rw [allDifferent, Finset.prod_range_succ, ← allDifferent, ← ih, Nat.descFactorial_succ, pow_succ,
      Nat.cast_mul, Nat.cast_sub (by omega)]
    field_simp

/-- C69: the chance of a collision among `n` nonces is given by the formula of the comment. -/
theorem C69_chance (n : Nat) (hn : n ≤ 2 ^ 72) : chance (Collide (n := n)) = commentFormula n := by
  rw [chance_compl, chance, C69_count, card_draws]
  have h := descFactorial_eq (2 ^ 72) n (by norm_num) hn
  push_cast at h ⊢
  rw [h, commentFormula, allDifferent]
  congr 1
  cases n with
  | zero => simp
  | succ n =>
    rw [Finset.prod_range_eq_mul_Ico _ (by omega)]
    push_cast
    norm_num

/-- Bounds on the product. -/
theorem allDifferent_bounds (N : Nat) (hN : 0 < N) (n : Nat) (hn : n ≤ N) :
    let s : ℚ := (n * (n - 1) : ℚ) / (2 * N)
    1 - s ≤ allDifferent N n ∧ allDifferent N n ≤ 1 - s + s ^ 2 / 2 ∧ 0 ≤ allDifferent N n := by
  have hN' : (0 : ℚ) < N := by positivity
  induction n with
  | zero => simp [allDifferent]
  | succ n ih =>
    obtain ⟨h1, h2, h3⟩ := ih (by omega)
    have hs : allDifferent N (n + 1) = allDifferent N n * (1 - n / N) := by
      rw [allDifferent, Finset.prod_range_succ, ← allDifferent, sub_div, div_self hN'.ne']
    have hx0 : (0 : ℚ) ≤ (n : ℚ) / N := by positivity
    have hx1 : (n : ℚ) / N ≤ 1 := by
      rw [div_le_one hN']; exact_mod_cast (by omega : n ≤ N)
    have hstep : (((n + 1 : ℕ) : ℚ) * (((n + 1 : ℕ) : ℚ) - 1)) / (2 * N) =
        ((n : ℚ) * (n - 1)) / (2 * N) + n / N := by
      push_cast; field_simp; ring
    have hs0 : (0 : ℚ) ≤ ((n : ℚ) * (n - 1)) / (2 * N) := by
      cases n with
      | zero => simp
      | succ n => push_cast; rw [add_sub_cancel_right]; positivity
    simp only [hstep, hs]
    generalize ((n : ℚ) * (n - 1)) / (2 * N) = s at *
    generalize (n : ℚ) / N = x at *
    generalize allDifferent N n = p at *
    refine ⟨?_, ?_, mul_nonneg h3 (by linarith)⟩
    · nlinarith [mul_nonneg hs0 hx0]
    · have := mul_le_mul_of_nonneg_right h2 (by linarith : (0 : ℚ) ≤ 1 - x)
      nlinarith [mul_nonneg (mul_nonneg hs0 hs0) hx0, mul_nonneg hx0 hx0]

/-- C69: bounds for every number of nonces: up to a relative error of `n * (n - 1) / 2^74`, the chance is
the number of pairs over `2^72`. -/
theorem C69_bounds (n : Nat) (hn : n ≤ 2 ^ 72) :
    let s : ℚ := (n * (n - 1) : ℚ) / 2 ^ 73
    s - s ^ 2 / 2 ≤ chance (Collide (n := n)) ∧ chance (Collide (n := n)) ≤ s := by
  have h := allDifferent_bounds (2 ^ 72) (by norm_num) n hn
  have hd := descFactorial_eq (2 ^ 72) n (by norm_num) hn
  have hc : chance (Collide (n := n)) = 1 - allDifferent (2 ^ 72) n := by
    rw [chance_compl, chance, C69_count, card_draws, ← hd]
    push_cast
    rfl
  have he : (2 : ℚ) * ((2 ^ 72 : ℕ) : ℚ) = 2 ^ 73 := by norm_num
  simp only [he] at h
  simp only [hc]
  constructor <;> linarith [h.1, h.2.1]

/-- C69: at one million nonces a second, the expected time until two coincide in one second is more than
299 and less than 300 years. -/
theorem C69_years : 299 * year < 1 / chance (Collide (n := 1000000)) ∧
    1 / chance (Collide (n := 1000000)) < 300 * year := by
  obtain ⟨h1, h2⟩ := C69_bounds 1000000 (by norm_num)
  have hpos : 0 < chance (Collide (n := 1000000)) := lt_of_lt_of_le (by norm_num) h1
  constructor
  · rw [lt_div_iff₀ hpos]
    refine lt_of_le_of_lt (mul_le_mul_of_nonneg_left h2 (by norm_num [year])) (by norm_num [year])
  · rw [div_lt_iff₀ hpos]
    refine lt_of_lt_of_le (by norm_num [year]) (mul_le_mul_of_nonneg_left h1 (by norm_num [year]))

/-! ### The nonces of a series of requests -/

/-- Requests made one after the other in one thread with HMAC-SHA1: `world i` is the state of the generator
and the clock before the `i`th. -/
structure Series (cfg : Cfg) (n : Nat) where
  builder : Nat → Builder Hmac
  method : Nat → Bytes
  uri : Nat → Display
  request : Nat → Request
  world : Nat → World
  out : Nat → Bytes
  hmac : ∀ i < n, (builder i).signatureMethod = hmacSha1
  noNonce : ∀ i < n, (builder i).options.nonce = none
  standard : ∀ i < n, ∃ cs, IsTrace (request i) cs ∧ Standard cs
  run : ∀ i < n, (builder i).authorize cfg (method i) (uri i) (request i) (world i) =
    .ok (out i, world (i + 1))

/-- The bytes the generator has in store for `n` nonces. -/
def World.draws (w : World) (n : Nat) : Draws n := fun i j => w.rng (w.rngPos + 9 * i.val + j.val)

theorem advance_standard (e : Env) (he : e.useNonce = true) (hn : e.options.nonce = none) (cs : List Call)
    (w : World) : (cs.foldl (advance e) w).rng = w.rng ∧
      (cs.foldl (advance e) w).rngPos = w.rngPos + 9 * (cs.filterMap Call.proto?).count .nonce := by
  induction cs generalizing w with
  | nil => simp
  | cons c cs ih =>
    obtain ⟨h1, h2⟩ := ih (advance e w c)
    refine ⟨h1, ?_⟩
    rw [List.foldl_cons, h2]
    by_cases hc : c = .oauth .nonce
    · subst hc
      simp [advance, needsRng, he, hn, Call.proto?]
      omega
    · have hr : needsRng e c = false := by simp [needsRng, hc]
      have : (advance e w c).rngPos = w.rngPos := by simp [advance, hr]
      rw [this]
      cases c with
      | oauth p =>
        have : p ≠ .nonce := fun h => hc (by rw [h])
        simp [Call.proto?, this]
      | _ => rfl

theorem Series.position {cfg : Cfg} {n : Nat} (s : Series cfg n) (i : Nat) (hi : i ≤ n) :
    (s.world i).rng = (s.world 0).rng ∧ (s.world i).rngPos = (s.world 0).rngPos + 9 * i := by
  induction i with
  | zero => simp
  | succ i ih =>
    obtain ⟨h1, h2⟩ := ih (by omega)
    obtain ⟨cs, ht, hstd⟩ := s.standard i (by omega)
    have hsg : ConstSign (s.builder i).signatureMethod.sign b!"HMAC-SHA1" true true := by
      rw [s.hmac i (by omega)]; exact constSign_hmac _
    have hr := s.run i (by omega)
    rw [authorize_runWith, runWith_ok_iff hsg ht] at hr
    obtain ⟨-, hw, -⟩ := hr
    obtain ⟨a1, a2⟩ := advance_standard ((s.builder i).env b!"HMAC-SHA1" true true) rfl
      (s.noNonce i (by omega)) cs (s.world i)
    rw [hw, a1, a2, h1, h2, hstd]
    refine ⟨rfl, ?_⟩
    have : allProto.count .nonce = 1 := by decide
    omega

/-- C69: the `i`th request of a series carries the nonce made of the `i`th nine bytes of the generator. -/
theorem C69_series {cfg : Cfg} {n : Nat} (s : Series cfg n) (i : Fin n) :
    ∃ ps, parseHeader (s.out i) = some ps ∧
      ps.filter (fun p => p.1 = b!"oauth_nonce") =
        [(b!"oauth_nonce", nonceOf ((s.world 0).draws n i))] := by
  obtain ⟨cs, ht, hstd⟩ := s.standard i i.isLt
  have hm := s.hmac i i.isLt
  have hsg : ConstSign (s.builder i).signatureMethod.sign b!"HMAC-SHA1" true true := by
    rw [hm]; exact constSign_hmac _
  obtain ⟨st, sig, m, h1, -, h2, h3⟩ := C32_nonce_sent hsg unreserved_hmacName (s.noNonce i i.isLt) ht hstd
    _ _ _ _ _ (s.run i i.isLt)
  have hsafe : ∃ d, HeaderSafe sig.text d := by
    rw [hm] at h1
    cases h1
    exact ⟨_, by rw [(base64PercentEncodeDisplay_text _).1]; exact headerSafe_encode _⟩
  obtain ⟨d, hd⟩ := hsafe
  obtain ⟨ps, hp, hf⟩ := h3 d hd
  refine ⟨ps, hp, ?_⟩
  obtain ⟨e1, e2⟩ := s.position i (by omega)
  have hb : (List.range 9).map (fun k => (s.world i).rng ((s.world i).rngPos + k)) =
      List.ofFn ((s.world 0).draws n i) := by
    rw [e1, e2]
    simp [World.draws, List.range_succ, List.ofFn_succ]
  rw [hb, nonceOf_ok] at h2
  cases h2
  exact hf

/-- C69: two requests of a series carry the same nonce exactly if the bytes drawn collide. -/
theorem C69_collide {cfg : Cfg} {n : Nat} (s : Series cfg n) :
    (∃ i j : Fin n, i ≠ j ∧ ∃ ps qs, parseHeader (s.out i) = some ps ∧ parseHeader (s.out j) = some qs ∧
      ps.filter (fun p => p.1 = b!"oauth_nonce") = qs.filter (fun p => p.1 = b!"oauth_nonce")) ↔
      Collide ((s.world 0).draws n) := by
  constructor
  · rintro ⟨i, j, hn, ps, qs, hp, hq, he⟩
    obtain ⟨ps', hp', h1⟩ := C69_series s i
    obtain ⟨qs', hq', h2⟩ := C69_series s j
    rw [hp] at hp'; rw [hq] at hq'
    cases hp'; cases hq'
    rw [h1, h2] at he
    exact ⟨i, j, hn, by simpa using he⟩
  · rintro ⟨i, j, hn, he⟩
    obtain ⟨ps, hp, h1⟩ := C69_series s i
    obtain ⟨qs, hq, h2⟩ := C69_series s j
    exact ⟨i, j, hn, ps, qs, hp, hq, by rw [h1, h2, he]⟩

/-! ### Concrete cases -/

/-- The request of the shared case, made in any world. -/
def caseRun (w : World) : Except Panic (Bytes × World) :=
  (Case.builder hmacSha1).authorize Case.cfg b!"GET" (.ofBytes Case.uri) Case.request w

theorem caseRun_ok (w : World) : ∃ res, caseRun w = .ok res :=
  ((C16_any_request (signs_hmac _ (fun m => by rw [sha1_length]; decide) _ _) Case.trace
    (weave_ok (by simp [AllOk, Case.pairs, Display.ofBytes])) (weave_keys_sorted ((C20_from_sorted _ _).mp (show _ = some Case.pairs by decide +kernel)).1) b!"GET" (.inl (by decide)) w).1
      (.ofBytes Case.uri) rfl (by decide +kernel)).1

/-- The state of the generator and the clock after some runs of a computation. -/
def worldAfter (f : World → Except Panic (Bytes × World)) (w : World) : Nat → World
  | 0 => w
  | n + 1 => ((f (worldAfter f w n)).toOption.map (·.2)).getD w

/-- What the next run gives. -/
def outAfter (f : World → Except Panic (Bytes × World)) (w : World) (n : Nat) : Bytes :=
  ((f (worldAfter f w n)).toOption.map (·.1)).getD []

theorem run_after {f : World → Except Panic (Bytes × World)} (hf : ∀ w, ∃ res, f w = .ok res) (w : World)
    (n : Nat) : f (worldAfter f w n) = .ok (outAfter f w n, worldAfter f w (n + 1)) := by
  obtain ⟨res, h⟩ := hf (worldAfter f w n)
  simp only [outAfter, worldAfter, h]
  rfl

/-- The shared case, as often as wanted. -/
def caseSeries (w : World) (n : Nat) : Series Case.cfg n where
  builder _ := Case.builder hmacSha1
  method _ := b!"GET"
  uri _ := .ofBytes Case.uri
  request _ := Case.request
  world := worldAfter caseRun w
  out := outAfter caseRun w
  hmac _ _ := rfl
  noNonce _ _ := rfl
  standard _ _ := ⟨_, Case.trace, Case.standard⟩
  run i _ := run_after caseRun_ok w i

/-- Any number of requests. -/
example (n : Nat) := C69_series (caseSeries Case.world n)
example (n : Nat) := C69_collide (caseSeries Case.world n)

/-- The generator of the shared case has a period of 256 bytes: of 257 requests, two carry the same nonce, … -/
example : Collide (Case.world.draws 257) :=
  ⟨⟨0, by omega⟩, ⟨256, by omega⟩, Fin.ne_of_val_ne (by decide), congrArg nonceOf (funext fun j => by revert j; decide +kernel)⟩

/-- … of two, none. -/
example : ¬ Collide (Case.world.draws 2) := by
  rintro ⟨i, j, hn, h⟩
  have := nonceOf_injective h
  have := congrFun this 0
  revert i j
  decide +kernel

example : chance (Collide (n := 1000000)) = commentFormula 1000000 := C69_chance _ (by norm_num)
example := C69_bounds 1000000 (by norm_num)

/-- Two nonces: one chance in 2^72. -/
example : chance (Collide (n := 2)) = 1 / 2 ^ 72 := by
  rw [C69_chance 2 (by norm_num)]; norm_num [commentFormula]

end OAuth
