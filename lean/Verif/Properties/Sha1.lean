import Verif.Model.Sha1
import Verif.Spec.Sha1
import Verif.Proofs.Bytes

/-!
# C82: the hash function of the model is SHA-1
-/

namespace OAuth

open Spec.Sha1

namespace Sha1

/-! ### Words -/

theorem rotl1 (x : UInt32) : (rotl x 1).toBitVec = x.toBitVec.rotateLeft 1 := by
  simp [rotl, BitVec.rotateLeft, BitVec.rotateLeftAux]

theorem rotl5 (x : UInt32) : (rotl x 5).toBitVec = x.toBitVec.rotateLeft 5 := by
  simp [rotl, BitVec.rotateLeft, BitVec.rotateLeftAux]

theorem rotl30 (x : UInt32) : (rotl x 30).toBitVec = x.toBitVec.rotateLeft 30 := by
  simp [rotl, BitVec.rotateLeft, BitVec.rotateLeftAux]

theorem fk_eq (t : Nat) (b c d : UInt32) :
    (fk t b c d).1.toBitVec = f t b.toBitVec c.toBitVec d.toBitVec ∧ (fk t b c d).2.toBitVec = K t := by
  have ch : ∀ x y z : Word, (x &&& y) ||| (~~~x &&& z) = (x &&& y) ^^^ (~~~x &&& z) := by
    intro x y z
    apply BitVec.eq_of_getLsbD_eq
    intro i hi
    simp only [BitVec.getLsbD_or, BitVec.getLsbD_and, BitVec.getLsbD_xor, BitVec.getLsbD_not, hi]
    cases x.getLsbD i <;> cases y.getLsbD i <;> cases z.getLsbD i <;> rfl
  have maj : ∀ x y z : Word, (x &&& y) ||| (x &&& z) ||| (y &&& z) = (x &&& y) ^^^ (x &&& z) ^^^ (y &&& z) := by
    intro x y z
    apply BitVec.eq_of_getLsbD_eq
    intro i hi
    simp only [BitVec.getLsbD_or, BitVec.getLsbD_and, BitVec.getLsbD_xor]
    cases x.getLsbD i <;> cases y.getLsbD i <;> cases z.getLsbD i <;> rfl
  unfold fk f K
  by_cases h1 : t < 20
  · rw [if_pos h1, if_pos (show t ≤ 19 by omega), if_pos (show t ≤ 19 by omega)]
    exact ⟨ch _ _ _, rfl⟩
  · rw [if_neg h1, if_neg (show ¬ t ≤ 19 by omega), if_neg (show ¬ t ≤ 19 by omega)]
    by_cases h2 : t < 40
    · rw [if_pos h2, if_pos (show t ≤ 39 by omega), if_pos (show t ≤ 39 by omega)]
      exact ⟨rfl, rfl⟩
    · rw [if_neg h2, if_neg (show ¬ t ≤ 39 by omega), if_neg (show ¬ t ≤ 39 by omega)]
      by_cases h3 : t < 60
      · rw [if_pos h3, if_pos (show t ≤ 59 by omega), if_pos (show t ≤ 59 by omega)]
        exact ⟨maj _ _ _, rfl⟩
      · rw [if_neg h3, if_neg (show ¬ t ≤ 59 by omega), if_neg (show ¬ t ≤ 59 by omega)]
        exact ⟨rfl, rfl⟩

/-- Working variables as words of the specification. -/
def State.five (s : State) : Five := ⟨s.a.toBitVec, s.b.toBitVec, s.c.toBitVec, s.d.toBitVec, s.e.toBitVec⟩

/-! ### The schedule -/

def slide (w : List UInt32) : List UInt32 :=
  w.tail ++ [rotl (w.getD 13 0 ^^^ w.getD 8 0 ^^^ w.getD 2 0 ^^^ w.getD 0 0) 1]

def window (w : List UInt32) : Nat → List UInt32
  | 0 => w
  | t + 1 => slide (window w t)

theorem length_window {w : List UInt32} (hw : w.length = 16) (t : Nat) : (window w t).length = 16 := by
  induction t with
  | zero => exact hw
  | succ t ih => simp [window, slide, ih]

theorem slide_getD (w : List UInt32) (i : Nat) (hi : i + 1 < w.length) :
    (slide w).getD i 0 = w.getD (i + 1) 0 := by
  cases w with
  | nil => simp at hi
  | cons x w =>
    simp only [List.length_cons] at hi
    simp only [slide, List.tail_cons, List.getD_cons_succ]
    simp [List.getD_eq_getElem?_getD, List.getElem?_append, show i < w.length by omega]

theorem slide_last (w : List UInt32) (hw : w.length = 16) : (slide w).getD 15 0 =
    rotl (w.getD 13 0 ^^^ w.getD 8 0 ^^^ w.getD 2 0 ^^^ w.getD 0 0) 1 := by
  unfold slide
  rw [List.getD_eq_getElem?_getD, List.getElem?_append_right (by simp [hw])]
  simp [hw]

theorem window_getD {w : List UInt32} (hw : w.length = 16) (t i : Nat) (hi : i < 16) :
    (window w t).getD i 0 = (window w (t + i)).getD 0 0 := by
  induction i generalizing t with
  | zero => rfl
  | succ i ih =>
    rw [← slide_getD _ _ (by rw [length_window hw]; exact hi)]
    have := ih (t + 1) (by omega)
    rw [show t + (i + 1) = t + 1 + i by omega]
    exact this

theorem length_toWords (n : Nat) (m : Bytes) (h : m.length = 4 * n) : (toWords m).length = n := by
  induction n generalizing m with
  | zero => have : m = [] := List.length_eq_zero_iff.mp h; subst this; rfl
  | succ n ih =>
    match m, h with
    | a :: b :: c :: d :: rest, h =>
      simp only [List.length_cons] at h
      rw [toWords, List.length_cons, ih rest (by omega)]

theorem toWords_getD (t n : Nat) (m : Bytes) (h : m.length = 4 * n) (ht : t < n) :
    ((toWords m).getD t 0).toBitVec = word ((m.drop (4 * t)).take 4) := by
  induction n generalizing m t with
  | zero => omega
  | succ n ih =>
    match m, h with
    | a :: b :: c :: d :: rest, h =>
      simp only [List.length_cons] at h
      cases t with
      | zero =>
        simp only [toWords, List.getD_cons_zero, word, beNat]
        simp only [Nat.mul_zero, List.drop_zero, List.take_succ_cons, List.take_zero, List.foldl_cons,
          List.foldl_nil]
        show BitVec.ofNat 32 _ = _
        congr 1
        omega
      | succ t =>
        rw [toWords, List.getD_cons_succ, ih t rest (by omega) (by omega)]
        rw [show 4 * (t + 1) = 4 * t + 1 + 1 + 1 + 1 by omega]
        simp only [List.drop_succ_cons]

/-- The schedule of the model. -/
def sched (block : Bytes) (t : Nat) : Word := ((window (toWords block) t).getD 0 0).toBitVec

theorem isSchedule_sched {block : Bytes} (hb : block.length = 64) : IsSchedule block (sched block) := by
  have hw := length_toWords 16 block hb
  constructor
  · intro t ht
    have := window_getD hw 0 t (by omega)
    simp only [Nat.zero_add] at this
    rw [sched, ← this]
    exact toWords_getD t 16 block hb (by omega)
  · intro t h1 h2
    obtain ⟨s, rfl⟩ : ∃ s, t = s + 1 + 15 := ⟨t - 16, by omega⟩
    have h13 := window_getD hw s 13 (by omega)
    have h8 := window_getD hw s 8 (by omega)
    have h2 := window_getD hw s 2 (by omega)
    have := window_getD hw (s + 1) 15 (by omega)
    rw [sched, ← this, window, slide_last _ (length_window hw s), rotl1, h13, h8, h2]
    rw [show s + 1 + 15 - 3 = s + 13 by omega, show s + 1 + 15 - 8 = s + 8 by omega,
      show s + 1 + 15 - 14 = s + 2 by omega, show s + 1 + 15 - 16 = s by omega]
    rfl

theorem rounds_eq {w : List UInt32} (hw : w.length = 16) (n t : Nat) (s : State) :
    (rounds n t (window w t) s).five =
      (List.range' t n).foldl (step fun t => ((window w t).getD 0 0).toBitVec) s.five := by
  induction n generalizing t s with
  | zero => rfl
  | succ n ih =>
    rw [List.range'_succ, List.foldl_cons]
    have hl := length_window hw t
    have hh : (window w t).headD 0 = (window w t).getD 0 0 := by
      cases window w t <;> rfl
    have := ih (t + 1) ⟨rotl s.a 5 + (fk t s.b s.c s.d).1 + s.e + (fk t s.b s.c s.d).2 + (window w t).headD 0,
      s.a, rotl s.b 30, s.c, s.d⟩
    rw [rounds]
    refine Eq.trans this ?_
    congr 1
    simp only [State.five, step, UInt32.toBitVec_add, rotl5, rotl30, (fk_eq t s.b s.c s.d).1,
      (fk_eq t s.b s.c s.d).2, hh]

theorem compress_isNext {block : Bytes} (hb : block.length = 64) (s : State) :
    IsNext s.five block (compress s block).five := by
  refine ⟨sched block, isSchedule_sched hb, ?_⟩
  have := rounds_eq (length_toWords 16 block hb) 80 0 s
  rw [List.range_eq_range']
  have hs : sched block = fun t => ((window (toWords block) t).getD 0 0).toBitVec := rfl
  rw [hs, ← this]
  simp only [compress, State.five, UInt32.toBitVec_add, window]
  simp only [BitVec.add_comm]

theorem blocks_spec (n : Nat) (s : State) (p : Bytes) (hp : p.length = 64 * n) :
    Blocks s.five p (blocks n s p).five := by
  induction n generalizing s p with
  | zero =>
    have : p = [] := List.length_eq_zero_iff.mp hp
    subst this
    exact .done _
  | succ n ih =>
    have h1 : (p.take 64).length = 64 := by simp [hp]; omega
    have h2 : (p.drop 64).length = 64 * n := by simp [hp]; omega
    have := Blocks.block h1 (compress_isNext h1 s) (ih _ _ h2)
    rwa [List.take_append_drop] at this

/-! ### Padding -/

theorem isPadded_pad (m : Bytes) : IsPadded m (pad m) := by
  refine ⟨_, _, rfl, by omega, by omega, by simp, ?_⟩
  simp only [List.range, List.range.loop, List.map_cons, List.map_nil, beNat, List.foldl_cons, List.foldl_nil,
    UInt8.toNat_ofNat']
  omega

/-! ### The specification determines the digest -/

theorem beNat_append (a b : Bytes) : beNat (a ++ b) = beNat a * 256 ^ b.length + beNat b := by
  have h : ∀ (b : Bytes) (n : Nat),
      b.foldl (fun n b => 256 * n + b.toNat) n = n * 256 ^ b.length + beNat b := by
    intro b
    induction b with
    | nil => intro n; simp [beNat]
    | cons x b ih =>
      intro n
      simp only [List.foldl_cons, beNat, List.length_cons]
      rw [ih, ih, Nat.mul_zero, Nat.zero_add, Nat.pow_succ, Nat.add_mul]
      simp only [Nat.add_assoc, Nat.mul_comm 256 n, Nat.mul_assoc, Nat.mul_comm 256]
  rw [beNat, List.foldl_append, h]
  rfl

theorem beNat_lt (a : Bytes) : beNat a < 256 ^ a.length := by
  have h : ∀ (a : Bytes) (n m : Nat), n < m →
      a.foldl (fun n b => 256 * n + b.toNat) n < m * 256 ^ a.length := by
    intro a
    induction a with
    | nil => intro n m h; simpa using h
    | cons x a ih =>
      intro n m h
      simp only [List.foldl_cons, List.length_cons]
      have := ih (256 * n + x.toNat) (m * 256) (by have := x.toNat_lt; omega)
      rwa [Nat.mul_assoc, ← Nat.pow_succ'] at this
  simpa [beNat] using h a 0 1 (by omega)

theorem beNat_inj {a b : Bytes} (hl : a.length = b.length) (h : beNat a = beNat b) : a = b := by
  induction a generalizing b with
  | nil => exact (List.length_eq_zero_iff.mp hl.symm).symm
  | cons x a ih =>
    cases b with
    | nil => simp at hl
    | cons y b =>
      simp only [List.length_cons, Nat.add_right_cancel_iff] at hl
      have h1 := beNat_append [x] a
      have h2 := beNat_append [y] b
      simp only [List.singleton_append, hl] at h1 h2
      rw [h1, h2] at h
      have hx : beNat [x] = x.toNat := by simp [beNat]
      have hy : beNat [y] = y.toNat := by simp [beNat]
      have la := beNat_lt a
      have lb := beNat_lt b
      rw [hl] at la
      rw [hx, hy] at h
      have e1 : (x.toNat * 256 ^ b.length + beNat a) / 256 ^ b.length = x.toNat := by
        rw [Nat.mul_comm, Nat.mul_add_div (by omega), Nat.div_eq_of_lt la, Nat.add_zero]
      have e2 : (y.toNat * 256 ^ b.length + beNat b) / 256 ^ b.length = y.toNat := by
        rw [Nat.mul_comm, Nat.mul_add_div (by omega), Nat.div_eq_of_lt lb, Nat.add_zero]
      have hxy : x.toNat = y.toNat := by rw [← e1, ← e2, h]
      rw [hxy] at h
      rw [UInt8.toNat_inj.mp hxy, ih hl (by omega)]

theorem word_inj {a b : Bytes} (ha : a.length = 4) (hb : b.length = 4) (h : word a = word b) : a = b := by
  refine beNat_inj (ha.trans hb.symm) ?_
  have h1 := beNat_lt a
  have h2 := beNat_lt b
  rw [ha] at h1
  rw [hb] at h2
  have := congrArg BitVec.toNat h
  simp only [word, BitVec.toNat_ofNat] at this
  omega

theorem isPadded_unique {m p q : Bytes} (hp : IsPadded m p) (hq : IsPadded m q) : p = q := by
  obtain ⟨k, l, rfl, h1, h2, h3, h4⟩ := hp
  obtain ⟨k', l', rfl, h1', h2', h3', h4'⟩ := hq
  have : k = k' := by omega
  subst this
  rw [beNat_inj (h3.trans h3'.symm) (h4.trans h4'.symm)]

theorem schedule_unique {block : Bytes} {W V : Nat → Word} (hW : IsSchedule block W)
    (hV : IsSchedule block V) (t : Nat) (ht : t ≤ 79) : W t = V t := by
  induction t using Nat.strongRecOn with
  | ind t ih =>
    by_cases h : t ≤ 15
    · rw [hW.1 t h, hV.1 t h]
    · rw [hW.2 t (by omega) ht, hV.2 t (by omega) ht, ih (t - 3) (by omega) (by omega),
        ih (t - 8) (by omega) (by omega), ih (t - 14) (by omega) (by omega), ih (t - 16) (by omega) (by omega)]

theorem isNext_unique {h h1 h2 : Five} {block : Bytes} (hp : IsNext h block h1) (hq : IsNext h block h2) :
    h1 = h2 := by
  obtain ⟨W, hW, rfl⟩ := hp
  obtain ⟨V, hV, rfl⟩ := hq
  have : ∀ l : List Nat, (∀ t ∈ l, t ≤ 79) → ∀ v, l.foldl (step W) v = l.foldl (step V) v := by
    intro l
    induction l with
    | nil => intro _ _; rfl
    | cons t l ih =>
      intro hl v
      rw [List.foldl_cons, List.foldl_cons, ih fun t ht => hl t (List.mem_cons_of_mem _ ht)]
      simp only [step, schedule_unique hW hV t (hl t List.mem_cons_self)]
  rw [this _ (fun t ht => by have := List.mem_range.mp ht; omega)]

theorem blocks_unique {h h1 h2 : Five} {p : Bytes} (hp : Blocks h p h1) (hq : Blocks h p h2) : h1 = h2 := by
  induction hp with
  | done h =>
    generalize hp : ([] : Bytes) = p at hq
    cases hq with
    | done => rfl
    | block hl _ _ =>
      have := congrArg List.length hp
      simp [hl] at this
      omega
  | block hl hn hr ih =>
    rename_i block rest
    generalize hp : block ++ rest = p at hq
    cases hq with
    | done =>
      have := congrArg List.length hp
      simp [hl] at this
    | block hl' hn' hr' =>
      obtain ⟨rfl, rfl⟩ := List.append_inj hp (hl.trans hl'.symm)
      obtain rfl := isNext_unique hn hn'
      exact ih hr'

theorem word_wordBytes (x : UInt32) : word (wordBytes x) = x.toBitVec := by
  apply BitVec.eq_of_toNat_eq
  have := x.toNat_lt
  simp only [word, wordBytes, beNat, List.foldl_cons, List.foldl_nil, UInt8.toNat_ofNat', BitVec.toNat_ofNat,
    UInt32.toNat_toBitVec]
  omega

end Sha1

/-- C82: the function `Sha1.hash` is SHA-1 as in FIPS 180-4, for messages of any length. -/
theorem C82_sha1 (m d : Bytes) : Sha1.hash m = d ↔ IsDigest m d := by
  have hpad := Sha1.isPadded_pad m
  have hlen : (Sha1.pad m).length = 64 * ((Sha1.pad m).length / 64) := by
    obtain ⟨k, l, h, h1, h2, h3, -⟩ := hpad
    have := congrArg List.length h
    simp only [List.length_append, List.length_cons, List.length_nil, List.length_replicate, h3] at this
    omega
  have hb := Sha1.blocks_spec _ Sha1.init _ hlen
  have hi : IsDigest m (Sha1.hash m) :=
    ⟨_, _, hpad, hb, rfl, Sha1.word_wordBytes _, Sha1.word_wordBytes _, Sha1.word_wordBytes _,
      Sha1.word_wordBytes _, Sha1.word_wordBytes _⟩
  refine ⟨fun h => h ▸ hi, fun hd => ?_⟩
  obtain ⟨p, h, a1, a2, a3, a4, a5, a6, a7, a8⟩ := hi
  obtain ⟨q, g, b1, b2, b3, b4, b5, b6, b7, b8⟩ := hd
  obtain rfl := Sha1.isPadded_unique a1 b1
  obtain rfl := Sha1.blocks_unique a2 b2
  have hsplit : ∀ d : Bytes, d.length = 20 → d = d.take 4 ++ ((d.drop 4).take 4 ++ ((d.drop 8).take 4 ++
      ((d.drop 12).take 4 ++ (d.drop 16).take 4))) := by
    intro d hd
    have e : ∀ (k : Nat) (l : Bytes), (l.drop k).take 4 ++ l.drop (k + 4) = l.drop k := by
      intro k l
      rw [← List.drop_drop, List.take_append_drop]
    have e16 : (d.drop 16).take 4 = d.drop 16 := List.take_of_length_le (by simp [hd])
    rw [e16, e 12, e 8, e 4, List.take_append_drop]
  have hword : ∀ (k : Nat) (x y : Bytes), k ≤ 16 → x.length = 20 → y.length = 20 →
      word ((x.drop k).take 4) = word ((y.drop k).take 4) → (x.drop k).take 4 = (y.drop k).take 4 := by
    intro k x y hk hx hy h
    refine Sha1.word_inj ?_ ?_ h <;> simp [hx, hy] <;> omega
  rw [hsplit _ a3, hsplit _ b3, hword 4 _ _ (by omega) a3 b3 (a5.trans b5.symm),
    hword 8 _ _ (by omega) a3 b3 (a6.trans b6.symm), hword 12 _ _ (by omega) a3 b3 (a7.trans b7.symm),
    hword 16 _ _ (by omega) a3 b3 (a8.trans b8.symm)]
  congr 1
  exact hword 0 _ _ (by omega) a3 b3 (a4.trans b4.symm)

/-- The digest of `abc`, the example of FIPS 180-4. -/
example : IsDigest b!"abc" [0xA9, 0x99, 0x3E, 0x36, 0x47, 0x06, 0x81, 0x6A, 0xBA, 0x3E, 0x25, 0x71, 0x78, 0x50,
    0xC2, 0x6C, 0x9C, 0xD0, 0xD8, 0x9D] :=
  (C82_sha1 _ _).mp (by decide +kernel)

end OAuth
