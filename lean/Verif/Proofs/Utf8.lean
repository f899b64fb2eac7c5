import Verif.Model.Utf8
import Verif.Spec.Utf8
import Verif.Proofs.Bytes

/-
`str::from_utf8` accepts the encodings of texts and nothing else, and `String::from_utf8_lossy` leaves
them alone.
-/

namespace OAuth.Utf8

open Spec

theorem front_pos (a : UInt8) (s : Bytes) : 1 ≤ (front a s).1 := by
  unfold front
  repeat' split
  all_goals simp

theorem exists_char {v : Nat} (h : v.isValidChar) : ∃ c : Char, c.val.toNat = v := by
  have hv : v < UInt32.size := by
    rcases h with h | h <;> simp only [UInt32.size] <;> omega
  exact ⟨⟨UInt32.ofNatLT v hv, by simpa [UInt32.isValidChar] using h⟩, by simp⟩

theorem cont_iff {b : Option UInt8} : cont b = true ↔ ∃ x, b = some x ∧ 0x80 ≤ x.toNat ∧ x.toNat ≤ 0xBF := by
  cases b <;> simp [cont]

theorem second3_iff {a : UInt8} {b : Option UInt8} : second3 a b = true ↔
    ∃ x, b = some x ∧ 0x80 ≤ x.toNat ∧ x.toNat ≤ 0xBF ∧ (a.toNat = 0xE0 → 0xA0 ≤ x.toNat) ∧
      (a.toNat = 0xED → x.toNat ≤ 0x9F) := by
  cases b with
  | none => simp [second3]
  | some b =>
    simp only [second3, cont]
    split
    · simp; omega
    · split
      · simp; omega
      · simp; omega

theorem second4_iff {a : UInt8} {b : Option UInt8} : second4 a b = true ↔
    ∃ x, b = some x ∧ 0x80 ≤ x.toNat ∧ x.toNat ≤ 0xBF ∧ (a.toNat = 0xF0 → 0x90 ≤ x.toNat) ∧
      (a.toNat = 0xF4 → x.toNat ≤ 0x8F) := by
  cases b with
  | none => simp [second4]
  | some b =>
    simp only [second4, cont]
    split
    · simp; omega
    · split
      · simp; omega
      · simp; omega

theorem byte_ext {a : UInt8} {n : Nat} (h : a.toNat = n) : a = UInt8.ofNat n := by
  rw [← h]; simp

/-- A well-formed sequence is the encoding of a character. -/
theorem front_char {a : UInt8} {s : Bytes} (h : (front a s).2 = true) :
    ∃ c : Char, (a :: s).take (front a s).1 = String.utf8EncodeChar c := by
  have ha : a.toNat < 256 := a.toNat_lt
  unfold front at h ⊢
  split at h
  · next h1 =>
    rw [if_pos h1]
    obtain ⟨c, hc⟩ := exists_char (v := a.toNat) (.inl (by omega))
    refine ⟨c, ?_⟩
    rw [String.utf8EncodeChar, hc]
    simp only [show a.toNat ≤ 0x7f by omega, if_true]
    simp
  next h1 =>
  rw [if_neg h1]
  split at h
  · next h2 =>
    rw [if_pos h2]
    split at h
    · next h3 =>
      rw [if_pos h3]
      obtain ⟨x, hx, hx1, hx2⟩ := cont_iff.mp h3
      match s, hx with
      | y :: s, hx =>
        simp at hx; subst hx
        obtain ⟨c, hc⟩ := exists_char (v := (a.toNat - 0xC0) * 64 + (y.toNat - 0x80)) (.inl (by omega))
        refine ⟨c, ?_⟩
        rw [String.utf8EncodeChar, hc]
        rw [if_neg (by omega), if_pos (by omega)]
        simp only [List.take_succ_cons, List.take_zero, List.cons.injEq, and_true]
        exact ⟨byte_ext (by omega), byte_ext (by omega)⟩
    · cases h
  next h2 =>
  rw [if_neg h2]
  split at h
  · next h3 =>
    rw [if_pos h3]
    split at h
    rotate_left
    · cases h
    next h4 =>
    rw [if_pos h4]
    split at h
    rotate_left
    · cases h
    next h5 =>
    rw [if_pos h5]
    obtain ⟨x, hx, hx1, hx2, hx3, hx4⟩ := second3_iff.mp h4
    obtain ⟨z, hz, hz1, hz2⟩ := cont_iff.mp h5
    match s, hx, hz with
    | y :: [], hx, hz => simp at hz
    | y :: y' :: s, hx, hz =>
      simp at hx hz; subst hx hz
      obtain ⟨c, hc⟩ := exists_char
        (v := (a.toNat - 0xE0) * 4096 + (y.toNat - 0x80) * 64 + (y'.toNat - 0x80)) (by
          simp only [Nat.isValidChar]; omega)
      refine ⟨c, ?_⟩
      rw [String.utf8EncodeChar, hc]
      rw [if_neg (by omega), if_neg (by omega), if_pos (by omega)]
      simp only [List.take_succ_cons, List.take_zero, List.cons.injEq, and_true]
      exact ⟨byte_ext (by omega), byte_ext (by omega), byte_ext (by omega)⟩
  next h3 =>
  rw [if_neg h3]
  split at h
  · next h3 =>
    rw [if_pos h3]
    split at h
    rotate_left
    · cases h
    next h4 =>
    rw [if_pos h4]
    split at h
    rotate_left
    · cases h
    next h5 =>
    rw [if_pos h5]
    split at h
    rotate_left
    · cases h
    next h6 =>
    rw [if_pos h6]
    obtain ⟨x, hx, hx1, hx2, hx3, hx4⟩ := second4_iff.mp h4
    obtain ⟨z, hz, hz1, hz2⟩ := cont_iff.mp h5
    obtain ⟨w, hw, hw1, hw2⟩ := cont_iff.mp h6
    match s, hx, hz, hw with
    | y :: [], hx, hz, hw => simp at hz
    | y :: _ :: [], hx, hz, hw => simp at hw
    | y :: y' :: y'' :: s, hx, hz, hw =>
      simp at hx hz hw; subst hx hz hw
      obtain ⟨c, hc⟩ := exists_char
        (v := (a.toNat - 0xF0) * 262144 + (y.toNat - 0x80) * 4096 + (y'.toNat - 0x80) * 64 +
          (y''.toNat - 0x80)) (by
          simp only [Nat.isValidChar]; omega)
      refine ⟨c, ?_⟩
      rw [String.utf8EncodeChar, hc]
      rw [if_neg (by omega), if_neg (by omega), if_neg (by omega)]
      simp only [List.take_succ_cons, List.take_zero, List.cons.injEq, and_true]
      exact ⟨byte_ext (by omega), byte_ext (by omega), byte_ext (by omega), byte_ext (by omega)⟩
  · cases h

theorem toNat_ofNat {n : Nat} (h : n < 256) : (UInt8.ofNat n).toNat = n := by
  simp; omega

theorem cont_at1 {x y : UInt8} {s : Bytes} (h : 0x80 ≤ y.toNat ∧ y.toNat ≤ 0xBF) :
    cont (x :: y :: s)[1]? = true := cont_iff.mpr ⟨y, rfl, h⟩

theorem cont_at2 {x y z : UInt8} {s : Bytes} (h : 0x80 ≤ z.toNat ∧ z.toNat ≤ 0xBF) :
    cont (x :: y :: z :: s)[2]? = true := cont_iff.mpr ⟨z, rfl, h⟩

/-- The encoding of a character is a well-formed sequence. -/
theorem front_encode (c : Char) (rest : Bytes) : ∃ a s, String.utf8EncodeChar c ++ rest = a :: s ∧
    front a s = ((String.utf8EncodeChar c).length, true) ∧
    (a :: s).drop (front a s).1 = rest := by
  have hval : c.val.toNat.isValidChar := c.valid
  simp only [Nat.isValidChar] at hval
  have main : ∀ v : Nat, c.val.toNat = v → ∃ a s, String.utf8EncodeChar c ++ rest = a :: s ∧
      front a s = ((String.utf8EncodeChar c).length, true) := by
    intro v hv
    rw [hv] at hval
    rw [String.utf8EncodeChar, hv]
    by_cases h1 : v ≤ 0x7f
    · rw [if_pos h1]
      refine ⟨_, _, rfl, ?_⟩
      rw [front, if_pos (by rw [toNat_ofNat (by omega)]; omega)]
      rfl
    rw [if_neg h1]
    by_cases h2 : v ≤ 0x7ff
    · rw [if_pos h2]
      refine ⟨_, _ :: rest, rfl, ?_⟩
      rw [front, toNat_ofNat (by omega), if_neg (by omega), if_pos (by omega), if_pos (cont_iff.mpr ⟨_, List.getElem?_cons_zero, ?_⟩)]
      · rfl
      · rw [toNat_ofNat (by omega)]; omega
    rw [if_neg h2]
    by_cases h3 : v ≤ 0xffff
    · rw [if_pos h3]
      refine ⟨_, _ :: _ :: rest, rfl, ?_⟩
      rw [front, toNat_ofNat (by omega), if_neg (by omega), if_neg (by omega), if_pos (by omega),
        if_pos (second3_iff.mpr ⟨_, List.getElem?_cons_zero, ?_⟩), if_pos (cont_at1 ?_)]
      · rfl
      · rw [toNat_ofNat (by omega)]; omega
      · rw [toNat_ofNat (by omega), toNat_ofNat (by omega)]; omega
    rw [if_neg h3]
    refine ⟨_, _ :: _ :: _ :: rest, rfl, ?_⟩
    rw [front, toNat_ofNat (by omega), if_neg (by omega), if_neg (by omega), if_neg (by omega),
      if_pos (by omega), if_pos (second4_iff.mpr ⟨_, List.getElem?_cons_zero, ?_⟩),
      if_pos (cont_at1 ?_), if_pos (cont_at2 ?_)]
    · rfl
    · rw [toNat_ofNat (by omega)]; omega
    · rw [toNat_ofNat (by omega)]; omega
    · rw [toNat_ofNat (by omega), toNat_ofNat (by omega)]; omega
  obtain ⟨a, s, h1, h2⟩ := main _ rfl
  refine ⟨a, s, h1, h2, ?_⟩
  rw [← h1, h2]
  simp

theorem chunksAux_fuel {n m : Nat} {s : Bytes} (hn : s.length ≤ n) (hm : s.length ≤ m) :
    chunksAux n s = chunksAux m s := by
  induction n generalizing m s with
  | zero =>
    cases s with
    | nil => cases m <;> rfl
    | cons a s => simp at hn
  | succ n ih =>
    cases s with
    | nil => cases m <;> rfl
    | cons a s =>
      cases m with
      | zero => simp at hm
      | succ m =>
        simp only [chunksAux, List.cons.injEq, true_and]
        have := front_pos a s
        apply ih <;> simp only [List.length_drop, List.length_cons] at * <;> omega

theorem chunks_cons (a : UInt8) (s : Bytes) : chunks (a :: s) =
    ((a :: s).take (front a s).1, (front a s).2) :: chunks ((a :: s).drop (front a s).1) := by
  have := front_pos a s
  rw [chunks, List.length_cons, chunksAux, chunks, chunksAux_fuel _ (Nat.le_refl _)]
  simp only [List.length_drop, List.length_cons]; omega

/-- The pieces are the whole. -/
theorem chunks_flatMap (s : Bytes) : (chunks s).flatMap (·.1) = s := by
  suffices h : ∀ n (s : Bytes), s.length ≤ n → (chunks s).flatMap (·.1) = s from h _ s (Nat.le_refl _)
  intro n
  induction n with
  | zero => intro s hs; cases s with | nil => rfl | cons a s => simp at hs
  | succ n ih =>
    intro s hs
    cases s with
    | nil => rfl
    | cons a s =>
      have := front_pos a s
      rw [chunks_cons, List.flatMap_cons, ih, List.take_append_drop]
      simp only [List.length_drop, List.length_cons] at *; omega

theorem valid_nil : valid [] = true := rfl

theorem valid_cons (a : UInt8) (s : Bytes) :
    valid (a :: s) = ((front a s).2 && valid ((a :: s).drop (front a s).1)) := by
  rw [valid, chunks_cons, List.all_cons]; rfl

theorem valid_append_char (c : Char) (s : Bytes) : valid (String.utf8EncodeChar c ++ s) = valid s := by
  obtain ⟨a, t, h1, h2, h3⟩ := front_encode c s
  rw [h1, valid_cons, h3, h2, Bool.true_and]

theorem valid_textBytes_append (cs : List Char) (s : Bytes) : valid (textBytes cs ++ s) = valid s := by
  induction cs with
  | nil => rfl
  | cons c cs ih => rw [textBytes, List.flatMap_cons, List.append_assoc, valid_append_char]; exact ih

/-- `str::from_utf8` accepts the bytes of texts, and nothing else. -/
theorem valid_iff (s : Bytes) : valid s = true ↔ IsText s := by
  constructor
  · suffices h : ∀ n (s : Bytes), s.length ≤ n → valid s = true → IsText s from h _ s (Nat.le_refl _)
    intro n
    induction n with
    | zero => intro s hs _; cases s with | nil => exact ⟨[], rfl⟩ | cons a s => simp at hs
    | succ n ih =>
      intro s hs h
      cases s with
      | nil => exact ⟨[], rfl⟩
      | cons a s =>
        rw [valid_cons, Bool.and_eq_true] at h
        have := front_pos a s
        obtain ⟨c, hc⟩ := front_char h.1
        obtain ⟨cs, hcs⟩ := ih _ (by simp only [List.length_drop, List.length_cons] at *; omega) h.2
        refine ⟨c :: cs, ?_⟩
        rw [textBytes, List.flatMap_cons, ← hc, ← textBytes, ← hcs, List.take_append_drop]
  · rintro ⟨cs, rfl⟩
    rw [← List.append_nil (textBytes cs), valid_textBytes_append]
    rfl

instance (s : Bytes) : Decidable (IsText s) := decidable_of_iff _ (valid_iff s)

theorem valid_append {s t : Bytes} (hs : valid s = true) : valid (s ++ t) = valid t := by
  obtain ⟨cs, rfl⟩ := (valid_iff s).mp hs
  exact valid_textBytes_append cs t

theorem lossy_valid {s : Bytes} (h : valid s = true) : lossy s = s := by
  refine Eq.trans ?_ (chunks_flatMap s)
  rw [lossy]
  simp only [List.flatMap]
  congr 1
  refine List.map_congr_left fun c hc => ?_
  rw [if_pos (List.all_eq_true.mp h c hc)]

theorem valid_ascii {s : Bytes} (h : ∀ b ∈ s, b.toNat < 0x80) : valid s = true := by
  induction s with
  | nil => rfl
  | cons a s ih =>
    rw [List.forall_mem_cons] at h
    rw [valid_cons, front, if_pos h.1]
    exact ih h.2

theorem _root_.OAuth.Spec.IsText.ascii {s : Bytes} (h : ∀ b ∈ s, b.toNat < 0x80) : IsText s :=
  (valid_iff s).mp (valid_ascii h)

theorem lossy_text {s : Bytes} (h : IsText s) : lossy s = s := lossy_valid ((valid_iff s).mpr h)

theorem valid_replacement : valid replacement = true := by decide +kernel

/-- What `from_utf8_lossy` gives is a text. -/
theorem valid_lossy (s : Bytes) : valid (lossy s) = true := by
  suffices h : ∀ n (s : Bytes), s.length ≤ n → valid (lossy s) = true from h _ s (Nat.le_refl _)
  intro n
  induction n with
  | zero => intro s hs; cases s with | nil => rfl | cons a s => simp at hs
  | succ n ih =>
    intro s hs
    cases s with
    | nil => rfl
    | cons a s =>
      have := front_pos a s
      rw [lossy, chunks_cons, List.flatMap_cons]
      have hrest := ih ((a :: s).drop (front a s).1)
        (by simp only [List.length_drop, List.length_cons] at *; omega)
      split
      · next h =>
        obtain ⟨c, hc⟩ := front_char h
        simp only [hc]
        rw [valid_append_char]; exact hrest
      · rw [valid_append valid_replacement]; exact hrest

theorem lossy_lossy (s : Bytes) : lossy (lossy s) = lossy s := lossy_valid (valid_lossy s)

theorem lossy_cons (a : UInt8) (s : Bytes) : lossy (a :: s) =
    (if (front a s).2 then (a :: s).take (front a s).1 else replacement) ++
      lossy ((a :: s).drop (front a s).1) := by
  rw [lossy, chunks_cons, List.flatMap_cons]; rfl

/-- A text in front is left alone. -/
theorem lossy_append {s t : Bytes} (hs : valid s = true) : lossy (s ++ t) = s ++ lossy t := by
  obtain ⟨cs, rfl⟩ := (valid_iff s).mp hs
  clear hs
  induction cs with
  | nil => rfl
  | cons c cs ih =>
    rw [textBytes, List.flatMap_cons, List.append_assoc]
    obtain ⟨a, u, h1, h2, h3⟩ := front_encode c (cs.flatMap String.utf8EncodeChar ++ t)
    rw [h1, lossy_cons, h3, h2, ← h1]
    simp only [if_true, List.take_left']
    rw [← textBytes, ih, List.append_assoc]

/-- Where something was replaced, one sees it. -/
theorem lossy_eq {s : Bytes} (h : ¬ replacement <:+: lossy s) : lossy s = s := by
  apply lossy_valid
  rw [valid, List.all_eq_true]
  intro c hc
  apply Classical.byContradiction
  intro hn
  apply h
  obtain ⟨l, r, e⟩ := List.append_of_mem hc
  rw [lossy, e, List.flatMap_append, List.flatMap_cons, if_neg hn]
  exact ⟨_, _, List.append_assoc ..⟩

/-! ### What is replaced -/

theorem replacement_eq : replacement = String.utf8EncodeChar '\uFFFD' := by decide +kernel

theorem front_length {a : UInt8} {s : Bytes} : (front a s).1 ≤ (a :: s).length := by
  have hc : ∀ i, cont s[i]? = true → i < s.length := by
    intro i h
    obtain ⟨x, hx, -⟩ := cont_iff.mp h
    exact (List.getElem?_eq_some_iff.mp hx).1
  have h3 : second3 a s[0]? = true → 0 < s.length := by
    intro h
    obtain ⟨x, hx, -⟩ := second3_iff.mp h
    exact (List.getElem?_eq_some_iff.mp hx).1
  have h4 : second4 a s[0]? = true → 0 < s.length := by
    intro h
    obtain ⟨x, hx, -⟩ := second4_iff.mp h
    exact (List.getElem?_eq_some_iff.mp hx).1
  have hc0 := hc 0
  have hc1 := hc 1
  have hc2 := hc 2
  unfold front
  simp only [List.length_cons]
  repeat' split
  all_goals simp only
  all_goals first
    | omega
    | (have := hc2 ‹_›; omega)
    | (have := hc1 ‹_›; omega)
    | (have := hc0 ‹_›; omega)
    | (have := h3 ‹_›; omega)
    | (have := h4 ‹_›; omega)

/-- An error is seen from the ill-formed bytes and the byte after them. -/
theorem front_congr {a : UInt8} {s s' : Bytes} (h : (front a s).2 = false)
    (hs : ∀ i, i < (front a s).1 → s[i]? = s'[i]?) : front a s' = front a s := by
  have h0 := hs 0 (front_pos a s)
  unfold front at h hs ⊢
  rw [← h0]
  split
  · rfl
  next h1 =>
  rw [if_neg h1] at h hs
  split
  · rfl
  next h2 =>
  rw [if_neg h2] at h hs
  split
  · next h3 =>
    rw [if_pos h3] at h hs
    split
    · next h4 =>
      rw [if_pos h4] at h hs
      split at h
      · cases h
      next h5 =>
      rw [if_neg h5] at hs
      rw [← hs 1 (by decide)]
    · rfl
  next h3 =>
  rw [if_neg h3] at h hs
  split
  · next h4 =>
    rw [if_pos h4] at h hs
    split
    · next h5 =>
      rw [if_pos h5] at h hs
      split at h
      · next h6 =>
        rw [if_pos h6] at hs
        split at h
        · cases h
        next h7 =>
        rw [if_neg h7] at hs
        rw [← hs 1 (by decide), ← hs 2 (by decide)]
      next h6 =>
      rw [if_neg h6] at hs
      rw [← hs 1 (by decide), if_neg h6, if_neg h6]
    · rfl
  · rfl

/-- Ill-formed bytes that count as one error begin a character, unless it is only one. -/
theorem front_begins {a : UInt8} {s : Bytes} (h : (front a s).2 = false) :
    BeginsChar ((a :: s).take (front a s).1) ∨ (front a s).1 = 1 := by
  unfold front at h ⊢
  split
  · exact .inr rfl
  next h1 =>
  split
  · next h2 =>
    rw [if_neg h1, if_pos h2] at h
    split
    · next h3 => rw [if_pos h3] at h; cases h
    · exact .inr rfl
  next h2 =>
  split
  · next h3 =>
    rw [if_neg h1, if_neg h2, if_pos h3] at h
    split
    · next h4 =>
      rw [if_pos h4] at h
      split
      · next h5 => rw [if_pos h5] at h; cases h
      left
      obtain ⟨x, hx, -⟩ := second3_iff.mp h4
      match s, hx, h4 with
      | y :: s, hx, h4 =>
        have e : front a [y, 0x80] = (3, true) := by
          rw [front, if_neg h1, if_neg h2, if_pos h3,
            if_pos (show second3 a [y, 0x80][0]? = true from h4), if_pos (cont_at1 (by decide))]
        obtain ⟨c, hc⟩ := front_char (show (front a [y, 0x80]).2 = true by rw [e])
        rw [e] at hc
        exact ⟨c, hc ▸ ⟨[0x80], rfl⟩⟩
    · exact .inr rfl
  next h3 =>
  split
  · next h4 =>
    rw [if_neg h1, if_neg h2, if_neg h3, if_pos h4] at h
    split
    · next h5 =>
      rw [if_pos h5] at h
      obtain ⟨x, hx, -⟩ := second4_iff.mp h5
      split
      · next h6 =>
        rw [if_pos h6] at h
        split
        · next h7 => rw [if_pos h7] at h; cases h
        left
        obtain ⟨z, hz, -⟩ := cont_iff.mp h6
        match s, hx, hz, h5, h6 with
        | y :: [], _, hz, _, _ => cases hz
        | y :: y' :: s, _, _, h5, h6 =>
          have e : front a [y, y', 0x80] = (4, true) := by
            rw [front, if_neg h1, if_neg h2, if_neg h3, if_pos h4,
              if_pos (show second4 a [y, y', 0x80][0]? = true from h5),
              if_pos (show cont [y, y', 0x80][1]? = true from h6), if_pos (cont_at2 (by decide))]
          obtain ⟨c, hc⟩ := front_char (show (front a [y, y', 0x80]).2 = true by rw [e])
          rw [e] at hc
          exact ⟨c, hc ▸ ⟨[0x80], rfl⟩⟩
      left
      match s, hx, h5 with
      | y :: s, hx, h5 =>
        have e : front a [y, 0x80, 0x80] = (4, true) := by
          rw [front, if_neg h1, if_neg h2, if_neg h3, if_pos h4,
            if_pos (show second4 a [y, 0x80, 0x80][0]? = true from h5), if_pos (cont_at1 (by decide)),
            if_pos (cont_at2 (by decide))]
        obtain ⟨c, hc⟩ := front_char (show (front a [y, 0x80, 0x80]).2 = true by rw [e])
        rw [e] at hc
        exact ⟨c, hc ▸ ⟨[0x80, 0x80], rfl⟩⟩
    · exact .inr rfl
  · exact .inr rfl

/-- Where a character stands in full, there is no error. -/
theorem front_of_prefix {a : UInt8} {s : Bytes} {c : Char} (h : String.utf8EncodeChar c <+: a :: s) :
    (front a s).2 = true := by
  obtain ⟨r, hr⟩ := h
  obtain ⟨a', s', h1, h2, -⟩ := front_encode c r
  rw [hr] at h1
  cases h1
  rw [h2]

/-- No more bytes than those that count as one error begin a character. -/
theorem front_maximal {a : UInt8} {s u : Bytes} (h : (front a s).2 = false) (hu : u <+: a :: s)
    (hb : BeginsChar u) : u.length ≤ (front a s).1 := by
  apply Classical.byContradiction
  intro hn
  obtain ⟨c, r, hc⟩ := hb
  obtain ⟨a', s', h1, h2, -⟩ := front_encode c []
  rw [List.append_nil, ← hc] at h1
  obtain ⟨t, ht⟩ := hu
  cases u with
  | nil => exact hn (Nat.zero_le _)
  | cons b u =>
    simp only [List.cons_append, List.cons.injEq] at h1 ht
    obtain ⟨rfl, rfl⟩ := h1
    obtain ⟨rfl, rfl⟩ := ht
    have := front_congr (s' := u ++ r) h (by
      intro i hi
      simp only [List.length_cons] at hn
      rw [List.getElem?_append_left (by omega), List.getElem?_append_left (by omega)])
    rw [this] at h2
    rw [h2] at h
    cases h

theorem substituted_lossy (s : Bytes) : Substituted s (lossy s) := by
  suffices h : ∀ n (s : Bytes), s.length ≤ n → Substituted s (lossy s) from h _ s (Nat.le_refl _)
  intro n
  induction n with
  | zero => intro s hs; cases s with | nil => exact .nil | cons a s => simp at hs
  | succ n ih =>
    intro s hs
    cases s with
    | nil => exact .nil
    | cons a s =>
      have hpos := front_pos a s
      have hrest := ih ((a :: s).drop (front a s).1)
        (by simp only [List.length_drop, List.length_cons] at *; omega)
      have hlen : ((a :: s).take (front a s).1).length = (front a s).1 := by
        rw [List.length_take, Nat.min_eq_left front_length]
      rw [lossy_cons]
      cases h : (front a s).2 with
      | true =>
        obtain ⟨c, hc⟩ := front_char h
        rw [if_pos rfl]
        conv => arg 1; rw [← List.take_append_drop (front a s).1 (a :: s)]
        rw [hc]
        exact .char c hrest
      | false =>
        rw [if_neg (by decide), replacement_eq]
        conv => arg 1; rw [← List.take_append_drop (front a s).1 (a :: s)]
        refine .subpart ?_ ?_ ?_ ?_ hrest
        · rw [List.take_append_drop]
          intro c hc
          rw [front_of_prefix hc] at h
          cases h
        · intro he
          rw [he] at hlen
          simp only [List.length_nil] at hlen
          omega
        · rw [hlen]
          exact front_begins h
        · rw [List.take_append_drop, hlen]
          exact fun u hu hb => front_maximal h hu hb

/-- `from_utf8_lossy` does what Unicode recommends. -/
theorem lossy_iff (s t : Bytes) : lossy s = t ↔ Substituted s t := by
  constructor
  · rintro rfl
    exact substituted_lossy s
  · intro h
    induction h with
    | nil => rfl
    | char c _ ih =>
      rw [lossy_append ((valid_iff _).mpr ⟨[c], by simp [textBytes]⟩), ih]
    | @subpart u s t hno hu hb hmax _ ih =>
      cases u with
      | nil => exact absurd rfl hu
      | cons a u =>
        have hf : (front a (u ++ s)).2 = false := by
          cases h : (front a (u ++ s)).2 with
          | false => rfl
          | true =>
            obtain ⟨c, hc⟩ := front_char h
            exact absurd (hc ▸ List.take_prefix _ _) (hno c)
        have hlen : (front a (u ++ s)).1 = (a :: u).length := by
          apply Nat.le_antisymm
          · rcases front_begins hf with h | h
            · have := hmax _ (List.take_prefix _ _) h
              rwa [List.length_take, List.cons_append, Nat.min_eq_left front_length] at this
            · rw [h]; simp
          · rcases hb with hb | hb
            · exact front_maximal hf ⟨s, rfl⟩ hb
            · rw [hb]; exact front_pos _ _
        rw [List.cons_append, lossy_cons, hf, if_neg (by decide), replacement_eq, hlen,
          ← List.cons_append, List.drop_left', ih]
        rfl

end OAuth.Utf8
