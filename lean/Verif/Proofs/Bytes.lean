import Verif.Model.Basic

/-
Lemmas about bytes, their order, and displays.
-/

namespace OAuth

/-- A decidable statement about all bytes follows from its 256 instances. -/
theorem forall_byte {P : UInt8 → Prop} (h : ∀ n : Fin 256, P (UInt8.ofNat n.val)) (b : UInt8) :
    P b := by
  have := h ⟨b.toNat, b.toNat_lt⟩
  simpa using this

theorem cmpBytes_refl (a : Bytes) : cmpBytes a a = .eq := by
  induction a with
  | nil => rfl
  | cons x xs ih => simp [cmpBytes, ih]

theorem cmpBytes_swap (a b : Bytes) : (cmpBytes a b).swap = cmpBytes b a := by
  induction a generalizing b with
  | nil => cases b <;> rfl
  | cons x xs ih =>
    cases b with
    | nil => rfl
    | cons y ys =>
      simp only [cmpBytes]
      split
      · next h => simp [Nat.lt_asymm h |> fun h' => (show ¬ y < x from h')]
      · split
        · rfl
        · exact ih ys

theorem cmpBytes_eq_iff (a b : Bytes) : cmpBytes a b = .eq ↔ a = b := by
  induction a generalizing b with
  | nil => cases b <;> simp [cmpBytes]
  | cons x xs ih =>
    cases b with
    | nil => simp [cmpBytes]
    | cons y ys =>
      simp only [cmpBytes]
      split
      · next h => 
        simp; intro e; subst e; exact absurd h (UInt8.lt_irrefl _)
      · split
        · next h => simp; intro e; subst e; exact absurd h (UInt8.lt_irrefl _)
        · next h1 h2 =>
          have : x = y := UInt8.le_antisymm (UInt8.not_lt.mp h2) (UInt8.not_lt.mp h1)
          simp [ih, this]

theorem bytesLe_refl (a : Bytes) : bytesLe a a = true := by simp [bytesLe, cmpBytes_refl]

theorem bytesLe_total (a b : Bytes) : bytesLe a b = true ∨ bytesLe b a = true := by
  have := cmpBytes_swap a b
  unfold bytesLe
  rw [← this]
  cases cmpBytes a b <;> simp [Ordering.swap]

theorem bytesLe_antisymm {a b : Bytes} (h1 : bytesLe a b = true) (h2 : bytesLe b a = true) :
    a = b := by
  have := cmpBytes_swap a b
  unfold bytesLe at h1 h2
  rw [← this] at h2
  apply (cmpBytes_eq_iff a b).mp
  cases h : cmpBytes a b <;> simp [h, Ordering.swap] at h1 h2 ⊢

theorem bytesLe_cons (x y : UInt8) (xs ys : Bytes) :
    bytesLe (x :: xs) (y :: ys) = true ↔ x < y ∨ (x = y ∧ bytesLe xs ys = true) := by
  simp only [bytesLe, cmpBytes]
  split
  · next h => simp [h]
  · split
    · next h1 h2 => simp [h1]; intro e; subst e; exact absurd h2 (UInt8.lt_irrefl _)
    · next h1 h2 =>
      have : x = y := UInt8.le_antisymm (UInt8.not_lt.mp h2) (UInt8.not_lt.mp h1)
      simp [this]

theorem bytesLe_nil (a : Bytes) : bytesLe [] a = true := by cases a <;> rfl

theorem bytesLe_trans {a b c : Bytes} (h1 : bytesLe a b = true) (h2 : bytesLe b c = true) :
    bytesLe a c = true := by
  induction a generalizing b c with
  | nil => exact bytesLe_nil c
  | cons x xs ih =>
    cases b with
    | nil => simp [bytesLe, cmpBytes] at h1
    | cons y ys =>
      cases c with
      | nil => simp [bytesLe, cmpBytes] at h2
      | cons z zs =>
        rw [bytesLe_cons] at h1 h2 ⊢
        rcases h1 with h1 | ⟨rfl, h1⟩ <;> rcases h2 with h2 | ⟨rfl, h2⟩
        · exact .inl (UInt8.lt_trans h1 h2)
        · exact .inl h1
        · exact .inl h2
        · exact .inr ⟨rfl, ih h1 h2⟩

theorem bytesLe_iff_ne_gt (a b : Bytes) : bytesLe a b = true ↔ cmpBytes a b ≠ .gt := by
  simp [bytesLe]

theorem not_bytesLe_iff (a b : Bytes) : bytesLe a b = false ↔ cmpBytes b a = .lt := by
  have := cmpBytes_swap a b
  rw [← this]
  unfold bytesLe
  cases cmpBytes a b <;> simp [Ordering.swap]

/-! ### Displays -/

namespace Display

theorem append_def (a b : Display) : a ++ b = append a b := rfl

@[simp] theorem text_ofBytes (s : Bytes) : (ofBytes s).text = s := by simp [ofBytes, text]
@[simp] theorem outcome_ofBytes (s : Bytes) : (ofBytes s).outcome = .ok := rfl

theorem text_append_ok {a b : Display} (h : a.outcome = .ok) : (a ++ b).text = a.text ++ b.text := by
  simp [append_def, append, h, text]

theorem outcome_append_ok {a b : Display} (h : a.outcome = .ok) : (a ++ b).outcome = b.outcome := by
  simp [append_def, append, h]

theorem append_not_ok {a b : Display} (h : a.outcome ≠ .ok) : a ++ b = a := by
  simp only [append_def, append]

@[simp] theorem concat_nil : concat [] = ⟨[], .ok⟩ := rfl
@[simp] theorem concat_cons (d : Display) (ds : List Display) : concat (d :: ds) = d ++ concat ds := rfl
@[simp] theorem text_empty (o : Outcome) : (Display.mk [] o).text = [] := rfl

/-- Two displays with the same text and the same outcome. -/
structure Same (a b : Display) : Prop where
  text : a.text = b.text
  outcome : a.outcome = b.outcome

theorem Same.refl (a : Display) : Same a a := ⟨rfl, rfl⟩

end Display

/-- Writing to a `String` depends on the text and the outcome only. -/
theorem stringWriter_writeAll (w : Bytes) (cs : List Bytes) :
    stringWriter.writeAll w cs = some (w ++ cs.flatten) := by
  induction cs generalizing w with
  | nil => simp [Writer.writeAll]
  | cons c cs ih => simp [Writer.writeAll, stringWriter] at ih ⊢; simp [ih]

/-- Outcome of a formatting routine turned into a panic by `unwrap`. -/
def Outcome.check {α : Type} (o : Outcome) (a : α) : Except Panic α :=
  match o with
  | .ok => .ok a
  | .err => .error .fmtUnwrap
  | .panic p => .error p

theorem stringWriter_writeUnwrap (w : Bytes) (d : Display) :
    stringWriter.writeUnwrap w d = d.outcome.check (w ++ d.text) := by
  simp [Writer.writeUnwrap, stringWriter_writeAll, Outcome.check, Display.text]
  cases d.outcome <;> rfl

theorem stringWriter_writeUnwrap_ok (w : Bytes) {d : Display} (h : d.outcome = .ok) :
    stringWriter.writeUnwrap w d = .ok (w ++ d.text) := by
  simp [stringWriter_writeUnwrap, h, Outcome.check]

end OAuth
