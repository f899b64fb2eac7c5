import Verif.Model.ParameterList
import Verif.Spec.Order
import Verif.Proofs.Bytes
import Verif.Proofs.Trace
import Verif.Proofs.TextOnly

/-
Sorted parameter lists.
-/

namespace OAuth

open Spec

theorem cmpBytes_lt_iff (a b : Bytes) : cmpBytes a b = .lt ↔ a < b := by
  induction a generalizing b with
  | nil => cases b with
    | nil => simp [cmpBytes]
    | cons y ys => simp [cmpBytes]
  | cons x xs ih =>
    cases b with
    | nil => simp [cmpBytes]
    | cons y ys =>
      rw [List.cons_lt_cons_iff]
      simp only [cmpBytes]
      split
      · next h => simp [h]
      · split
        · next h1 h2 =>
          simp [h1]; intro e; subst e; exact absurd h2 (UInt8.lt_irrefl _)
        · next h1 h2 =>
          have : x = y := UInt8.le_antisymm (UInt8.not_lt.mp h2) (UInt8.not_lt.mp h1)
          simp [this, ih]

/-- The model's string order is Lean's lexicographic order on lists. -/
theorem bytesLe_iff_le (a b : Bytes) : bytesLe a b = true ↔ a ≤ b := by
  rw [← List.not_lt, ← cmpBytes_lt_iff, ← not_bytesLe_iff]
  simp

theorem pairCmp_eq (a b : Pair) :
    ParameterList.cmp a b ≠ .gt ↔ pairLe (a.1, a.2.text) (b.1, b.2.text) := by
  unfold ParameterList.cmp fmtCmp pairLe
  simp only [← cmpBytes_lt_iff, ← bytesLe_iff_le, bytesLe_iff_ne_gt, ← cmpBytes_eq_iff]
  cases cmpBytes a.1 b.1 <;> simp [Ordering.then]

theorem pairCmp_swap (a b : Pair) :
    (ParameterList.cmp a b).swap = ParameterList.cmp b a := by
  unfold ParameterList.cmp fmtCmp
  rw [← cmpBytes_swap a.1 b.1, ← cmpBytes_swap a.2.text b.2.text]
  cases cmpBytes a.1 b.1 <;> simp [Ordering.then, Ordering.swap]

theorem pairLe_trans {a b c : Bytes × Bytes} (h1 : pairLe a b) (h2 : pairLe b c) : pairLe a c := by
  unfold pairLe at *
  rcases h1 with h1 | ⟨e1, h1⟩ <;> rcases h2 with h2 | ⟨e2, h2⟩
  · exact .inl (List.lt_trans h1 h2)
  · exact .inl (e2 ▸ h1)
  · exact .inl (e1 ▸ h2)
  · exact .inr ⟨e1.trans e2, List.le_trans h1 h2⟩

theorem pairLe_antisymm {a b : Bytes × Bytes} (h1 : pairLe a b) (h2 : pairLe b a) : a = b := by
  unfold pairLe at *
  rcases h1 with h1 | ⟨e1, h1⟩ <;> rcases h2 with h2 | ⟨e2, h2⟩
  · exact absurd (List.lt_trans h1 h2) (List.lt_irrefl _)
  · rw [e2] at h1; exact absurd h1 (List.lt_irrefl _)
  · rw [e1] at h2; exact absurd h2 (List.lt_irrefl _)
  · exact Prod.ext e1 (List.le_antisymm h1 h2)

theorem pairLe_total (a b : Bytes × Bytes) : pairLe a b ∨ pairLe b a := by
  have h := pairCmp_swap (a.1, .ofBytes a.2) (b.1, .ofBytes b.2)
  have h1 := pairCmp_eq (a.1, .ofBytes a.2) (b.1, .ofBytes b.2)
  have h2 := pairCmp_eq (b.1, .ofBytes b.2) (a.1, .ofBytes a.2)
  simp only [Display.text_ofBytes] at h1 h2
  rw [← h] at h2
  rw [← h1, ← h2]
  cases ParameterList.cmp (a.1, .ofBytes a.2) (b.1, .ofBytes b.2) <;> simp [Ordering.swap]

theorem sort_ascending (srt : SortFn) (l : List Pair) :
    Ascending (shown Display.text (ParameterList.sort srt l)) := by
  have := srt.sorted ParameterList.cmp l pairCmp_swap (by
    intro a b c h1 h2
    rw [pairCmp_eq] at *
    exact pairLe_trans h1 h2)
  unfold Ascending shown ParameterList.sort
  rw [List.pairwise_map]
  exact this.imp (fun h => (pairCmp_eq _ _).mp h)

theorem isSortedBy_iff (l : List Pair) :
    ParameterList.isSortedBy ParameterList.cmp l = true ↔ Ascending (shown Display.text l) := by
  induction l with
  | nil => simp [ParameterList.isSortedBy, Ascending, shown]
  | cons a l ih =>
    cases l with
    | nil => simp [ParameterList.isSortedBy, Ascending, shown]
    | cons b rest =>
      simp only [ParameterList.isSortedBy, Bool.and_eq_true, ih, bne_iff_ne, ne_eq]
      have hab : ¬ ParameterList.cmp b a = .lt ↔ pairLe (a.1, a.2.text) (b.1, b.2.text) := by
        rw [← pairCmp_eq, ← pairCmp_swap b a]
        cases ParameterList.cmp b a <;> simp [Ordering.swap]
      rw [hab]
      simp only [Ascending, shown, List.map_cons, List.pairwise_cons]
      constructor
      · rintro ⟨h1, h2, h3⟩
        refine ⟨?_, h2, h3⟩
        intro p hp
        rcases List.mem_cons.mp hp with rfl | hp
        · exact h1
        · exact pairLe_trans h1 (h2 p hp)
      · rintro ⟨h1, h2, h3⟩
        exact ⟨h1 _ (by simp), h2, h3⟩

theorem ascending_perm_eq {l l' : List (Bytes × Bytes)} (h : Ascending l) (h' : Ascending l')
    (hp : l.Perm l') : l = l' :=
  List.Perm.eq_of_pairwise (fun _ _ _ _ h1 h2 => pairLe_antisymm h1 h2) h h' hp

theorem weave_sameCalls (ps : List Proto) {p q : List Pair}
    (hp : ∀ x ∈ p, x.2.outcome = .ok) (hq : ∀ x ∈ q, x.2.outcome = .ok)
    (h : shown Display.text p = shown Display.text q) : SameCalls (weave ps p) (weave ps q) := by
  have hm : ∀ (l : List Proto) (cs cs' : List Call), SameCalls cs cs' →
      SameCalls (l.map .oauth ++ cs) (l.map .oauth ++ cs') := by
    intro l cs cs' hc
    induction l with
    | nil => exact hc
    | cons a l ih => exact .cons .oauth ih
  induction p generalizing q ps with
  | nil =>
    cases q with
    | nil => simpa [weave] using hm ps [] [] .nil
    | cons y q => simp [shown] at h
  | cons x p ih =>
    cases q with
    | nil => simp [shown] at h
    | cons y q =>
      obtain ⟨k, v⟩ := x
      obtain ⟨k', v'⟩ := y
      simp only [shown, List.map_cons, List.cons.injEq, Prod.mk.injEq] at h
      obtain ⟨⟨rfl, hv⟩, h⟩ := h
      refine hm _ _ _ (.cons (.parameter ⟨hv, ?_⟩) ?_)
      · rw [hp (k, v) (by simp), hq (k, v') (by simp)]
      · exact ih _ (fun x hx => hp x (by simp [hx])) (fun x hx => hq x (by simp [hx])) h

end OAuth
