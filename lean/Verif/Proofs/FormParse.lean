import Verif.Spec.Form
import Verif.Proofs.PercentEncoding
import Verif.Proofs.Urlencode

/-
Parsing forms.
-/

namespace OAuth.Spec

theorem splitAll_ne_nil (sep : UInt8) (s : Bytes) : splitAll sep s ≠ [] := by
  cases s with
  | nil => simp [splitAll]
  | cons b s => 
    simp only [splitAll]
    split
    · simp
    · split <;> simp

theorem splitAll_no_sep {sep : UInt8} {s : Bytes} (h : sep ∉ s) : splitAll sep s = [s] := by
  induction s with
  | nil => rfl
  | cons b s ih =>
    simp only [List.mem_cons, not_or] at h
    simp only [splitAll, if_neg (Ne.symm h.1), ih h.2]

theorem splitAll_append_sep {sep : UInt8} {p : Bytes} (h : sep ∉ p) (s : Bytes) :
    splitAll sep (p ++ sep :: s) = p :: splitAll sep s := by
  induction p with
  | nil => simp [splitAll]
  | cons b p ih =>
    simp only [List.mem_cons, not_or] at h
    simp only [List.cons_append, splitAll, if_neg (Ne.symm h.1), ih h.2]

theorem splitAll_join {sep : UInt8} {ps : List Bytes} (hne : ps ≠ []) (h : ∀ p ∈ ps, sep ∉ p) :
    splitAll sep (join [sep] ps) = ps := by
  induction ps with
  | nil => exact absurd rfl hne
  | cons p ps ih =>
    cases ps with
    | nil => simpa [join] using splitAll_no_sep (h p (by simp))
    | cons q qs =>
      simp only [join, List.append_assoc, List.singleton_append]
      rw [splitAll_append_sep (h p (by simp)), ih (by simp) (fun p hp => h p (by simp [hp]))]

theorem splitFirst_append {sep : UInt8} {k : Bytes} (h : sep ∉ k) (v : Bytes) :
    splitFirst sep (k ++ sep :: v) = some (k, v) := by
  induction k with
  | nil => simp [splitFirst]
  | cons b k ih =>
    simp only [List.mem_cons, not_or] at h
    simp only [List.cons_append, splitFirst, if_neg (Ne.symm h.1), ih h.2, Option.map_some]

theorem decode_unreserved {s : Bytes} (h : ∀ b ∈ s, unreserved b = true) : decode s = some s := by
  have := decode_encode s
  rwa [encode_of_unreserved h] at this

theorem not_mem_of_unreserved {s : Bytes} (h : ∀ b ∈ s, unreserved b = true) {c : UInt8}
    (hc : unreserved c = false) : c ∉ s := fun hm => by simp [h c hm] at hc

theorem not_mem_encode (s : Bytes) {c : UInt8} (hc : encodedChar c = false) : c ∉ encode s :=
  fun hm => by simp [encode_alphabet s c hm] at hc

theorem parseItem_eq {k : Bytes} (h : ∀ b ∈ k, unreserved b = true) (v : Bytes) :
    parseItem (k ++ b!"=" ++ encode v) = some (k, v) := by
  simp only [parseItem, List.append_assoc, List.singleton_append]
  rw [splitFirst_append (not_mem_of_unreserved h (by decide))]
  simp [decode_unreserved h, decode_encode]

theorem allSome_map {α β γ : Type} (f : α → β) (g : β → Option γ) (h : α → γ) (l : List α)
    (hl : ∀ a ∈ l, g (f a) = some (h a)) : allSome g (l.map f) = some (l.map h) := by
  induction l with
  | nil => rfl
  | cons a l ih =>
    simp only [List.map_cons, allSome, hl a (by simp), ih (fun a ha => hl a (by simp [ha]))]

/-- Parsing a form made of `key=encoded value` items. -/
theorem parseForm_formOf (ps : List (Bytes × Bytes))
    (h : ∀ p ∈ ps, ∀ b ∈ p.1, unreserved b = true) :
    parseForm (formOf (ps.map fun p => p.1 ++ b!"=" ++ encode p.2)) = some ps := by
  cases ps with
  | nil => rfl
  | cons p ps =>
    have hne : formOf ((p :: ps).map fun p => p.1 ++ b!"=" ++ encode p.2) ≠ [] := by
      simp [formOf, join_cons]
    rw [parseForm, if_neg hne, formOf]
    rw [splitAll_join (by simp)]
    · rw [allSome_map (fun p : Bytes × Bytes => p.1 ++ b!"=" ++ encode p.2) parseItem id]
      · simp
      · intro a ha; exact parseItem_eq (h a ha) a.2
    · intro q hq
      obtain ⟨a, ha, rfl⟩ := List.mem_map.mp hq
      simp only [List.mem_append, not_or]
      exact ⟨⟨not_mem_of_unreserved (h a ha) (by decide), by decide⟩, not_mem_encode _ (by decide)⟩

end OAuth.Spec
