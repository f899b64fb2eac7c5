import Verif.Proofs.Server

/-
External code for concrete runs of the example server: the contracts of `Lib` can be met.
-/

namespace OAuth.Server

open Spec

def insertBy {α : Type} (cmp : α → α → Ordering) (a : α) : List α → List α
  | [] => [a]
  | b :: l => if cmp a b ≠ .gt then a :: b :: l else b :: insertBy cmp a l

theorem insertBy_perm {α : Type} (cmp : α → α → Ordering) (a : α) (l : List α) :
    (insertBy cmp a l).Perm (a :: l) := by
  induction l with
  | nil => exact .refl _
  | cons b l ih =>
    unfold insertBy
    split
    · exact .refl _
    · exact (ih.cons b).trans (.swap a b l)

theorem insertBy_sorted {α : Type} {cmp : α → α → Ordering}
    (hswap : ∀ a b, (cmp a b).swap = cmp b a)
    (htrans : ∀ a b c, cmp a b ≠ .gt → cmp b c ≠ .gt → cmp a c ≠ .gt) (a : α) {l : List α}
    (hl : l.Pairwise fun a b => cmp a b ≠ .gt) :
    (insertBy cmp a l).Pairwise fun a b => cmp a b ≠ .gt := by
  induction l with
  | nil => simp [insertBy]
  | cons b l ih =>
    obtain ⟨h1, h2⟩ := List.pairwise_cons.mp hl
    unfold insertBy
    split
    · next h =>
      refine List.pairwise_cons.mpr ⟨?_, hl⟩
      intro c hc
      rcases List.mem_cons.mp hc with rfl | hc
      · exact h
      · exact htrans a b c h (h1 c hc)
    · next h =>
      refine List.pairwise_cons.mpr ⟨?_, ih h2⟩
      intro c hc
      rcases List.mem_cons.mp ((insertBy_perm cmp a l).mem_iff.mp hc) with rfl | hc
      · rw [← hswap c b]
        rw [Decidable.not_not.mp h]
        decide
      · exact h1 c hc

/-- Insertion sort. -/
def insertionSort : SortFn where
  run cmp l := l.foldr (insertBy cmp) []
  perm cmp l := by
    induction l with
    | nil => exact .refl _
    | cons a l ih => exact (insertBy_perm cmp a _).trans (ih.cons a)
  sorted cmp l hs ht := by
    induction l with
    | nil => exact .nil
    | cons a l ih => exact insertBy_sorted hs ht a ih

/-- The first index whose key is not smaller. -/
def linearSearch : List Bytes → Bytes → Nat
  | [], _ => 0
  | x :: ks, k => if cmpBytes x k = .lt then linearSearch ks k + 1 else 0

theorem linearSearch_le (ks : List Bytes) (k : Bytes) : linearSearch ks k ≤ ks.length := by
  induction ks with
  | nil => exact Nat.le_refl _
  | cons x ks ih => unfold linearSearch; split <;> simp [ih]

theorem linearSearch_found (ks : List Bytes) (k : Bytes)
    (hs : ks.Pairwise (fun a b => bytesLe a b = true)) (hk : k ∈ ks) :
    ks[linearSearch ks k]? = some k := by
  induction ks with
  | nil => cases hk
  | cons x ks ih =>
    obtain ⟨h1, h2⟩ := List.pairwise_cons.mp hs
    unfold linearSearch
    split
    · next hlt =>
      rcases List.mem_cons.mp hk with rfl | hk
      · rw [cmpBytes_refl] at hlt; cases hlt
      · simpa using ih h2 hk
    · next hlt =>
      rcases List.mem_cons.mp hk with rfl | hk
      · rfl
      · have := h1 k hk
        rw [bytesLe_iff_ne_gt] at this
        have he : cmpBytes x k = .eq := by
          cases h : cmpBytes x k <;> simp_all
        rw [(cmpBytes_eq_iff x k).mp he]
        rfl

theorem linearSearch_missing (ks : List Bytes) (k : Bytes)
    (hs : ks.Pairwise (fun a b => bytesLe a b = true)) (hk : k ∉ ks) :
    (∀ x ∈ ks.take (linearSearch ks k), cmpBytes x k = .lt) ∧
      ∀ x ∈ ks.drop (linearSearch ks k), cmpBytes x k = .gt := by
  induction ks with
  | nil => simp
  | cons x ks ih =>
    obtain ⟨h1, h2⟩ := List.pairwise_cons.mp hs
    simp only [List.mem_cons, not_or] at hk
    obtain ⟨i1, i2⟩ := ih h2 hk.2
    unfold linearSearch
    split
    · next hlt =>
      simp only [List.take_succ_cons, List.mem_cons, forall_eq_or_imp, List.drop_succ_cons]
      exact ⟨⟨hlt, i1⟩, i2⟩
    · next hlt =>
      simp only [List.take_zero, List.not_mem_nil, false_implies, implies_true, List.drop_zero,
        true_and]
      have hx : cmpBytes x k = .gt := by
        cases h : cmpBytes x k with
        | lt => exact absurd h hlt
        | eq => exact absurd ((cmpBytes_eq_iff x k).mp h).symm hk.1
        | gt => rfl
      intro y hy
      rcases List.mem_cons.mp hy with rfl | hy
      · exact hx
      · have hxy := h1 y hy
        cases h : cmpBytes y k with
        | gt => rfl
        | lt =>
          have := bytesLe_trans hxy ((bytesLe_iff_ne_gt y k).mpr (by rw [h]; decide))
          rw [bytesLe_iff_ne_gt] at this
          exact absurd hx this
        | eq => exact absurd ((cmpBytes_eq_iff y k).mp h ▸ hy) hk.2

theorem base64Values_length {al s : Bytes} {ns : List Nat} (h : base64Values al s = some ns) :
    ns.length = s.length := by
  induction s generalizing ns with
  | nil => cases h; rfl
  | cons c s ih =>
    simp only [base64Values] at h
    split at h
    · next n ns' _ h2 => cases h; simp [ih h2]
    · cases h

theorem base64Groups_length {ns : List Nat} {d : Bytes} (h : base64Groups ns = some d) :
    d.length ≤ (ns.length + 3) / 4 * 3 := by
  fun_induction base64Groups ns generalizing d with
  | case1 => cases h; simp
  | case2 => cases h
  | case3 a b hb => simp only [Option.some.injEq] at h; subst h; simp
  | case4 a b hb => cases h
  | case5 a b c hc => simp only [Option.some.injEq] at h; subst h; simp
  | case6 a b c hc => cases h
  | case7 a b c d' rest ih =>
    obtain ⟨t, ht, rfl⟩ := Option.map_eq_some_iff.mp h
    have := ih ht
    simp only [List.length_cons]
    omega

theorem base64DecodePad_length (s d : Bytes) (h : base64DecodePad base64Alphabet s = some d) :
    d.length ≤ (s.length + 3) / 4 * 3 := by
  simp only [base64DecodePad] at h
  split at h
  · obtain ⟨ns, h1, h2⟩ := Option.bind_eq_some_iff.mp h
    have h3 := base64Groups_length h2
    rw [base64Values_length h1] at h3
    have h4 : (s.takeWhile (· != 0x3D)).length ≤ s.length := (List.takeWhile_sublist _).length_le
    have : ((s.takeWhile (· != 0x3D)).length + 3) / 4 ≤ (s.length + 3) / 4 := by omega
    omega
  · cases h

/-- External code that meets the contracts. -/
def exampleLib (emptyOk : Bool) : Lib where
  emptyOk := emptyOk
  base64Decode := base64DecodePad base64Alphabet
  base64Decode_encode := base64_decodePad false
  base64Decode_length := base64DecodePad_length
  sort := insertionSort
  search := linearSearch
  search_le := linearSearch_le
  search_found := linearSearch_found
  search_missing := linearSearch_missing

end OAuth.Server
