import Verif.Proofs.ParameterList
import Verif.Properties.Form

/-
C08, C19, C20: `ParameterList`.
-/

namespace OAuth

open Spec

/-- A sorting function meeting the contract exists (merge sort), so that theorems quantifying over
`SortFn` are not vacuous. -/
def SortFn.merge : SortFn where
  run cmp l := l.mergeSort (fun a b => cmp a b != .gt)
  perm cmp l := List.mergeSort_perm l _
  sorted cmp l hswap htrans := by
    have := List.pairwise_mergeSort (le := fun a b => cmp a b != .gt)
      (fun a b c h1 h2 => by simpa using htrans a b c (by simpa using h1) (by simpa using h2))
      (fun a b => by
        have := hswap a b
        cases h : cmp a b <;> simp [h, Ordering.swap] at this ⊢
        simp [← this]) l
    exact this.imp (fun h => by simpa using h)

/-- Histories of a `ParameterList`: `Built supplied current` says that a list holding `current` can be
obtained by constructors and `extend` calls that were supplied with the pairs `supplied`. Each
operation may use a different sorting algorithm. -/
inductive Built : List Pair → List Pair → Prop
  /-- `new`, `From`, `FromIterator`. -/
  | new (srt : SortFn) (l : List Pair) : Built l (ParameterList.new srt l)
  | fromSorted {l r : List Pair} : ParameterList.fromSorted l = some r → Built l r
  | default : Built [] ParameterList.default
  | extend (srt : SortFn) {supplied current : List Pair} (iter : List Pair) :
      Built supplied current → Built (supplied ++ iter) (ParameterList.extend srt current iter)

/-- C19: after any history, a `ParameterList` holds exactly the supplied pairs, in ascending order of
(key, displayed value). -/
theorem C19_always_sorted {supplied current : List Pair} (h : Built supplied current) :
    current.Perm supplied ∧ Ascending (shown Display.text current) := by
  induction h with
  | new srt l => exact ⟨srt.perm _ l, sort_ascending srt l⟩
  | fromSorted h =>
    unfold ParameterList.fromSorted at h
    split at h
    · next hs => cases h; exact ⟨.refl _, (isSortedBy_iff _).mp hs⟩
    · cases h
  | default => exact ⟨.refl _, List.Pairwise.nil⟩
  | extend srt iter _ ih =>
    exact ⟨(srt.perm _ _).trans (ih.1.append_right iter), sort_ascending srt _⟩

/-- A list that was handed over in order. -/
theorem Case.built : Built Case.pairs Case.pairs := .fromSorted (by decide +kernel)

/-- A history: `from_sorted`, then `extend` with pairs that belong before, between and after. -/
example : Built ([(b!"b", .ofBytes b!"1"), (b!"d", .ofBytes b!"1")] ++
      [(b!"e", .ofBytes b!"1"), (b!"b", .ofBytes b!"0"), (b!"a", .ofBytes b!"1")])
    (ParameterList.extend .merge [(b!"b", .ofBytes b!"1"), (b!"d", .ofBytes b!"1")]
      [(b!"e", .ofBytes b!"1"), (b!"b", .ofBytes b!"0"), (b!"a", .ofBytes b!"1")]) :=
  .extend .merge _ (.fromSorted (by decide +kernel))

/-- C20: `from_sorted` accepts exactly the ascending lists, and returns them unchanged. -/
theorem C20_from_sorted (l r : List Pair) :
    ParameterList.fromSorted l = some r ↔ Ascending (shown Display.text l) ∧ r = l := by
  unfold ParameterList.fromSorted
  split
  · next h => simp [(isSortedBy_iff l).mp h, eq_comm]
  · next h => simp [mt (isSortedBy_iff l).mpr h]

example : ParameterList.fromSorted Case.pairs = some Case.pairs ∧
    Ascending (shown Display.text Case.pairs) :=
  have h : ParameterList.fromSorted Case.pairs = some Case.pairs := by decide +kernel
  ⟨h, ((C20_from_sorted _ _).mp h).1⟩

/-- C20, rejection. -/
theorem C20_from_sorted_rejects (l : List Pair) :
    ParameterList.fromSorted l = none ↔ ¬ Ascending (shown Display.text l) := by
  unfold ParameterList.fromSorted
  split
  · next h => simp [(isSortedBy_iff l).mp h]
  · next h => simp [mt (isSortedBy_iff l).mpr h]

/-- Values are compared as text: 1, 11, 3 is ascending although 1, 3, 11 is numerically. -/
example : (ParameterList.fromSorted [(b!"a", .ofBytes b!"1"), (b!"a", .ofBytes b!"11"),
    (b!"a", ⟨[b!"", b!"3"], .ok⟩)]).isSome = true := by decide +kernel
example : ParameterList.fromSorted [(b!"a", .ofBytes b!"3"), (b!"a", .ofBytes b!"11")] = none := by
  decide +kernel

/-- C08: two lists built from permutations of the same pairs (by any histories, with any sorting
algorithms) have the same effect on every serializer that looks at texts only. -/
theorem C08_permutation_invariance (cfg : Cfg) {s1 s2 c1 c2 : List Pair} (h1 : Built s1 c1)
    (h2 : Built s2 c2) (hperm : s1.Perm s2) (hok : AllOk s1) {σ ω : Type} (S : Serializer σ ω)
    (hS : TextOnly S) (s : σ) :
    (ParameterList.request cfg c1).serialize S s = (ParameterList.request cfg c2).serialize S s := by
  obtain ⟨p1, a1⟩ := C19_always_sorted h1
  obtain ⟨p2, a2⟩ := C19_always_sorted h2
  have hp : c1.Perm c2 := p1.trans (hperm.trans p2.symm)
  have hs : shown Display.text c1 = shown Display.text c2 :=
    ascending_perm_eq a1 a2 (hp.map _)
  have o1 : ∀ x ∈ c1, x.2.outcome = .ok := fun x hx => hok x (p1.mem_iff.mp hx)
  have o2 : ∀ x ∈ c2, x.2.outcome = .ok := fun x hx => o1 x (hp.mem_iff.mpr hx)
  rw [isTrace_parameterList, isTrace_parameterList,
    runCalls_same hS (weave_sameCalls allProto o1 o2 hs)]

/-- Two histories of the same pairs, and the serializer behind `to_form`. -/
example : Built Case.pairs Case.pairs ∧
    Built ([] ++ Case.pairs.reverse) (ParameterList.extend .merge ParameterList.default Case.pairs.reverse) ∧
    Case.pairs.Perm ([] ++ Case.pairs.reverse) ∧ AllOk Case.pairs ∧
    TextOnly (Urlencoder.serializer stringWriter) :=
  ⟨Case.built, .extend _ _ .default, by decide +kernel, Case.ok, textOnly_urlencoder⟩

/-- C08 on serializers that see fragments too, when values with the same text are the same value (as
for strings). -/
theorem C08_permutation_invariance_exact (cfg : Cfg) {s1 s2 c1 c2 : List Pair} (h1 : Built s1 c1)
    (h2 : Built s2 c2) (hperm : s1.Perm s2)
    (hstr : ∀ x ∈ s1, ∀ y ∈ s1, x.2.text = y.2.text → x.2 = y.2) {σ ω : Type}
    (S : Serializer σ ω) (s : σ) :
    (ParameterList.request cfg c1).serialize S s = (ParameterList.request cfg c2).serialize S s := by
  obtain ⟨p1, a1⟩ := C19_always_sorted h1
  obtain ⟨p2, a2⟩ := C19_always_sorted h2
  have hp : c1.Perm c2 := p1.trans (hperm.trans p2.symm)
  have : c1 = c2 := by
    refine List.Perm.eq_of_pairwise
      (le := fun a b : Pair => pairLe (a.1, a.2.text) (b.1, b.2.text)) ?_ ?_ ?_ hp
    · intro a b ha hb h h'
      have e := pairLe_antisymm h h'
      simp only [Prod.mk.injEq] at e
      exact Prod.ext e.1 (hstr a (p1.mem_iff.mp ha) b (hperm.mem_iff.mpr (p2.mem_iff.mp hb)) e.2)
    · simpa [Ascending, shown, List.pairwise_map] using a1
    · simpa [Ascending, shown, List.pairwise_map] using a2
  rw [this]

example : Built Case.pairs Case.pairs ∧
    ∀ x ∈ Case.pairs, ∀ y ∈ Case.pairs, x.2.text = y.2.text → x.2 = y.2 :=
  ⟨Case.built, by decide⟩

/-- Two permutations, built differently. -/
example : let a : Pair := (b!"x", .ofBytes b!"2")
    let b : Pair := (b!"x", .ofBytes b!"1")
    let c : Pair := (b!"oauth_nonce", .ofBytes b!"z")
    Built [a, b, c] (ParameterList.new .merge [a, b, c]) ∧
    Built ([] ++ [c, a] ++ [b]) (ParameterList.extend .merge (ParameterList.extend .merge
      ParameterList.default [c, a]) [b]) ∧ [a, b, c].Perm ([] ++ [c, a] ++ [b]) :=
  ⟨.new _ _, .extend _ _ (.extend _ _ .default), by decide +kernel⟩

end OAuth
