import Verif.Model.Container
import Verif.Model.Builder
import Verif.Properties.ParameterList
import Verif.Proofs.Cases

/-
C55: `ParameterList` over any container.
-/

namespace OAuth

open Spec

variable {A P : Type}

/-- `as_ref` and `as_mut` lend the same slice: what is written to one is read from the other. (A slice
keeps its length.) -/
def Container.Consistent (c : Container A P) : Prop :=
  ∀ (f : List P → List P) (a : A), (∀ l, (f l).length = l.length) → c.asRef (c.asMut f a) = f (c.asRef a)

/-- The containers from which a `ParameterList` can be had by constructors and `extend` calls. -/
inductive Container.Reached (c : Container A P) : A → Prop
  | new (srt : SortFn) (a : A) : c.Reached (c.new srt a)
  | fromSorted {a a' : A} : c.fromSorted a = some a' → c.Reached a'
  | fromIterator (srt : SortFn) (iter : List P) : c.Reached (c.fromIterator srt iter)
  | default : c.Reached c.defaultList
  | extend (srt : SortFn) {a : A} (iter : List P) : c.Reached a → c.Reached (c.extendList srt a iter)

/-- The pairs of a container are in ascending order of key and displayed value. -/
def Container.InOrder (c : Container A P) (a : A) : Prop :=
  Ascending (shown Display.text ((c.asRef a).map c.borrow))

/-- A container of two numbered pairs behind references, whose `Default` is in the wrong order. -/
def Container.swapped : Container (List Nat) Nat where
  borrow n := if n = 0 then (b!"a", .ofBytes b!"1") else (b!"b", .ofBytes b!"2")
  asRef l := l
  asMut f l := f l
  extend l iter := l ++ iter
  fromIter iter := iter
  default := [1, 0]

/-- The same with an empty `Default`. -/
def Container.numbered : Container (List Nat) Nat := { Container.swapped with default := [] }

theorem Container.numbered_consistent : Container.numbered.Consistent := fun _ _ _ => rfl

theorem Container.numbered_default : Container.numbered.InOrder Container.numbered.default :=
  List.Pairwise.nil

/-- C55, the claim: "the parameters are guaranteed to be sorted alphabetically", for every container. -/
def C55_claim : Prop :=
  ∀ (A P : Type) (c : Container A P), c.Consistent → ∀ a, c.Reached a → c.InOrder a

theorem container_sort {c : Container A P} (hc : c.Consistent) (srt : SortFn) (a : A) :
    (c.asRef (c.sort srt a)).Perm (c.asRef a) ∧ c.InOrder (c.sort srt a) := by
  have h : c.asRef (c.sort srt a) = srt.run c.cmp (c.asRef a) :=
    hc _ a fun l => (srt.perm c.cmp l).length_eq
  refine ⟨h ▸ srt.perm c.cmp _, ?_⟩
  unfold Container.InOrder
  rw [h]
  have := srt.sorted c.cmp (c.asRef a) (fun x y => pairCmp_swap _ _) (by
    intro x y z h1 h2
    unfold Container.cmp at *
    rw [pairCmp_eq] at *
    exact pairLe_trans h1 h2)
  unfold Ascending shown
  rw [List.pairwise_map, List.pairwise_map]
  exact this.imp (fun h => (pairCmp_eq _ _).mp h)

theorem isSortedBy_map (c : Container A P) (l : List P) :
    ParameterList.isSortedBy c.cmp l = ParameterList.isSortedBy ParameterList.cmp (l.map c.borrow) := by
  induction l with
  | nil => rfl
  | cons a l ih =>
    cases l with
    | nil => rfl
    | cons b l =>
      simp only [ParameterList.isSortedBy, List.map_cons]
      rw [ih]
      rfl

/-- C55: `from_sorted` accepts exactly the containers whose pairs are in order, and keeps them. -/
theorem C55_from_sorted (c : Container A P) (a a' : A) :
    c.fromSorted a = some a' ↔ c.InOrder a ∧ a' = a := by
  unfold Container.fromSorted Container.InOrder
  rw [isSortedBy_map]
  split
  · next h => simp [(isSortedBy_iff _).mp h, eq_comm]
  · next h => simp [mt (isSortedBy_iff _).mpr h]

/-- Accepted and refused. -/
example : Container.numbered.fromSorted [0, 1, 1] = some [0, 1, 1] ∧ Container.numbered.InOrder [0, 1, 1] ∧
    Container.numbered.fromSorted [1, 0] = none ∧ ¬ Container.numbered.InOrder [1, 0] := by
  have h1 : Container.numbered.fromSorted [0, 1, 1] = some [0, 1, 1] := by decide +kernel
  have h2 : Container.numbered.fromSorted [1, 0] = none := by decide +kernel
  refine ⟨h1, ((C55_from_sorted _ _ _).mp h1).1, h2, fun h => ?_⟩
  rw [(C55_from_sorted _ _ [1, 0]).mpr ⟨h, rfl⟩] at h2
  cases h2

/-- C55, where it holds: with a container that lends the same slice both ways and whose `Default` is in
order (that of `Vec`, of boxed slices and of arrays of equal pairs is), the pairs are in order after any
history. What is missing is a container whose `Default` is not. -/
theorem C55_in_order_partial {c : Container A P} (hc : c.Consistent) (hd : c.InOrder c.default) {a : A}
    (h : c.Reached a) : c.InOrder a := by
  cases h with
  | new srt a => exact (container_sort hc srt a).2
  | fromSorted h => exact ((C55_from_sorted c _ _).mp h).2 ▸ ((C55_from_sorted c _ _).mp h).1
  | fromIterator srt iter => exact (container_sort hc srt _).2
  | default => exact hd
  | extend srt iter _ => exact (container_sort hc srt _).2

/-- With a container of references, after `new` and `extend`. -/
example : Container.numbered.InOrder
    (Container.numbered.extendList .merge (Container.numbered.new .merge [1, 0]) [1, 0, 0]) :=
  C55_in_order_partial Container.numbered_consistent Container.numbered_default
    (.extend .merge _ (.new .merge _))

/-- C55, exactly. -/
theorem C55_in_order_iff {c : Container A P} (hc : c.Consistent) :
    (∀ a, c.Reached a → c.InOrder a) ↔ c.InOrder c.default :=
  ⟨fun h => h _ .default, fun h _ ha => C55_in_order_partial hc h ha⟩

example : ∀ a, Container.numbered.Reached a → Container.numbered.InOrder a :=
  (C55_in_order_iff Container.numbered_consistent).mpr Container.numbered_default

/-- C55: a list in order is sent as the plain list of its pairs is, so what is proved of those
(`Built`) holds of it; `iter` yields these pairs. -/
theorem C55_sent_as_pairs (c : Container A P) (cfg : Cfg) {a : A} (h : c.InOrder a) :
    Built (c.iter a) (c.iter a) ∧ c.request cfg a = ParameterList.request cfg (c.iter a) := by
  refine ⟨.fromSorted ?_, ?_⟩
  · unfold ParameterList.fromSorted
    exact if_pos ((isSortedBy_iff _).mpr h)
  · unfold Container.request ParameterList.request Container.iter
    rw [List.map_map]
    rfl

/-- What such a list sends. -/
example : Container.numbered.request Case.cfg [0, 1] =
    ParameterList.request Case.cfg [(b!"a", .ofBytes b!"1"), (b!"b", .ofBytes b!"2")] :=
  (C55_sent_as_pairs Container.numbered Case.cfg (a := [0, 1])
    (((C55_from_sorted _ _ [0, 1]).mp (by decide +kernel)).1)).2

/-- C55: sorting changes neither the elements nor, up to their order, what a container took. -/
theorem C55_contents {c : Container A P} (hc : c.Consistent) (srt : SortFn) :
    (∀ a, (c.asSlice (c.new srt a)).Perm (c.asRef a)) ∧
    (∀ iter, (c.asSlice (c.fromIterator srt iter)).Perm (c.asRef (c.fromIter iter))) ∧
    (∀ a iter, (c.asSlice (c.extendList srt a iter)).Perm (c.asRef (c.extend a iter))) ∧
    (∀ a : A, Container.intoInner a = a) :=
  ⟨fun _ => (container_sort hc srt _).1, fun _ => (container_sort hc srt _).1,
    fun _ _ => (container_sort hc srt _).1, fun _ => rfl⟩

example : (Container.numbered.extendList .merge [0, 1] [1, 0]).Perm [0, 1, 1, 0] :=
  (C55_contents Container.numbered_consistent .merge).2.2.1 [0, 1] [1, 0]

/-- `Vec` meets the conditions; its lists are those of `Built`. -/
theorem C55_vec : Container.vec.Consistent ∧ Container.vec.InOrder Container.vec.default ∧
    ∀ a, Container.vec.Reached a → ∃ supplied, Built supplied a := by
  refine ⟨fun _ _ _ => rfl, List.Pairwise.nil, fun a h => ?_⟩
  induction h with
  | new srt a => exact ⟨_, .new srt a⟩
  | @fromSorted a a' h =>
    refine ⟨a, .fromSorted ?_⟩
    obtain ⟨h1, rfl⟩ := (C55_from_sorted _ _ _).mp h
    exact (C20_from_sorted _ _).mpr ⟨by simpa [Container.InOrder, Container.vec] using h1, rfl⟩
  | fromIterator srt iter => exact ⟨_, .new srt iter⟩
  | default => exact ⟨_, .default⟩
  | extend srt iter _ ih =>
    obtain ⟨s, ih⟩ := ih
    exact ⟨_, .extend srt iter ih⟩

example : ∃ supplied, Built supplied (Container.vec.new .merge Case.pairs.reverse) :=
  C55_vec.2.2 _ (.new .merge _)

/-- C55 is false: `ParameterList::default` does not sort. -/
theorem C55_violated : ¬ C55_claim := by
  intro h
  have h1 := h _ _ Container.swapped (fun _ _ _ => rfl) _ .default
  have h2 := (isSortedBy_iff _).mpr h1
  exact absurd h2 (by decide +kernel)

/-- What becomes of it: `b` is sent before `a`; and when such a request is authorized, debug builds
panic, and others sign the wrong text. -/
example : let cfg (debug : Bool) : Cfg := ⟨debug, true, .std⟩
    let request (debug : Bool) := Container.swapped.request (cfg debug) Container.swapped.defaultList
    (Free.toForm (request true) World.example).toOption.map (·.1) = some b!"b=2&a=1" ∧
    ((Builder.new (.new b!"k" b!"s") plaintext).authorize (cfg true) b!"GET" (.ofBytes b!"http://a/")
      (request true) World.example).toOption = none ∧
    ((Builder.new (.new b!"k" b!"s") plaintext).authorize (cfg false) b!"GET" (.ofBytes b!"http://a/")
      (request false) World.example).toOption.isSome = true := by
  refine ⟨by decide +kernel, ?_, by decide +kernel⟩
  rw [← Option.isNone_iff_eq_none]
  decide +kernel

end OAuth
