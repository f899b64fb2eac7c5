import Verif.Properties.Container

/-
C67: `ParameterList` and caught panics.
-/

namespace OAuth

open Spec

variable {A P : Type}

/-- The containers in which a `ParameterList` can be seen when panics are caught: as `Container.Reached`,
with `extend` calls that unwind among the others. -/
inductive Container.Seen (c : Container A P) : A → Prop
  | new (srt : SortFn) (a : A) : c.Seen (c.new srt a)
  | fromSorted {a a' : A} : c.fromSorted a = some a' → c.Seen a'
  | fromIterator (srt : SortFn) (iter : List P) : c.Seen (c.fromIterator srt iter)
  | default : c.Seen c.defaultList
  | extend (srt : SortFn) {a : A} (iter : List P) : c.Seen a → c.Seen (c.extendList srt a iter)
  | iteratorPanics {a : A} (yielded : List P) : c.Seen a → c.Seen (c.extendUnwound a yielded)
  | displayPanics (shuffle : List P → List P) (h : ∀ l, (shuffle l).Perm l) {a : A} (iter : List P) :
    c.Seen a → c.Seen (c.extendSortUnwound shuffle a iter)

/-- C67, the claim: "the parameters are guaranteed to be sorted alphabetically", also after a caught
panic, for every container that lends one slice and has a `Default` in order. -/
def C67_claim : Prop :=
  ∀ (A P : Type) (c : Container A P), c.Consistent → c.InOrder c.default → ∀ a, c.Seen a → c.InOrder a

/-- C67 is false: `extend` sorts only when the iterator has ended, so a list extended by an iterator that
panics halfway is out of order. -/
theorem C67_violated : ¬ C67_claim := by
  intro h
  have h1 := h _ _ Container.vec C55_vec.1 C55_vec.2.1 _
    (.iteratorPanics [(b!"b", .ofBytes b!"2"), (b!"a", .ofBytes b!"1")] .default)
  have h2 := (isSortedBy_iff _).mpr h1
  exact absurd h2 (by decide +kernel)

/-- C67, where it holds: a list is in order unless the last call on it was an `extend` that unwound.
(The full statement has no such exception.) In particular any completed `extend`, also one with nothing,
puts a list in order again. -/
theorem C67_partial {c : Container A P} (hc : c.Consistent) (hd : c.InOrder c.default) {a : A}
    (h : c.Seen a) :
    c.InOrder a ∨ (∃ a' yielded, c.Seen a' ∧ a = c.extendUnwound a' yielded) ∨
      ∃ shuffle a' iter, c.Seen a' ∧ a = c.extendSortUnwound shuffle a' iter := by
  cases h with
  | new srt a => exact .inl (container_sort hc srt a).2
  | fromSorted h => exact .inl (((C55_from_sorted c _ _).mp h).2 ▸ ((C55_from_sorted c _ _).mp h).1)
  | fromIterator srt iter => exact .inl (container_sort hc srt _).2
  | default => exact .inl hd
  | extend srt iter _ => exact .inl (container_sort hc srt _).2
  | iteratorPanics yielded h => exact .inr (.inl ⟨_, _, h, rfl⟩)
  | displayPanics shuffle _ iter h => exact .inr (.inr ⟨_, _, _, h, rfl⟩)

/-- All three kinds of list: after a completed `extend`, after an iterator panicked, after `fmt` panicked. -/
example : Container.numbered.Seen (Container.numbered.extendList .merge (Container.numbered.extendUnwound
      (Container.numbered.extendSortUnwound List.reverse [0] [1]) [0]) [1]) ∧
    Container.numbered.extendSortUnwound List.reverse [0] [1] = [1, 0] ∧
    Container.numbered.extendUnwound [1, 0] [0] = [1, 0, 0] :=
  ⟨.extend .merge _ (.iteratorPanics _ (.displayPanics _ List.reverse_perm _
    (.fromSorted (a := [0]) (by decide +kernel)))), by decide +kernel, by decide +kernel⟩

/-- C67: a completed `extend` puts any list in order again and keeps all elements. -/
theorem C67_recovers {c : Container A P} (hc : c.Consistent) (srt : SortFn) (a : A) (iter : List P) :
    c.InOrder (c.extendList srt a iter) ∧
      (c.asRef (c.extendList srt a iter)).Perm (c.asRef (c.extend a iter)) :=
  ⟨(container_sort hc srt _).2, (container_sort hc srt _).1⟩

example : Container.numbered.InOrder (Container.numbered.extendList .merge [1, 0, 0] []) :=
  (C67_recovers Container.numbered_consistent .merge [1, 0, 0] []).1

/-- C67, exactly, for a `Vec`: after an iterator panicked, the list is in order exactly if the pairs it
yielded continue the list in ascending order. -/
theorem C67_iff {a : List Pair} (ha : Container.vec.InOrder a) (yielded : List Pair) :
    Container.vec.InOrder (Container.vec.extendUnwound a yielded) ↔
      Ascending (shown Display.text yielded) ∧
      ∀ x ∈ shown Display.text a, ∀ y ∈ shown Display.text yielded, pairLe x y := by
  have e : ∀ l : List Pair, (Container.vec.asRef l).map Container.vec.borrow = l := fun l => List.map_id l
  unfold Container.InOrder at *
  rw [e] at *
  change Ascending (shown Display.text (a ++ yielded)) ↔ _
  unfold Ascending at *
  unfold shown at *
  rw [List.map_append, List.pairwise_append]
  exact ⟨fun h => ⟨h.2.1, h.2.2⟩, fun h => ⟨ha, h.1, h.2⟩⟩

/-- A list in order, pairs that continue it and pairs that do not. -/
example : Container.vec.InOrder Case.pairs ∧
    Container.vec.InOrder (Container.vec.extendUnwound Case.pairs [(b!"p", .ofBytes b!"~é")]) ∧
    ¬ Container.vec.InOrder (Container.vec.extendUnwound Case.pairs [(b!"p", .ofBytes b!"~$")]) :=
  ⟨(isSortedBy_iff _).mp (by decide +kernel), (isSortedBy_iff _).mp (by decide +kernel),
    fun h => absurd ((isSortedBy_iff _).mpr h) (by decide +kernel)⟩

/-- C67: elements are never lost, whichever way `extend` ends. -/
theorem C67_contents (a : List Pair) (iter : List Pair) (shuffle : List Pair → List Pair)
    (h : ∀ l, (shuffle l).Perm l) :
    Container.vec.extendUnwound a iter = a ++ iter ∧
      (Container.vec.extendSortUnwound shuffle a iter).Perm (a ++ iter) :=
  ⟨rfl, h _⟩

/-- What becomes of a list that an iterator left in disorder: its pairs are sent as they stand, debug builds
refuse to sign it, and after `extend([])` all is well. -/
example :
    let a : List Pair := Container.vec.extendUnwound [(b!"b", .ofBytes b!"2")] [(b!"a", .ofBytes b!"1")]
    let cfg (debug : Bool) : Cfg := ⟨debug, true, .std⟩
    Container.vec.Seen a ∧
    (Free.toForm (Container.vec.request (cfg false) a) World.example).toOption.map (·.1) =
      some b!"b=2&a=1" ∧
    ((Builder.new (.new b!"k" b!"s") plaintext).authorize (cfg true) b!"GET" (.ofBytes b!"http://a/")
      (Container.vec.request (cfg true) a) World.example).toOption.isNone = true ∧
    (∀ srt, Container.vec.InOrder (Container.vec.extendList srt a [])) := by
  refine ⟨?_, by decide +kernel, by decide +kernel, fun srt => (C67_recovers C55_vec.1 srt _ _).1⟩
  exact .iteratorPanics _ (.fromSorted (a := [(b!"b", .ofBytes b!"2")]) (by decide +kernel))

end OAuth
