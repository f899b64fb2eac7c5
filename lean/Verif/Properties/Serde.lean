import Verif.Model.Serde

/-
C39: deserialization and serialization of `Credentials`.
-/

namespace OAuth

open Serde

variable {V T E : Type}

/-- The name of an entry, if its key is a string (or bytes). -/
def Serde.Key.name? : Key E → Option Bytes
  | .str s => some s
  | .bytes s => some s
  | .error _ => none

/-- The values of all entries of a name, in order. -/
def valuesNamed (n : Bytes) (entries : List (Key E × V)) : List V :=
  (entries.filter fun e => decide (e.1.name? = some n)).map (·.2)

/-- Whether the rest of the input is readable: keys are strings, other entries can be skipped, and the
map ends. -/
structure Readable (f : Format V T E) (input : Input V E) : Prop where
  ends : input.end = .ok ()
  keys : ∀ e ∈ input.entries, e.1.name? ≠ none
  others : ∀ e ∈ input.entries, e.1.name? ≠ some b!"oauth_token" →
    e.1.name? ≠ some b!"oauth_token_secret" → f.ignored e.2 = .ok ()

/-! #### The loop -/

/-- What the values found so far make of a variable of the loop. -/
def Got (f : Format V T E) (vals : List V) (i i' : Option T) : Prop :=
  match vals with
  | [] => i' = i
  | v :: vs => i = none ∧ ∃ x, f.value v = .ok x ∧ vs = [] ∧ i' = some x

theorem got_cons (f : Format V T E) (v : V) (vs : List V) (i i' : Option T) :
    Got f (v :: vs) i i' ↔ i = none ∧ ∃ x, f.value v = .ok x ∧ Got f vs (some x) i' := by
  simp only [Got]
  constructor
  · rintro ⟨h, x, hx, rfl, rfl⟩; exact ⟨h, x, hx, rfl⟩
  · rintro ⟨h, x, hx, hg⟩
    refine ⟨h, x, hx, ?_⟩
    cases vs with
    | nil => exact ⟨rfl, hg⟩
    | cons u us => simp at hg

theorem valuesNamed_cons (n : Bytes) (k : Key E) (v : V) (rest : List (Key E × V)) :
    valuesNamed n ((k, v) :: rest) =
      if k.name? = some n then v :: valuesNamed n rest else valuesNamed n rest := by
  unfold valuesNamed
  by_cases h : k.name? = some n <;> simp [h]

theorem key_cases (k : Key E) :
    (∃ e, k = .error e) ∨ (k.name? = some IDENTIFIER ∧ Field.deserialize k = .ok .identifier) ∨
    (k.name? = some SECRET ∧ Field.deserialize k = .ok .secret) ∨
    (k.name? ≠ none ∧ k.name? ≠ some IDENTIFIER ∧ k.name? ≠ some SECRET ∧
      Field.deserialize k = .ok .other) := by
  have key : ∀ s : Bytes, (s = IDENTIFIER ∧ visitBytes s = .identifier) ∨
      (s = SECRET ∧ visitBytes s = .secret) ∨
      (s ≠ IDENTIFIER ∧ s ≠ SECRET ∧ visitBytes s = .other) := by
    intro s
    unfold visitBytes
    by_cases h1 : s = IDENTIFIER
    · simp [h1]
    · by_cases h2 : s = SECRET
      · subst h2; simp [h1]
      · simp [h1, h2]
  cases k with
  | error e => exact .inl ⟨e, rfl⟩
  | str s =>
    right
    rcases key s with ⟨h1, h2⟩ | ⟨h1, h2⟩ | ⟨h1, h2, h3⟩
    · exact .inl ⟨congrArg some h1, congrArg Except.ok h2⟩
    · exact .inr (.inl ⟨congrArg some h1, congrArg Except.ok h2⟩)
    · exact .inr (.inr ⟨by simp [Key.name?], by simpa [Key.name?] using h1,
        by simpa [Key.name?] using h2, congrArg Except.ok h3⟩)
  | bytes s =>
    right
    rcases key s with ⟨h1, h2⟩ | ⟨h1, h2⟩ | ⟨h1, h2, h3⟩
    · exact .inl ⟨congrArg some h1, congrArg Except.ok h2⟩
    · exact .inr (.inl ⟨congrArg some h1, congrArg Except.ok h2⟩)
    · exact .inr (.inr ⟨by simp [Key.name?], by simpa [Key.name?] using h1,
        by simpa [Key.name?] using h2, congrArg Except.ok h3⟩)

theorem identifier_ne_secret : (some IDENTIFIER : Option Bytes) ≠ some SECRET := by decide

theorem loop_ok_iff (f : Format V T E) («end» : Except E Unit) (es : List (Key E × V))
    (i s i' s' : Option T) :
    visitMapLoop f «end» es i s = .ok (i', s') ↔
      Readable f ⟨es, «end»⟩ ∧ Got f (valuesNamed IDENTIFIER es) i i' ∧
        Got f (valuesNamed SECRET es) s s' := by
  induction es generalizing i s with
  | nil =>
    simp only [visitMapLoop, valuesNamed, List.filter_nil, List.map_nil, Got]
    cases «end» with
    | error e =>
      constructor
      · intro h; simp [liftErr, bind, Except.bind] at h
      · rintro ⟨⟨h, -, -⟩, -⟩; cases h
    | ok u =>
      simp only [liftErr, bind, Except.bind, Except.ok.injEq, Prod.mk.injEq]
      constructor
      · rintro ⟨rfl, rfl⟩; exact ⟨⟨rfl, by simp, by simp⟩, rfl, rfl⟩
      · rintro ⟨-, rfl, rfl⟩; exact ⟨rfl, rfl⟩
  | cons kv es ih =>
    obtain ⟨k, v⟩ := kv
    have hread : ∀ (hk : k.name? ≠ none) (hv : k.name? ≠ some IDENTIFIER → k.name? ≠ some SECRET →
        f.ignored v = .ok ()), Readable f ⟨(k, v) :: es, «end»⟩ ↔ Readable f ⟨es, «end»⟩ := by
      intro hk hv
      constructor
      · rintro ⟨h1, h2, h3⟩
        exact ⟨h1, fun e he => h2 e (List.mem_cons_of_mem _ he),
          fun e he => h3 e (List.mem_cons_of_mem _ he)⟩
      · rintro ⟨h1, h2, h3⟩
        refine ⟨h1, ?_, ?_⟩
        · intro e he
          rcases List.mem_cons.mp he with rfl | he
          · exact hk
          · exact h2 e he
        · intro e he
          rcases List.mem_cons.mp he with rfl | he
          · exact hv
          · exact h3 e he
    simp only [visitMapLoop]
    rcases key_cases k with ⟨e, rfl⟩ | ⟨h1, h2⟩ | ⟨h1, h2⟩ | ⟨h0, h1, h1', h2⟩
    · constructor
      · intro h; simp [Field.deserialize, bind, Except.bind] at h
      · rintro ⟨⟨-, h, -⟩, -⟩; exact absurd rfl (h _ (List.mem_cons_self ..))
    · rw [valuesNamed_cons IDENTIFIER, valuesNamed_cons SECRET, if_pos h1,
        if_neg (c := k.name? = some SECRET) (by rw [h1]; exact identifier_ne_secret), got_cons,
        hread (by simp [h1]) (fun h => absurd h1 h)]
      simp only [h2, bind, Except.bind]
      cases i with
      | some x => simp
      | none =>
        simp only [Option.isSome_none, Bool.false_eq_true, if_false, true_and]
        cases hv : f.value v with
        | error e => simp [liftErr]
        | ok x =>
          simp only [liftErr, ih]
          constructor
          · rintro ⟨a, b, c⟩; first | exact ⟨a, ⟨x, rfl, b⟩, c⟩ | exact ⟨a, b, x, rfl, c⟩
          · rintro ⟨a, b, c⟩
            first
              | (obtain ⟨y, hy, b⟩ := b; cases hy; exact ⟨a, b, c⟩)
              | (obtain ⟨y, hy, c⟩ := c; cases hy; exact ⟨a, b, c⟩)
    · rw [valuesNamed_cons IDENTIFIER, valuesNamed_cons SECRET, if_pos h1,
        if_neg (c := k.name? = some IDENTIFIER) (by rw [h1]; exact identifier_ne_secret.symm), got_cons,
        hread (by simp [h1]) (fun _ h => absurd h1 h)]
      simp only [h2, bind, Except.bind]
      cases s with
      | some x => simp
      | none =>
        simp only [Option.isSome_none, Bool.false_eq_true, if_false, true_and]
        cases hv : f.value v with
        | error e => simp [liftErr]
        | ok x =>
          simp only [liftErr, ih]
          constructor
          · rintro ⟨a, b, c⟩; first | exact ⟨a, ⟨x, rfl, b⟩, c⟩ | exact ⟨a, b, x, rfl, c⟩
          · rintro ⟨a, b, c⟩
            first
              | (obtain ⟨y, hy, b⟩ := b; cases hy; exact ⟨a, b, c⟩)
              | (obtain ⟨y, hy, c⟩ := c; cases hy; exact ⟨a, b, c⟩)
    · rw [valuesNamed_cons IDENTIFIER, valuesNamed_cons SECRET, if_neg h1, if_neg h1']
      simp only [h2, bind, Except.bind]
      cases hv : f.ignored v with
      | error e =>
        constructor
        · intro h; simp [liftErr] at h
        · rintro ⟨⟨-, -, h⟩, -⟩
          have := h (k, v) (List.mem_cons_self ..) h1 h1'
          rw [hv] at this; cases this
      | ok u =>
        rw [hread h0 (fun _ _ => hv)]
        exact ih i s

/-- C39: deserialization succeeds with `c` if and only if the input is readable and each of
`oauth_token` and `oauth_token_secret` occurs exactly once, with a value that converts to the respective
string of `c`. -/
theorem C39_success_iff (f : Format V T E) (input : Input V E) (c : Credentials T) :
    deserialize f input = .ok c ↔
      Readable f input ∧
      (∃ v, valuesNamed b!"oauth_token" input.entries = [v] ∧ f.value v = .ok c.identifier) ∧
      (∃ v, valuesNamed b!"oauth_token_secret" input.entries = [v] ∧ f.value v = .ok c.secret) := by
  have hgot : ∀ vals x, Got f vals none (some x) ↔ ∃ v, vals = [v] ∧ f.value v = .ok x := by
    intro vals x
    cases vals with
    | nil => simp [Got]
    | cons v vs =>
      simp only [Got, true_and, List.cons.injEq]
      constructor
      · rintro ⟨y, h, rfl, hy⟩; cases hy; exact ⟨v, ⟨rfl, rfl⟩, h⟩
      · rintro ⟨u, ⟨rfl, rfl⟩, h⟩; exact ⟨x, h, rfl, rfl⟩
  have hloop := loop_ok_iff f input.end input.entries none none (some c.identifier) (some c.secret)
  rw [hgot, hgot] at hloop
  rw [show (b!"oauth_token" : Bytes) = IDENTIFIER from rfl,
    show (b!"oauth_token_secret" : Bytes) = SECRET from rfl, ← hloop]
  unfold deserialize
  cases visitMapLoop f input.end input.entries none none with
  | error e => simp [bind, Except.bind]
  | ok r =>
    obtain ⟨i, s⟩ := r
    cases i with
    | none => simp [bind, Except.bind, okOr]
    | some i =>
      cases s with
      | none => simp [bind, Except.bind, okOr]
      | some s =>
        obtain ⟨ci, cs⟩ := c
        simp [bind, Except.bind, okOr]

/-- Values that are texts; one that starts with `!` cannot be read. -/
def textFormat : Format Bytes Bytes Unit :=
  ⟨fun v => if v.head? = some 0x21 then .error () else .ok v, fun _ => .ok ()⟩

/-- A response with a third entry. -/
def textInput : Input Bytes Unit :=
  ⟨[(.str b!"oauth_token_secret", b!"s"), (.bytes b!"x", b!"!"), (.str b!"oauth_token", b!"t")], .ok ()⟩

theorem textInput_readable : Readable textFormat textInput :=
  ⟨rfl, by decide, fun _ _ _ _ => rfl⟩

example : deserialize textFormat textInput = .ok ⟨b!"t", b!"s"⟩ :=
  (C39_success_iff _ _ _).mpr ⟨textInput_readable, ⟨_, rfl, rfl⟩, ⟨_, rfl, rfl⟩⟩

theorem valuesNamed_perm {n : Bytes} {es es' : List (Key E × V)} (h : es.Perm es') :
    (valuesNamed n es).Perm (valuesNamed n es') := (h.filter _).map _

/-- C39: the result does not depend on the order of the entries. -/
theorem C39_order_independent (f : Format V T E) («end» : Except E Unit) {es es' : List (Key E × V)}
    (h : es.Perm es') (c : Credentials T) :
    deserialize f ⟨es, «end»⟩ = .ok c ↔ deserialize f ⟨es', «end»⟩ = .ok c := by
  suffices key : ∀ {es es' : List (Key E × V)}, es.Perm es' →
      deserialize f ⟨es, «end»⟩ = .ok c → deserialize f ⟨es', «end»⟩ = .ok c from
    ⟨key h, key h.symm⟩
  intro es es' h
  rw [C39_success_iff, C39_success_iff]
  rintro ⟨⟨h1, h2, h3⟩, ⟨v, hv, hv'⟩, ⟨u, hu, hu'⟩⟩
  refine ⟨⟨h1, fun e he => h2 e (h.mem_iff.mpr he), fun e he => h3 e (h.mem_iff.mpr he)⟩,
    ⟨v, ?_, hv'⟩, ⟨u, ?_, hu'⟩⟩
  · have := valuesNamed_perm (n := b!"oauth_token") h
    rw [hv] at this
    exact List.perm_singleton.mp this.symm
  · have := valuesNamed_perm (n := b!"oauth_token_secret") h
    rw [hu] at this
    exact List.perm_singleton.mp this.symm

example : deserialize textFormat ⟨textInput.entries.reverse, .ok ()⟩ = .ok ⟨b!"t", b!"s"⟩ :=
  (C39_order_independent _ _ (List.reverse_perm _) _).mpr rfl

/-- C39: other entries may stand anywhere. -/
theorem C39_others_ignored (f : Format V T E) («end» : Except E Unit) (xs ys : List (Key E × V))
    (k : Key E) (v : V) (hk : k.name? ≠ none) (h1 : k.name? ≠ some b!"oauth_token")
    (h2 : k.name? ≠ some b!"oauth_token_secret") (hv : f.ignored v = .ok ()) (c : Credentials T) :
    deserialize f ⟨xs ++ (k, v) :: ys, «end»⟩ = .ok c ↔ deserialize f ⟨xs ++ ys, «end»⟩ = .ok c := by
  rw [C39_order_independent f «end» (List.perm_middle (l₁ := xs) (a := (k, v)) (l₂ := ys)) c,
    C39_success_iff, C39_success_iff]
  simp only [valuesNamed_cons, if_neg h1, if_neg h2]
  constructor
  · rintro ⟨⟨a1, a2, a3⟩, h⟩
    exact ⟨⟨a1, fun e he => a2 e (List.mem_cons_of_mem _ he),
      fun e he => a3 e (List.mem_cons_of_mem _ he)⟩, h⟩
  · rintro ⟨⟨a1, a2, a3⟩, h⟩
    refine ⟨⟨a1, ?_, ?_⟩, h⟩
    · intro e he
      rcases List.mem_cons.mp he with rfl | he
      · exact hk
      · exact a2 e he
    · intro e he
      rcases List.mem_cons.mp he with rfl | he
      · exact fun _ _ => hv
      · exact a3 e he

example : deserialize textFormat ⟨[(.str b!"oauth_token_secret", b!"s"), (.str b!"oauth_token", b!"t")],
    .ok ()⟩ = .ok ⟨b!"t", b!"s"⟩ :=
  (C39_others_ignored textFormat _ [(.str b!"oauth_token_secret", b!"s")] [(.str b!"oauth_token", b!"t")]
    (.bytes b!"x") b!"!" (by decide) (by decide) (by decide) rfl _).mp rfl

/-! #### Errors -/

/-- How often a name may still occur. -/
def seen (o : Option T) : Nat := if o.isSome then 1 else 0

theorem loop_duplicate (f : Format V T E) («end» : Except E Unit) (es : List (Key E × V))
    (i s : Option T) (n : Bytes) (h : visitMapLoop f «end» es i s = .error (.duplicateField n)) :
    (n = IDENTIFIER ∧ 2 ≤ seen i + (valuesNamed IDENTIFIER es).length) ∨
    (n = SECRET ∧ 2 ≤ seen s + (valuesNamed SECRET es).length) := by
  induction es generalizing i s with
  | nil => cases «end» <;> simp [visitMapLoop, liftErr, bind, Except.bind] at h
  | cons kv es ih =>
    obtain ⟨k, v⟩ := kv
    simp only [visitMapLoop] at h
    rcases key_cases k with ⟨e, rfl⟩ | ⟨h1, h2⟩ | ⟨h1, h2⟩ | ⟨h0, h1, h1', h2⟩
    · simp [Field.deserialize, bind, Except.bind] at h
    · simp only [h2, bind, Except.bind] at h
      rw [valuesNamed_cons, valuesNamed_cons, if_pos h1,
        if_neg (by rw [h1]; exact identifier_ne_secret)]
      cases i with
      | some x =>
        simp only [Option.isSome_some, if_true, Except.error.injEq, Error.duplicateField.injEq] at h
        exact .inl ⟨h.symm, by simp [seen]; omega⟩
      | none =>
        simp only [Option.isSome_none, Bool.false_eq_true, if_false] at h
        cases hv : f.value v with
        | error e => simp [hv, liftErr] at h
        | ok x =>
          simp only [hv, liftErr] at h
          rcases ih _ _ h with ⟨a, b⟩ | ⟨a, b⟩
          · exact .inl ⟨a, by simp [seen] at b ⊢; omega⟩
          · exact .inr ⟨a, b⟩
    · simp only [h2, bind, Except.bind] at h
      rw [valuesNamed_cons, valuesNamed_cons, if_pos h1,
        if_neg (by rw [h1]; exact identifier_ne_secret.symm)]
      cases s with
      | some x =>
        simp only [Option.isSome_some, if_true, Except.error.injEq, Error.duplicateField.injEq] at h
        exact .inr ⟨h.symm, by simp [seen]; omega⟩
      | none =>
        simp only [Option.isSome_none, Bool.false_eq_true, if_false] at h
        cases hv : f.value v with
        | error e => simp [hv, liftErr] at h
        | ok x =>
          simp only [hv, liftErr] at h
          rcases ih _ _ h with ⟨a, b⟩ | ⟨a, b⟩
          · exact .inl ⟨a, b⟩
          · exact .inr ⟨a, by simp [seen] at b ⊢; omega⟩
    · simp only [h2, bind, Except.bind] at h
      rw [valuesNamed_cons, valuesNamed_cons, if_neg h1, if_neg h1']
      cases hv : f.ignored v with
      | error e => simp [hv, liftErr] at h
      | ok u =>
        simp only [hv, liftErr] at h
        exact ih _ _ h

theorem loop_not_missing (f : Format V T E) («end» : Except E Unit) (es : List (Key E × V))
    (i s : Option T) (n : Bytes) : visitMapLoop f «end» es i s ≠ .error (.missingField n) := by
  induction es generalizing i s with
  | nil => cases «end» <;> simp [visitMapLoop, liftErr, bind, Except.bind]
  | cons kv es ih =>
    obtain ⟨k, v⟩ := kv
    intro h
    simp only [visitMapLoop] at h
    rcases key_cases k with ⟨e, rfl⟩ | ⟨-, h2⟩ | ⟨-, h2⟩ | ⟨-, -, -, h2⟩
    · simp [Field.deserialize, bind, Except.bind] at h
    · simp only [h2, bind, Except.bind] at h
      split at h
      · simp at h
      · cases hv : f.value v with
        | error e => simp [hv, liftErr] at h
        | ok x => simp only [hv, liftErr] at h; exact ih _ _ h
    · simp only [h2, bind, Except.bind] at h
      split at h
      · simp at h
      · cases hv : f.value v with
        | error e => simp [hv, liftErr] at h
        | ok x => simp only [hv, liftErr] at h; exact ih _ _ h
    · simp only [h2, bind, Except.bind] at h
      cases hv : f.ignored v with
      | error e => simp [hv, liftErr] at h
      | ok x => simp only [hv, liftErr] at h; exact ih _ _ h

/-- C39: an error that names a field tells the truth, whatever the input: a field reported as duplicate
occurs twice, a field reported as missing does not occur. -/
theorem C39_errors_truthful (f : Format V T E) (input : Input V E) (n : Bytes) :
    (deserialize f input = .error (.duplicateField n) →
      (n = b!"oauth_token" ∨ n = b!"oauth_token_secret") ∧
        2 ≤ (valuesNamed n input.entries).length) ∧
    (deserialize f input = .error (.missingField n) →
      (n = b!"oauth_token" ∨ n = b!"oauth_token_secret") ∧ valuesNamed n input.entries = []) := by
  unfold deserialize
  cases hl : visitMapLoop f input.end input.entries none none with
  | error e =>
    simp only [bind, Except.bind, Except.error.injEq]
    constructor
    · rintro rfl
      rcases loop_duplicate f _ _ _ _ _ hl with ⟨rfl, h⟩ | ⟨rfl, h⟩
      · exact ⟨.inl rfl, by simpa [seen] using h⟩
      · exact ⟨.inr rfl, by simpa [seen] using h⟩
    · rintro rfl; exact absurd hl (loop_not_missing f _ _ _ _ _)
  | ok r =>
    obtain ⟨i, s⟩ := r
    obtain ⟨-, g1, g2⟩ := (loop_ok_iff f _ _ _ _ _ _).mp hl
    have hnone : ∀ vals : List V, Got f vals none none → vals = [] := by
      intro vals h
      cases vals with
      | nil => rfl
      | cons v vs => obtain ⟨-, x, -, -, hx⟩ := h; cases hx
    cases i with
    | none =>
      simp only [bind, Except.bind, okOr, Except.error.injEq]
      refine ⟨fun h => by simp at h, fun h => ?_⟩
      simp only [Error.missingField.injEq] at h
      subst h
      exact ⟨.inl rfl, hnone _ g1⟩
    | some i =>
      cases s with
      | none =>
        simp only [bind, Except.bind, okOr, Except.error.injEq]
        refine ⟨fun h => by simp at h, fun h => ?_⟩
        simp only [Error.missingField.injEq] at h
        subst h
        exact ⟨.inr rfl, hnone _ g2⟩
      | some s => simp [bind, Except.bind, okOr]

example : 2 ≤ (valuesNamed b!"oauth_token"
    [((.str b!"oauth_token" : Key Unit), b!"t"), (.bytes b!"oauth_token", b!"t")]).length :=
  ((C39_errors_truthful textFormat ⟨_, .ok ()⟩ _).1 rfl).2

/-- The loop fails for no other reason than a duplicate if everything is readable and convertible. -/
theorem loop_clean (f : Format V T E) («end» : Except E Unit) (es : List (Key E × V)) (i s : Option T)
    (hr : Readable f ⟨es, «end»⟩) (hv : ∀ e ∈ es, ∃ x, f.value e.2 = .ok x) :
    (∃ r, visitMapLoop f «end» es i s = .ok r) ∨
      ∃ n, visitMapLoop f «end» es i s = .error (.duplicateField n) := by
  induction es generalizing i s with
  | nil =>
    left
    have := hr.ends
    simp only at this
    subst this
    exact ⟨(i, s), rfl⟩
  | cons kv es ih =>
    obtain ⟨k, v⟩ := kv
    have hr' : Readable f ⟨es, «end»⟩ :=
      ⟨hr.ends, fun e he => hr.keys e (List.mem_cons_of_mem _ he),
        fun e he => hr.others e (List.mem_cons_of_mem _ he)⟩
    have hv' : ∀ e ∈ es, ∃ x, f.value e.2 = .ok x := fun e he => hv e (List.mem_cons_of_mem _ he)
    obtain ⟨x, hx⟩ := hv (k, v) (List.mem_cons_self ..)
    simp only [visitMapLoop]
    rcases key_cases k with ⟨e, rfl⟩ | ⟨-, h2⟩ | ⟨-, h2⟩ | ⟨-, h1, h1', h2⟩
    · exact absurd rfl (hr.keys _ (List.mem_cons_self ..))
    · simp only [h2, bind, Except.bind]
      split
      · exact .inr ⟨_, rfl⟩
      · simp only [hx, liftErr]; exact ih _ _ hr' hv'
    · simp only [h2, bind, Except.bind]
      split
      · exact .inr ⟨_, rfl⟩
      · simp only [hx, liftErr]; exact ih _ _ hr' hv'
    · simp only [h2, bind, Except.bind, hr.others (k, v) (List.mem_cons_self ..) h1 h1', liftErr]
      exact ih _ _ hr' hv'

/-- C39: on readable input with convertible values, a repeated field is reported as a duplicate, and
otherwise an absent field is reported as missing, `oauth_token` first. -/
theorem C39_errors_complete (f : Format V T E) (input : Input V E) (hr : Readable f input)
    (hv : ∀ e ∈ input.entries, ∃ x, f.value e.2 = .ok x) :
    let ids := valuesNamed b!"oauth_token" input.entries
    let secrets := valuesNamed b!"oauth_token_secret" input.entries
    (2 ≤ ids.length ∨ 2 ≤ secrets.length → ∃ n, deserialize f input = .error (.duplicateField n)) ∧
    (secrets.length ≤ 1 → ids = [] →
      deserialize f input = .error (.missingField b!"oauth_token")) ∧
    (ids.length = 1 → secrets = [] →
      deserialize f input = .error (.missingField b!"oauth_token_secret")) := by
  intro ids secrets
  obtain ⟨es, «end»⟩ := input
  unfold deserialize
  rcases loop_clean f «end» es none none hr hv with ⟨⟨i, s⟩, hl⟩ | ⟨n, hl⟩
  · obtain ⟨-, g1, g2⟩ := (loop_ok_iff f _ _ _ _ _ _).mp hl
    have hlen : ∀ (vals : List V) (o : Option T), Got f vals none o →
        vals.length ≤ 1 ∧ (vals = [] → o = none) ∧ (vals.length = 1 → ∃ x, o = some x) := by
      intro vals o h
      cases vals with
      | nil => simp only [Got] at h; simp [h]
      | cons v vs => obtain ⟨-, x, -, rfl, rfl⟩ := h; simp
    obtain ⟨l1, n1, s1⟩ := hlen _ _ g1
    obtain ⟨l2, n2, s2⟩ := hlen _ _ g2
    have l1' : ids.length ≤ 1 := l1
    have l2' : secrets.length ≤ 1 := l2
    refine ⟨fun h => by omega, fun _ h => ?_, fun h h' => ?_⟩
    · have hi := n1 h
      subst hi
      simp only [hl, bind, Except.bind, okOr]; rfl
    · obtain ⟨x, rfl⟩ := s1 h
      have hs := n2 h'
      subst hs
      simp only [hl, bind, Except.bind, okOr]; rfl
  · have hd := loop_duplicate f _ _ _ _ _ hl
    refine ⟨fun _ => ⟨n, by simp only [hl, bind, Except.bind]⟩, fun h h' => ?_, fun h h' => ?_⟩
    · rcases hd with ⟨-, h''⟩ | ⟨-, h''⟩
      · have : ids.length = (valuesNamed IDENTIFIER es).length := rfl
        simp [h', seen] at this h''; omega
      · have : secrets.length = (valuesNamed SECRET es).length := rfl
        simp [seen] at h''; omega
    · rcases hd with ⟨-, h''⟩ | ⟨-, h''⟩
      · have : ids.length = (valuesNamed IDENTIFIER es).length := rfl
        simp [seen] at h''; omega
      · have : secrets.length = (valuesNamed SECRET es).length := rfl
        simp [h', seen] at this h''; omega

example : deserialize textFormat ⟨[(.str b!"x", b!"1"), (.str b!"oauth_token", b!"t")], .ok ()⟩ =
    .error (.missingField b!"oauth_token_secret") :=
  (C39_errors_complete textFormat _ ⟨rfl, by decide, fun _ _ _ _ => rfl⟩
    (fun e he => ⟨e.2, by
      rw [show textFormat.value e.2 = if e.2.head? = some 0x21 then .error () else .ok e.2 from rfl,
        if_neg ((by decide : ∀ e ∈ [((.str b!"x" : Key Unit), b!"1"), (.str b!"oauth_token", b!"t")],
          e.2.head? ≠ some 0x21) e he)]⟩)).2.2 rfl rfl

/-! #### Round trip -/

/-- C39: what is serialized is deserialized to the same credentials, also when flattened into a larger
map with other entries before and after, by every format that returns values unchanged. -/
theorem C39_round_trip (f : Format V T E) (ser : T → Except E V)
    (hser : ∀ x v, ser x = .ok v → f.value v = .ok x) (c : Credentials T) (fields : List (Bytes × V))
    (hs : serialize ser c = .ok fields) (before after : List (Bytes × V))
    (hother : ∀ e ∈ before ++ after, e.1 ≠ b!"oauth_token" ∧ e.1 ≠ b!"oauth_token_secret" ∧
      f.ignored e.2 = .ok ()) :
    deserialize f ⟨(before ++ fields ++ after).map fun e => (Key.str e.1, e.2), .ok ()⟩ = .ok c := by
  unfold serialize at hs
  cases h1 : ser c.identifier with
  | error e => simp [h1, bind, Except.bind] at hs
  | ok i =>
    cases h2 : ser c.secret with
    | error e => simp [h1, h2, bind, Except.bind] at hs
    | ok s =>
      simp only [h1, h2, bind, Except.bind, Except.ok.injEq] at hs
      subst hs
      rw [C39_success_iff]
      have hnone : ∀ (l : List (Bytes × V)) (n : Bytes), (∀ e ∈ l, e.1 ≠ n) →
          valuesNamed (E := E) n (l.map fun e => (Key.str e.1, e.2)) = [] := by
        intro l n h
        induction l with
        | nil => rfl
        | cons e l ih =>
          rw [List.map_cons, valuesNamed_cons,
            if_neg (by simpa [Key.name?] using h e (List.mem_cons_self ..)),
            ih fun e he => h e (List.mem_cons_of_mem _ he)]
      have happ : ∀ (xs ys : List (Key E × V)) (n : Bytes),
          valuesNamed n (xs ++ ys) = valuesNamed n xs ++ valuesNamed n ys := by
        intro xs ys n; simp [valuesNamed]
      refine ⟨⟨rfl, ?_, ?_⟩, ⟨i, ?_, hser _ _ h1⟩, ⟨s, ?_, hser _ _ h2⟩⟩
      · simp only [List.mem_map]
        rintro e ⟨x, -, rfl⟩; simp [Key.name?]
      · simp only [List.mem_map]
        rintro e ⟨x, hx, rfl⟩ n1 n2
        simp only [Key.name?, ne_eq, Option.some.injEq] at n1 n2
        simp only [List.mem_append, List.mem_cons, List.not_mem_nil, or_false] at hx
        rcases hx with (hx | rfl | rfl) | hx
        · exact (hother x (by simp [hx])).2.2
        · exact absurd rfl n1
        · exact absurd rfl n2
        · exact (hother x (by simp [hx])).2.2
      · simp only [List.map_append, happ]
        rw [hnone before, hnone after]
        · rfl
        · intro e he; exact (hother e (by simp [he])).1
        · intro e he; exact (hother e (by simp [he])).1
      · simp only [List.map_append, happ]
        rw [hnone before, hnone after]
        · rfl
        · intro e he; exact (hother e (by simp [he])).2.1
        · intro e he; exact (hother e (by simp [he])).2.1

/-- A concrete format: strings. -/
def stringFormat : Format Bytes Bytes Unit := ⟨.ok, fun _ => .ok ()⟩

/-- The response in the documentation of the implementation (serde_imp.rs l.30-45), and failures. -/
example :
    deserialize stringFormat ⟨[(.str b!"oauth_token", b!"token"),
      (.str b!"oauth_token_secret", b!"secret"), (.str b!"oauth_callback_confirmed", b!"true")],
      .ok ()⟩ = .ok ⟨b!"token", b!"secret"⟩ ∧
    deserialize stringFormat ⟨[(.str b!"oauth_token", b!"token"), (.str b!"oauth_token", b!"t")],
      .ok ()⟩ = .error (.duplicateField b!"oauth_token") ∧
    deserialize stringFormat ⟨[(.bytes b!"oauth_token", b!"token")], .ok ()⟩ =
      .error (.missingField b!"oauth_token_secret") := by
  refine ⟨rfl, rfl, rfl⟩

example : Readable stringFormat ⟨[(.str b!"x", b!"1")], .ok ()⟩ :=
  ⟨rfl, by simp [Key.name?], fun _ _ _ _ => rfl⟩

end OAuth
