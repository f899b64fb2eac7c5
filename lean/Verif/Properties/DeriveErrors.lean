import Verif.Properties.DeriveScope
import Verif.Properties.Exact
import Verif.Spec.DeriveErrors

/-
C59: the macro reports all errors at once, and panics only if the crate cannot be named.
-/

namespace OAuth

open Spec Derive

variable {τ : Type}

/-- `crate = path`, as an item of an attribute of the struct. -/
def crateItem (p : ExprPath) : Meta :=
  ⟨{ leadingColon := false, segments := [(b!"crate", false)] }, .nameValue (.path p)⟩

theorem container_addMeta_iff (m m' : ContainerMeta) (x : Meta) : m.addMeta x = .ok m' ↔
    m.krate = none ∧ ∃ p, x = crateItem p ∧ m' = ⟨some p⟩ := by
  constructor
  · intro h
    unfold ContainerMeta.addMeta at h
    split at h
    · cases h
    · next name hid =>
      rw [getIdent_iff] at hid
      split at h
      · next hn =>
        subst hn
        obtain ⟨v, hv, h⟩ := Except.bind_ok_iff.mp h
        obtain ⟨e, w, h1, h2, h3, h4⟩ := (valueArm_ok_iff _ _ _ _ _).mp hv
        cases h
        rw [pathFromExpr_ok_iff] at h2
        subst h2
        refine ⟨h3, w, ?_, by rw [h4]⟩
        cases x; simp only at hid h1; rw [hid, h1]; rfl
      · cases h
  · rintro ⟨h1, p, rfl, rfl⟩
    simp [crateItem, ContainerMeta.addMeta, Path.getIdent, valueArm, pathFromExpr, h1, Except.ok_bind']

theorem container_items (items : List Meta) (m : ContainerMeta) (cx : Ctxt) :
    (foldItems ContainerMeta.addMeta items (m, cx)).1.krate = none ↔
      m.krate = none ∧ ∀ p, crateItem p ∉ items := by
  induction items generalizing m cx with
  | nil => simp [foldItems]
  | cons x xs ih =>
    cases h : m.addMeta x with
    | ok m' =>
      have e : foldItems ContainerMeta.addMeta (x :: xs) (m, cx) =
          foldItems ContainerMeta.addMeta xs (m', cx) := by simp [foldItems, h]
      rw [e, ih]
      obtain ⟨h1, p, rfl, rfl⟩ := (container_addMeta_iff _ _ _).mp h
      constructor
      · rintro ⟨h2, -⟩; cases h2
      · rintro ⟨-, h2⟩; exact absurd (List.mem_cons_self) (h2 p)
    | error e =>
      have e : foldItems ContainerMeta.addMeta (x :: xs) (m, cx) =
          foldItems ContainerMeta.addMeta xs (m, cx.addError e) := by simp [foldItems, h]
      rw [e, ih]
      refine and_congr_right fun hm => forall_congr' fun p => ?_
      have : crateItem p ≠ x := by
        rintro rfl
        rw [(container_addMeta_iff m ⟨some p⟩ _).mpr ⟨hm, p, rfl, rfl⟩] at h
        cases h
      simp [this]

theorem container_none_iff {S : Syn τ} (hS : Lawful S) (attrs : List (Attribute τ)) (m : ContainerMeta)
    (cx cx' : Ctxt) (info : ContainerMeta)
    (h : newMeta S ContainerMeta.addMeta attrs m cx = .ok (info, cx')) :
    info.krate = none ↔ m.krate = none ∧ ∀ p, crateItem p ∉ attributeItems S attrs := by
  induction attrs generalizing m cx with
  | nil =>
    simp only [newMeta, Except.ok.injEq, Prod.mk.injEq] at h
    simp [h.1, attributeItems]
  | cons a attrs ih =>
    by_cases ha : a.path.getIdent = some b!"oauth1"
    · have ha' := (isOauth1_iff a).mpr ha
      obtain ⟨r, hr⟩ := parseArgs_ok hS a
      simp only [newMeta, ha, if_true, hr, Except.ok_bind'] at h
      cases r with
      | error e =>
        have hitems : attributeItems S (a :: attrs) = attributeItems S attrs := by
          simp [attributeItems, ha', argItems, hr]
        rw [hitems]; exact ih _ _ h
      | ok list =>
        have hitems : attributeItems S (a :: attrs) = list ++ attributeItems S attrs := by
          simp [attributeItems, ha', argItems, hr]
        rw [ih _ _ h, hitems]
        refine Iff.trans (and_congr_left' (container_items list m cx)) ?_
        simp only [List.mem_append, not_or, forall_and, and_assoc]
    · have ha' : isOauth1 a = false := isOauth1_false ha
      have hitems : attributeItems S (a :: attrs) = attributeItems S attrs := by
        simp [attributeItems, ha']
      simp only [newMeta, ha, if_false] at h
      rw [hitems]; exact ih _ _ h

/-- The name by which the library is imported if the struct does not say, if there is one. -/
def defaultCrate : CrateLookup → Option Bytes
  | .name k => some k
  | .itself k => k
  | .manifestDirNotSet => some b!"oauth1_request"
  | .failed => some b!"oauth1_request"

theorem importOf_error_iff (lookup : CrateLookup) (isIdent : Bytes → Bool) (info : ContainerMeta)
    (cx : Ctxt) : (∃ e, importOf lookup isIdent info cx = .error e) ↔
      info.krate = none ∧ ∀ k, defaultCrate lookup = some k → isIdent k = false := by
  unfold importOf
  cases info.krate with
  | some p => simp
  | none =>
    cases lookup with
    | name k => by_cases h : isIdent k = true <;> simp [h, defaultCrate]
    | itself c =>
      cases c with
      | none => simp [defaultCrate]
      | some k => by_cases h : isIdent k = true <;> simp [h, defaultCrate]
    | manifestDirNotSet =>
      by_cases h : isIdent b!"oauth1_request" = true <;> simp [h, defaultCrate]
    | failed => by_cases h : isIdent b!"oauth1_request" = true <;> simp [h, defaultCrate]

theorem reported_kind (fs : List Field) (prev : Bytes) (e : Err) (h : e ∈ reported fs prev) :
    ∃ n, e = .duplicateParameter n := by
  induction fs generalizing prev with
  | nil => cases h
  | cons f fs ih =>
    simp only [reported, List.mem_append] at h
    rcases h with h | h
    · split at h
      · exact ⟨_, List.mem_singleton.mp h⟩
      · cases h
    · exact ih _ h

/-- What the macro returns for a struct. -/
theorem expand_eq (cfg : Cfg) {S : Syn τ} (hS : Lawful S) (lookup : CrateLookup)
    (isIdent : Bytes → Bool) (attrs : List (Attribute τ)) (fs : List (SynField τ)) :
    ∃ info es, ContainerMeta.new S attrs [] = .ok (info, es) ∧
      expand cfg S lookup isIdent ⟨attrs, some fs⟩ =
        (importOf lookup isIdent info []).map fun (i, es') =>
          let all := fs.flatMap (fieldErrors S) ++ reported (sortByName (fs.map (understood S))) [] ++
            es ++ es'
          if all = [] then .impl i (weaveStmts allProto (kept (sortByName (fs.map (understood S)))))
          else .errors all true := by
  obtain ⟨info, es, hc⟩ := container_eq hS attrs
  refine ⟨info, es, by simp [hc], ?_⟩
  unfold expand
  simp only [newFields_eq hS, Except.ok_bind', checkDuplicates_eq, hc, List.nil_append]
  rcases importOf_cx lookup isIdent info with ⟨e, he⟩ | ⟨j, es', hi⟩
  · simp only [he]; rfl
  · simp only [hi, Except.ok_bind', List.nil_append, Except.map, List.append_assoc]
    split
    · next h => simp
    · next h =>
      rw [Decidable.not_not] at h
      simp [h, methodBody_eq, Except.ok_bind']

/-- C59: the macro panics if and only if it is given a struct that does not say where to find the
library, and the lookup of the library gives no identifier. -/
theorem C59_panics_iff (cfg : Cfg) {S : Syn τ} (hS : Lawful S) (lookup : CrateLookup)
    (isIdent : Bytes → Bool) (item : Derive.Item τ) :
    (∃ e, expandItem cfg S lookup isIdent item = .error e) ↔
      item.fields.isSome ∧ (∀ p, crateItem p ∉ attributeItems S item.attrs) ∧
        ∀ k, defaultCrate lookup = some k → isIdent k = false := by
  obtain ⟨⟨attrs, fields⟩, name, g⟩ := item
  have hpass : (∃ e, expandItem cfg S lookup isIdent ⟨⟨attrs, fields⟩, name, g⟩ = .error e) ↔
      ∃ e, expand cfg S lookup isIdent ⟨attrs, fields⟩ = .error e := by
    unfold expandItem
    cases expand cfg S lookup isIdent ⟨attrs, fields⟩ with
    | error e => simp [Except.error_bind']
    | ok x => cases x <;> simp [Except.ok_bind']
  rw [hpass]
  cases fields with
  | none => simp [expand]
  | some fs =>
    obtain ⟨info, es, hc, he⟩ := expand_eq cfg hS lookup isIdent attrs fs
    rw [he]
    have h1 := container_none_iff hS attrs {} [] es info hc
    simp only [true_and, Option.isSome_some] at h1 ⊢
    rw [← h1, ← importOf_error_iff lookup isIdent info []]
    cases importOf lookup isIdent info [] <;> simp [Except.map]

/-- C59: if the macro returns, it has looked at everything: the errors are those of the attributes of
each field, the duplicate names, those of the attributes of the struct, and a failed lookup; the struct is
accepted if there are none. -/
theorem C59_all_errors (cfg : Cfg) {S : Syn τ} (hS : Lawful S) (lookup : CrateLookup)
    (isIdent : Bytes → Bool) (item : Derive.Item τ) (fs : List (SynField τ)) (x : ItemExpansion)
    (hfs : item.fields = some fs) (hx : expandItem cfg S lookup isIdent item = .ok x) :
    ∃ errs, ((∃ h i body, x = .impl h i body) ↔ errs = []) ∧
      (errs ≠ [] → ∃ h, x = .errors errs (some h)) ∧
      ∀ e, e ∈ errs ↔
        (∃ f ∈ fs, ∃ g es, Field.new S f [] = .ok (g, es) ∧ e ∈ es) ∨
        (∃ n gs cx, newFields S fs [] = .ok (gs, cx) ∧ e = .duplicateParameter n ∧
          2 ≤ ([] :: gs.map parameterName).count n) ∨
        (∃ info es, ContainerMeta.new S item.attrs [] = .ok (info, es) ∧ e ∈ es) ∨
        (e = .crateLookup ∧ lookup = .failed ∧ ∀ p, crateItem p ∉ attributeItems S item.attrs) := by
  obtain ⟨⟨attrs, fields⟩, name, g⟩ := item
  subst hfs
  obtain ⟨info, es, hc, he⟩ := expand_eq cfg hS lookup isIdent attrs fs
  have hkr := container_none_iff hS attrs {} [] es info hc
  simp only [true_and] at hkr
  cases hi : importOf lookup isIdent info [] with
  | error e' =>
    rw [hi] at he
    simp only [expandItem, he, Except.map, Except.error_bind'] at hx
    cases hx
  | ok r =>
    obtain ⟨i, es'⟩ := r
    rw [hi] at he
    simp only [Except.map] at he
    refine ⟨fs.flatMap (fieldErrors S) ++ reported (sortByName (fs.map (understood S))) [] ++
            es ++ es', ?_, ?_, ?_⟩
    · unfold expandItem at hx
      simp only [he, Except.ok_bind'] at hx
      split at hx
      · next hs =>
        cases hx
        constructor
        · rintro ⟨_, _, _, h⟩; cases h
        · intro h; rw [if_pos h] at hs; cases hs
      · next hs =>
        cases hx
        refine ⟨fun _ => ?_, fun _ => ⟨_, _, _, rfl⟩⟩
        split at hs
        · assumption
        · cases hs
    · intro hne
      unfold expandItem at hx
      simp only [he, Except.ok_bind', if_neg hne, if_true] at hx
      cases hx
      exact ⟨_, rfl⟩
    · intro e
      simp only [List.mem_append]
      have h1 : e ∈ fs.flatMap (fieldErrors S) ↔
          ∃ f ∈ fs, ∃ g es, Field.new S f [] = .ok (g, es) ∧ e ∈ es := by
        rw [List.mem_flatMap]
        refine exists_congr fun f => and_congr_right fun _ => ?_
        rw [fieldNew_eq hS]
        constructor
        · intro h; exact ⟨_, _, rfl, h⟩
        · rintro ⟨g, es, h, he⟩; cases h; exact he
      have h2 : e ∈ reported (sortByName (fs.map (understood S))) [] ↔
          ∃ n gs cx, newFields S fs [] = .ok (gs, cx) ∧ e = .duplicateParameter n ∧
            2 ≤ ([] :: gs.map parameterName).count n := by
        have hsorted := sortByName_sorted (fs.map (understood S))
        rw [newFields_eq hS]
        constructor
        · intro h
          obtain ⟨n, rfl⟩ := reported_kind _ _ _ h
          refine ⟨n, _, _, rfl, rfl, ?_⟩
          have := (reported_iff _ _ hsorted (fun _ _ => bytesLe_nil _) n).mp h
          rw [(((sortByName_perm _).map _).cons _).count_eq, funext fieldName_eq] at this
          exact this
        · rintro ⟨n, gs, cx, h, rfl, h2⟩
          cases h
          refine (reported_iff _ _ hsorted (fun _ _ => bytesLe_nil _) n).mpr ?_
          rw [(((sortByName_perm _).map _).cons _).count_eq, funext fieldName_eq]
          exact h2
      have h3 : e ∈ es ↔ ∃ info es, ContainerMeta.new S attrs [] = .ok (info, es) ∧ e ∈ es := by
        rw [hc]
        constructor
        · intro h; exact ⟨_, _, rfl, h⟩
        · rintro ⟨g, es, h, he⟩; cases h; exact he
      have h4 : e ∈ es' ↔ e = .crateLookup ∧ lookup = .failed ∧
          ∀ p, crateItem p ∉ attributeItems S attrs := by
        rw [← hkr]
        unfold importOf at hi
        cases hk : info.krate with
        | some p => simp only [hk] at hi; cases hi; simp
        | none =>
          simp only [hk] at hi
          cases lookup with
          | failed =>
            simp only at hi
            split at hi <;> cases hi
            simp [Ctxt.addError]
          | name k => simp only at hi; split at hi <;> cases hi; simp
          | itself k =>
            cases k with
            | none => cases hi
            | some k => simp only at hi; split at hi <;> cases hi; simp
          | manifestDirNotSet => simp only at hi; split at hi <;> cases hi; simp
      rw [h1, h2, h3, h4, or_assoc, or_assoc]

/-! ### The errors of a field -/

/-- Ill-formed items make no setting. -/
theorem Spec.Wrong.not_setsTo {m : Meta} {e : Err} (h : Wrong m e) (t : Setting) : ¬ SetsTo m t := by
  rintro ⟨h1, h2, h3⟩
  have id : ∀ {i j : Bytes}, IsIdent m.path i → m.path = ⟨false, [(j, false)]⟩ → i = j := by
    intro i j hi hj; rw [hi] at hj; cases hj; rfl
  cases h with
  | unknown hu => exact hu t h1
  | word hi hk =>
    rcases hi with hi | hi <;> cases t <;> first
      | exact hk h2
      | exact absurd (id hi h1) (by simp [Setting.name])
  | nameValue hi hk =>
    rcases hi with hi | hi | hi | hi <;> cases t <;> first
      | exact hk _ h2
      | exact absurd (id hi h1) (by simp [Setting.name])
  | path hi hk hp =>
    rw [hk] at h2
    rcases hi with hi | hi <;> cases t <;> first
      | exact hp _ (MetaKind.nameValue.inj h2)
      | exact absurd (id hi h1) (by simp [Setting.name])
  | bool hi hk hp =>
    rw [hk] at h2
    cases t <;> first
      | exact hp _ (MetaKind.nameValue.inj h2)
      | exact absurd (id hi h1) (by simp [Setting.name])
  | str hi hk hp =>
    rw [hk] at h2
    cases t <;> first
      | exact hp _ (MetaKind.nameValue.inj h2)
      | exact absurd (id hi h1) (by simp [Setting.name])
  | notSafe hi hk hp =>
    rw [hk] at h2
    cases t with
    | rename n =>
      obtain ⟨b, hb, hu⟩ := hp
      have := Expr.litStr.inj (MetaKind.nameValue.inj h2)
      subst this
      rw [h3 _ rfl b hb] at hu; cases hu
    | _ => exact absurd (id hi h1) (by simp [Setting.name])

/-- An item is ill-formed for one reason only. -/
theorem Spec.Wrong.unique {m : Meta} {e e' : Err} (h : Wrong m e) (h' : Wrong m e') : e = e' := by
  obtain ⟨path, kind⟩ := m
  have id : ∀ {i j : Bytes}, IsIdent path i → IsIdent path j → i = j := by
    intro i j hi hj; rw [IsIdent] at hi hj; rw [hi] at hj; cases hj; rfl
  have clash : ∀ {i j : Bytes}, IsIdent path i → IsIdent path j → i ≠ j → False :=
    fun hi hj hne => hne (id hi hj)
  have known : ∀ {i : Bytes}, IsIdent path i → (∀ t : Setting, ¬ IsIdent path t.name) →
      i ∉ [b!"encoded", b!"skip", b!"fmt", b!"option", b!"rename", b!"skip_if"] := by
    intro i hi hu hm
    simp only [List.mem_cons, List.not_mem_nil, or_false] at hm
    rcases hm with rfl | rfl | rfl | rfl | rfl | rfl
    · exact hu .encoded hi
    · exact hu .skip hi
    · exact hu (.fmt []) hi
    · exact hu (.option true) hi
    · exact hu (.rename []) hi
    · exact hu (.skipIf []) hi
  cases h with
  | unknown hu =>
    cases h' with
    | unknown => rfl
    | word hi => rcases hi with hi | hi <;> exact absurd (by decide) (known hi hu)
    | nameValue hi => rcases hi with hi | hi | hi | hi <;> exact absurd (by decide) (known hi hu)
    | path hi => rcases hi with hi | hi <;> exact absurd (by decide) (known hi hu)
    | bool hi => exact absurd (by decide) (known hi hu)
    | str hi => exact absurd (by decide) (known hi hu)
    | notSafe hi => exact absurd (by decide) (known hi hu)
  | word hi hk =>
    cases h' with
    | unknown hu => rcases hi with hi | hi <;> exact absurd (by decide) (known hi hu)
    | word => rfl
    | nameValue hj => rcases hi with hi | hi <;> rcases hj with hj | hj | hj | hj <;>
        exact (clash hi hj (by decide)).elim
    | path hj => rcases hi with hi | hi <;> rcases hj with hj | hj <;>
        exact (clash hi hj (by decide)).elim
    | bool hj => rcases hi with hi | hi <;> exact (clash hi hj (by decide)).elim
    | str hj => rcases hi with hi | hi <;> exact (clash hi hj (by decide)).elim
    | notSafe hj => rcases hi with hi | hi <;> exact (clash hi hj (by decide)).elim
  | nameValue hi hk =>
    cases h' with
    | unknown hu => rcases hi with hi | hi | hi | hi <;> exact absurd (by decide) (known hi hu)
    | word hj => rcases hi with hi | hi | hi | hi <;> rcases hj with hj | hj <;>
        exact (clash hi hj (by decide)).elim
    | nameValue => rfl
    | path _ he => exact absurd he (hk _)
    | bool _ he => exact absurd he (hk _)
    | str _ he => exact absurd he (hk _)
    | notSafe _ he => exact absurd he (hk _)
  | path hi hk hp =>
    cases h' with
    | unknown hu => rcases hi with hi | hi <;> exact absurd (by decide) (known hi hu)
    | word hj => rcases hi with hi | hi <;> rcases hj with hj | hj <;>
        exact (clash hi hj (by decide)).elim
    | nameValue _ hn => exact absurd hk (hn _)
    | path => rfl
    | bool hj => rcases hi with hi | hi <;> exact (clash hi hj (by decide)).elim
    | str hj => rcases hi with hi | hi <;> exact (clash hi hj (by decide)).elim
    | notSafe hj => rcases hi with hi | hi <;> exact (clash hi hj (by decide)).elim
  | bool hi hk hp =>
    cases h' with
    | unknown hu => exact absurd (by decide) (known hi hu)
    | word hj => rcases hj with hj | hj <;> exact (clash hi hj (by decide)).elim
    | nameValue _ hn => exact absurd hk (hn _)
    | path hj => rcases hj with hj | hj <;> exact (clash hi hj (by decide)).elim
    | bool => rfl
    | str hj => exact (clash hi hj (by decide)).elim
    | notSafe hj => exact (clash hi hj (by decide)).elim
  | str hi hk hp =>
    cases h' with
    | unknown hu => exact absurd (by decide) (known hi hu)
    | word hj => rcases hj with hj | hj <;> exact (clash hi hj (by decide)).elim
    | nameValue _ hn => exact absurd hk (hn _)
    | path hj => rcases hj with hj | hj <;> exact (clash hi hj (by decide)).elim
    | bool hj => exact (clash hi hj (by decide)).elim
    | str => rfl
    | notSafe _ he => exact absurd (MetaKind.nameValue.inj (hk.symm.trans he)) (hp _)
  | notSafe hi hk hp =>
    cases h' with
    | unknown hu => exact absurd (by decide) (known hi hu)
    | word hj => rcases hj with hj | hj <;> exact (clash hi hj (by decide)).elim
    | nameValue _ hn => exact absurd hk (hn _)
    | path hj => rcases hj with hj | hj <;> exact (clash hi hj (by decide)).elim
    | bool hj => exact (clash hi hj (by decide)).elim
    | str _ he hs => exact absurd (MetaKind.nameValue.inj (he.symm.trans hk)) (hs _)
    | notSafe => rfl

theorem boolArm_error (name : Bytes) (kind : MetaKind) (c : Bool) (e : Err)
    (h : boolArm name kind c = .error e) :
    (kind ≠ .path ∧ e = .expectedWord) ∨ (kind = .path ∧ c = true ∧ e = .duplicateAttribute name) := by
  cases kind <;> cases c <;> simp_all [boolArm, eq_comm]

theorem valueArm_error {α : Type} (f : Expr → Except Err α) (name : Bytes) (kind : MetaKind)
    (c : Option α) (e : Err) (h : valueArm f name kind c = .error e) :
    ((∀ x, kind ≠ .nameValue x) ∧ e = .expectedNameValue) ∨
    (∃ x, kind = .nameValue x ∧ f x = .error e) ∨
    (∃ x v, kind = .nameValue x ∧ f x = .ok v ∧ c ≠ none ∧ e = .duplicateAttribute name) := by
  cases kind with
  | path => cases h; exact .inl ⟨by simp, rfl⟩
  | list => cases h; exact .inl ⟨by simp, rfl⟩
  | nameValue x =>
    cases hx : f x with
    | error e' =>
      simp only [valueArm, hx, Except.error_bind'] at h
      cases h
      exact .inr (.inl ⟨x, rfl, hx⟩)
    | ok v =>
      simp only [valueArm, hx, Except.ok_bind'] at h
      split at h
      · next hc => cases h; exact .inr (.inr ⟨x, v, rfl, hx, (by rintro rfl; cases hc), rfl⟩)
      · cases h

theorem addMeta_error (m : FieldMeta) (x : Meta) (e : Err) (h : m.addMeta x = .error e) :
    (∃ t, SetsTo x t ∧ ¬ settingFree m t ∧ e = .duplicateAttribute t.name) ∨ Wrong x e := by
  unfold FieldMeta.addMeta at h
  have bindErr : ∀ {α : Type} {r : Except Err α} {k : α → Except Err FieldMeta},
      (∀ a, ∃ z, k a = .ok z) → (r >>= k) = .error e → r = .error e := by
    intro α r k hk h
    cases r with
    | error e' => rw [Except.error_bind'] at h; cases h; rfl
    | ok a => obtain ⟨z, hz⟩ := hk a; rw [Except.ok_bind', hz] at h; cases h
  split at h
  · next hid =>
    cases h
    refine .inr (.unknown fun t ht => ?_)
    rw [(getIdent_iff _ _).mpr ht] at hid; cases hid
  · next name hid =>
    rw [getIdent_iff] at hid
    split at h
    · next hn =>
      subst hn
      rcases boolArm_error _ _ _ _ (bindErr (fun a => ⟨_, rfl⟩) h) with ⟨h1, rfl⟩ | ⟨h1, h2, rfl⟩
      · exact .inr (.word (.inl hid) h1)
      · exact .inl ⟨.encoded, ⟨hid, h1, by simp⟩, by simp [settingFree, h2], rfl⟩
    split at h
    · next hn =>
      subst hn
      rcases valueArm_error _ _ _ _ _ (bindErr (fun a => ⟨_, rfl⟩) h) with
        ⟨h1, rfl⟩ | ⟨v, h1, h2⟩ | ⟨v, w, h1, h2, h3, rfl⟩
      · exact .inr (.nameValue (.inl hid) h1)
      · cases v <;> cases h2 <;> exact .inr (.path (.inl hid) h1 (by simp))
      · rw [pathFromExpr_ok_iff] at h2
        exact .inl ⟨.fmt w, ⟨hid, by rw [h1, h2]; rfl, by simp⟩, h3, rfl⟩
    split at h
    · next hn =>
      subst hn
      rcases valueArm_error _ _ _ _ _ (bindErr (fun a => ⟨_, rfl⟩) h) with
        ⟨h1, rfl⟩ | ⟨v, h1, h2⟩ | ⟨v, w, h1, h2, h3, rfl⟩
      · exact .inr (.nameValue (.inr (.inl hid)) h1)
      · cases v <;> cases h2 <;> exact .inr (.bool hid h1 (by simp))
      · rw [boolFromExpr_ok_iff] at h2
        exact .inl ⟨.option w, ⟨hid, by rw [h1, h2]; rfl, by simp⟩, h3, rfl⟩
    split at h
    · next hn =>
      subst hn
      rcases valueArm_error _ _ _ _ _ (bindErr (fun a => ⟨_, rfl⟩) h) with
        ⟨h1, rfl⟩ | ⟨v, h1, h2⟩ | ⟨v, w, h1, h2, h3, rfl⟩
      · exact .inr (.nameValue (.inr (.inr (.inl hid))) h1)
      · cases v with
        | litStr s =>
          simp only [uriSafeFromExpr] at h2
          split at h2
          · cases h2
          · next hall =>
            cases h2
            refine .inr (Wrong.notSafe hid h1 ?_)
            simpa [uriSafeByte_eq] using hall
        | path p => cases h2; exact .inr (.str hid h1 (by simp))
        | litBool p => cases h2; exact .inr (.str hid h1 (by simp))
        | group e => cases h2; exact .inr (.str hid h1 (by simp))
        | other => cases h2; exact .inr (.str hid h1 (by simp))
      · rw [uriSafeFromExpr_ok_iff] at h2
        exact .inl ⟨.rename w, ⟨hid, by rw [h1, h2.1]; rfl, by intro n e; cases e; exact h2.2⟩, h3, rfl⟩
    split at h
    · next hn =>
      subst hn
      rcases boolArm_error _ _ _ _ (bindErr (fun a => ⟨_, rfl⟩) h) with ⟨h1, rfl⟩ | ⟨h1, h2, rfl⟩
      · exact .inr (.word (.inr hid) h1)
      · exact .inl ⟨.skip, ⟨hid, h1, by simp⟩, by simp [settingFree, h2], rfl⟩
    split at h
    · next hn =>
      subst hn
      rcases valueArm_error _ _ _ _ _ (bindErr (fun a => ⟨_, rfl⟩) h) with
        ⟨h1, rfl⟩ | ⟨v, h1, h2⟩ | ⟨v, w, h1, h2, h3, rfl⟩
      · exact .inr (.nameValue (.inr (.inr (.inr hid))) h1)
      · cases v <;> cases h2 <;> exact .inr (.path (.inr hid) h1 (by simp))
      · rw [pathFromExpr_ok_iff] at h2
        exact .inl ⟨.skipIf w, ⟨hid, by rw [h1, h2]; rfl, by simp⟩, h3, rfl⟩
    · next n1 n2 n3 n4 n5 n6 =>
      cases h
      refine .inr (.unknown fun t ht => ?_)
      rw [hid] at ht
      cases t <;> cases ht <;> contradiction

theorem reports_fold (items : List Meta) {has : Setting → Prop} {m : FieldMeta} (h : Configures has m)
    (cx : Ctxt) : ∃ es has', Reports has items es has' ∧
      (foldItems FieldMeta.addMeta items (m, cx)).2 = cx ++ es ∧
      Configures has' (foldItems FieldMeta.addMeta items (m, cx)).1 := by
  induction items generalizing has m cx with
  | nil => exact ⟨[], has, .nil, by simp [foldItems], h⟩
  | cons x xs ih =>
    cases ha : m.addMeta x with
    | ok m' =>
      have e : foldItems FieldMeta.addMeta (x :: xs) (m, cx) =
          foldItems FieldMeta.addMeta xs (m', cx) := by simp [foldItems, ha]
      obtain ⟨t, ht, hf, rfl⟩ := (addMeta_ok_iff _ _ _).mp ha
      obtain ⟨es, has', h1, h2, h3⟩ := ih (configures_apply h t hf) cx
      exact ⟨es, has', .sets ht ((settingFree_iff h t).mp hf) h1, by rw [e, h2], by rw [e]; exact h3⟩
    | error err =>
      have e : foldItems FieldMeta.addMeta (x :: xs) (m, cx) =
          foldItems FieldMeta.addMeta xs (m, cx.addError err) := by simp [foldItems, ha]
      obtain ⟨es, has', h1, h2, h3⟩ := ih h (cx.addError err)
      refine ⟨err :: es, has', ?_, by rw [e, h2]; simp [Ctxt.addError], by rw [e]; exact h3⟩
      rcases addMeta_error m x err ha with ⟨t, ht, hf, rfl⟩ | hw
      · rw [settingFree_iff h] at hf
        simp only [ne_eq, Classical.not_forall, Decidable.not_not] at hf
        obtain ⟨u, hu, hn⟩ := hf
        exact .repeated ht hu hn h1
      · exact .wrong hw h1

/-- C59: the errors reported for a field whose attributes can be parsed are exactly those of its
ill-formed and repeated items, in order, and none hides another; the other items take effect. -/
theorem C59_field_errors {S : Syn τ} (hS : Lawful S) (attrs : List (Attribute τ))
    (hp : AllParse S attrs) (info : FieldMeta) (es : List Err)
    (h : FieldMeta.new S attrs [] = .ok (info, es)) :
    ∃ has, Reports (fun _ => False) (attributeItems S attrs) es has ∧ Configures has info := by
  have key : ∀ (attrs : List (Attribute τ)) (m : FieldMeta) (cx : Ctxt), AllParse S attrs →
      newMeta S FieldMeta.addMeta attrs m cx =
        .ok (foldItems FieldMeta.addMeta (attributeItems S attrs) (m, cx)) := by
    intro attrs
    induction attrs with
    | nil => intro m cx _; rfl
    | cons a attrs ih =>
      intro m cx hp
      have hp' : AllParse S attrs := fun b hb => hp b (by simp [hb])
      by_cases ha : a.path.getIdent = some b!"oauth1"
      · have ha' := (isOauth1_iff a).mpr ha
        obtain ⟨r, hr⟩ := parseArgs_ok hS a
        cases r with
        | error e =>
          have := hp a (by simp) ha'
          simp [argItems, hr] at this
        | ok list =>
          have hitems : attributeItems S (a :: attrs) = list ++ attributeItems S attrs := by
            simp [attributeItems, ha', argItems, hr]
          have step : newMeta S FieldMeta.addMeta (a :: attrs) m cx = newMeta S FieldMeta.addMeta attrs
              (foldItems FieldMeta.addMeta list (m, cx)).1
              (foldItems FieldMeta.addMeta list (m, cx)).2 := by
            simp only [newMeta, ha, if_true, hr, Except.ok_bind']; rfl
          rw [step, ih _ _ hp', hitems]
          simp only [foldItems, List.foldl_append]
      · have hitems : attributeItems S (a :: attrs) = attributeItems S attrs := by
          simp [attributeItems, isOauth1_false ha]
        rw [hitems, ← ih m cx hp']
        simp only [newMeta, ha, if_false]
  unfold FieldMeta.new at h
  rw [key attrs {} [] hp] at h
  obtain ⟨es', has', h1, h2, h3⟩ := reports_fold (attributeItems S attrs) configures_nil []
  simp only [Except.ok.injEq] at h
  rw [h] at h2 h3
  simp only [List.nil_append] at h2
  rw [h2]
  exact ⟨has', h1, h3⟩

/-- The reports and the settings are determined by the items. -/
theorem C59_reports_unique {has : Setting → Prop} {items : List Meta} {es es' : List Err}
    {h1 h2 : Setting → Prop} (a : Reports has items es h1) (b : Reports has items es' h2) :
    es = es' ∧ h1 = h2 := by
  induction a generalizing es' h2 with
  | nil => cases b; exact ⟨rfl, rfl⟩
  | sets s1 n1 _ ih =>
    cases b with
    | sets s2 n2 b' =>
      cases s1.unique s2
      exact ih b'
    | repeated s2 hu hn _ => cases s1.unique s2; exact absurd hn (n1 _ hu)
    | wrong w _ => exact absurd s1 (w.not_setsTo _)
  | repeated s1 hu hn _ ih =>
    cases b with
    | sets s2 n2 b' => cases s1.unique s2; exact absurd hn (n2 _ hu)
    | repeated s2 _ _ b' =>
      cases s1.unique s2
      obtain ⟨rfl, e⟩ := ih b'
      exact ⟨rfl, e⟩
    | wrong w _ => exact absurd s1 (w.not_setsTo _)
  | wrong w _ ih =>
    cases b with
    | sets s _ _ => exact absurd s (w.not_setsTo _)
    | repeated s _ _ _ => exact absurd s (w.not_setsTo _)
    | wrong w' b' =>
      obtain ⟨rfl, e⟩ := ih b'
      exact ⟨by rw [w.unique w'], e⟩

/-- A field with errors of several kinds: all of them are reported, and `rename` still takes effect. -/
def exampleWrong : SynField (List Tok) :=
  ⟨[oauth1Attr (listToks [nameValue b!"skip" (.litBool true), nameValue b!"rename" (.litStr b!"x"),
      word b!"flatten"]),
    oauth1Attr (listToks [nameValue b!"rename" (.litStr b!"y"), nameValue b!"fmt" (.litStr b!"z"),
      nameValue b!"option" .other, word b!"option"])], b!"a", .other⟩

example : AllParse tokSyn exampleWrong.attrs ∧
    (FieldMeta.new tokSyn exampleWrong.attrs []).toOption = some ({ rename := some b!"x" },
      [.expectedWord, .unknown, .duplicateAttribute b!"rename", .expectedPath, .expectedBool,
        .expectedNameValue]) := by
  refine ⟨?_, by decide +kernel⟩
  intro a ha _
  revert a
  decide +kernel

/-- The whole struct: the errors of two fields, a duplicate name and an unknown attribute. -/
example : (expandItem ⟨true, true, .std⟩ tokSyn .failed (fun _ => true)
    ⟨⟨[oauth1Attr (listToks [word b!"skip"])],
      some [⟨[], b!"x", .other⟩, exampleWrong]⟩, b!"Search", ⟨[.type b!"T" [] none], []⟩⟩).toOption =
    some (.errors [.expectedWord, .unknown, .duplicateAttribute b!"rename", .expectedPath,
      .expectedBool, .expectedNameValue, .duplicateParameter b!"x", .unknown, .crateLookup]
      (some ⟨[.type b!"T" [b!"::core::fmt::Display"] none], b!"Search", [b!"T"], [], b!"S"⟩)) := by
  decide +kernel

/-- The theorems for them. -/
example {info : FieldMeta} {es : List Err} (h : FieldMeta.new tokSyn exampleWrong.attrs [] = .ok (info, es)) :=
  C59_field_errors tokSyn_lawful exampleWrong.attrs
    (show AllParse tokSyn exampleWrong.attrs by intro a ha _; revert a; decide +kernel) info es h
example {x : ItemExpansion} (h : expandItem ⟨true, true, .std⟩ tokSyn .failed (fun _ => true)
    ⟨⟨[oauth1Attr (listToks [word b!"skip"])],
      some [⟨[], b!"x", .other⟩, exampleWrong]⟩, b!"Search", ⟨[.type b!"T" [] none], []⟩⟩ = .ok x) :=
  C59_all_errors _ tokSyn_lawful _ _ _ _ x rfl h

/-- The panic: `CARGO_CRATE_NAME` is not set. -/
example : (expandItem ⟨true, true, .std⟩ tokSyn (.itself none) (fun _ => true)
    ⟨⟨[], some []⟩, b!"Search", ⟨[], []⟩⟩).toOption = none ∧
    (expandItem ⟨true, true, .std⟩ tokSyn (.itself none) (fun _ => true)
      ⟨⟨[oauth1Attr (listToks [nameValue b!"crate" (.path b!"oauth")])], some []⟩, b!"Search",
        ⟨[], []⟩⟩).toOption.isSome = true := by decide +kernel

end OAuth
