import Verif.Properties.DeriveAccepts
import Verif.Spec.DeriveTokens

/-
C88: the macro and invisible groups; on which attributes it panics.
-/

namespace OAuth

open Spec Derive

variable {τ : Type}

/-- `S`, with a `parseGroup` that parses everything that `peekParen` announces. -/
def fixedSyn (S : Syn τ) : Syn τ :=
  { S with parseGroup := fun t => match S.parseGroup t with
      | some t' => some t'
      | none => if S.peekParen t then some t else none }

theorem fixedSyn_lawful {S : Syn τ} (hS : Consuming S) : Lawful (fixedSyn S) where
  paren t h := by
    have h : S.peekParen t = true := h
    simp only [fixedSyn]
    cases S.parseGroup t <;> simp [h]
  eq := hS.eq
  pathSize := hS.pathSize
  groupSize t t' h := by
    simp only [fixedSyn] at h
    cases hg : S.parseGroup t with
    | some u => rw [hg] at h; cases h; exact hS.groupSize _ _ hg
    | none =>
      rw [hg] at h
      split at h
      · rename_i heq; cases heq
      · split at h
        · cases h; exact Nat.le_refl _
        · cases h
  eqSize := hS.eqSize
  exprSize := hS.exprSize
  commaSize := hS.commaSize

theorem Spec.Lawful.consuming {S : Syn τ} (hS : Lawful S) : Consuming S :=
  ⟨hS.eq, hS.pathSize, hS.groupSize, hS.eqSize, hS.exprSize, hS.commaSize⟩

theorem metaParse_fixed (S : Syn τ) (t : τ)
    (h : ¬ ∃ p t₁, S.parsePath t = some (p, t₁) ∧ S.peekParen t₁ = true ∧ S.parseGroup t₁ = none) :
    Meta.parse (fixedSyn S) t = Meta.parse S t := by
  unfold Meta.parse
  simp only [fixedSyn]
  cases hp : S.parsePath t with
  | none => rfl
  | some r =>
    obtain ⟨p, t₁⟩ := r
    simp only
    by_cases hq : S.peekParen t₁ = true
    · simp only [hq, if_true]
      cases hg : S.parseGroup t₁ with
      | none => exact absurd ⟨p, t₁, hp, hq, hg⟩ h
      | some t₂ => rfl
    · simp only [hq]; rfl

theorem metaParse_stuck (S : Syn τ) (t : τ) {p : Path} {t₁ : τ} (h1 : S.parsePath t = some (p, t₁))
    (h2 : S.peekParen t₁ = true) (h3 : S.parseGroup t₁ = none) : Meta.parse S t = .error .derive := by
  simp [Meta.parse, h1, h2, h3]

theorem readsItem_size {S : Syn τ} (hS : Consuming S) {t t' : τ} {m : Meta} (h : ReadsItem S t m t') :
    S.size t' < S.size t := by
  cases h with
  | word h1 => exact hS.pathSize _ _ _ h1
  | list h1 _ h3 => exact Nat.lt_of_le_of_lt (hS.groupSize _ _ h3) (hS.pathSize _ _ _ h1)
  | nameValue h1 _ _ h4 h5 =>
    exact Nat.lt_of_le_of_lt (Nat.le_trans (hS.exprSize _ _ _ h5) (hS.eqSize _ _ h4))
      (hS.pathSize _ _ _ h1)

theorem parseTerminated_stuck {S : Syn τ} (hS : Consuming S) (n : Nat) (t : τ) (hn : S.size t < n) :
    (Stuck S t → parseTerminated S n t = .error .derive) ∧
    (¬ Stuck S t → parseTerminated (fixedSyn S) n t = parseTerminated S n t) := by
  induction n generalizing t with
  | zero => omega
  | succ n ih =>
    constructor
    · intro h
      cases h with
      | here h0 h1 h2 h3 => simp [parseTerminated, h0, metaParse_stuck S t h1 h2 h3]; rfl
      | later h0 h1 h2 h3 h4 =>
        rename_i m t₁ t₂
        have hlt : S.size t₂ < n := by
          have := hS.commaSize _ _ h3; have := readsItem_size hS h1; omega
        simp [parseTerminated, h0, (metaParse_iff _ _ _ _).mpr h1, h2, h3, Except.ok_bind',
          (ih _ hlt).1 h4]
        rfl
    · intro h
      unfold parseTerminated
      have e1 : (fixedSyn S).isEmpty = S.isEmpty := rfl
      have e2 : (fixedSyn S).parseComma = S.parseComma := rfl
      rw [e1, e2]
      by_cases h0 : S.isEmpty t = true
      · simp [h0]
      · have h0' : S.isEmpty t = false := by simpa using h0
        simp only [h0', Bool.false_eq_true, if_false]
        have hm := metaParse_fixed S t (by
          rintro ⟨p, t₁, h1, h2, h3⟩; exact h (.here h0' h1 h2 h3))
        rw [hm]
        cases hr : Meta.parse S t with
        | error e => rfl
        | ok r =>
          simp only [Except.ok_bind']
          cases r with
          | error e => rfl
          | ok r =>
            obtain ⟨m, t₁⟩ := r
            simp only
            have hr' := (metaParse_iff _ _ _ _).mp hr
            by_cases h1 : S.isEmpty t₁ = true
            · simp [h1]
            · have h1' : S.isEmpty t₁ = false := by simpa using h1
              simp only [h1', Bool.false_eq_true, if_false]
              cases hc : S.parseComma t₁ with
              | none => rfl
              | some t₂ =>
                simp only
                have hlt : S.size t₂ < n := by
                  have := hS.commaSize _ _ hc; have := readsItem_size hS hr'; omega
                rw [(ih t₂ hlt).2 fun h2 => h (.later h0' hr' h1' hc h2)]

theorem parseArgs_stuck {S : Syn τ} (hS : Consuming S) (a : Attribute τ) :
    ((∃ t, a.args = some t ∧ Stuck S t) → a.parseArgs S = .error .derive) ∧
    ((¬ ∃ t, a.args = some t ∧ Stuck S t) → a.parseArgs (fixedSyn S) = a.parseArgs S) := by
  unfold Attribute.parseArgs
  have e1 : (fixedSyn S).size = S.size := rfl
  rw [e1]
  cases a.args with
  | none => simp
  | some t =>
    have key := parseTerminated_stuck hS (S.size t + 1) t (Nat.lt_succ_self _)
    simp only [Option.some.injEq, exists_eq_left']
    exact key

theorem stuckAttribute_cons (S : Syn τ) (a : Attribute τ) (attrs : List (Attribute τ)) :
    StuckAttribute S (a :: attrs) ↔
      (a.path.getIdent = some b!"oauth1" ∧ ∃ t, a.args = some t ∧ Stuck S t) ∨
        StuckAttribute S attrs := by
  simp only [StuckAttribute, List.mem_cons, getIdent_iff]
  constructor
  · rintro ⟨b, rfl | hb, h⟩
    · exact .inl h
    · exact .inr ⟨b, hb, h⟩
  · rintro (h | ⟨b, hb, h⟩)
    · exact ⟨a, .inl rfl, h⟩
    · exact ⟨b, .inr hb, h⟩

theorem newMeta_stuck {μ : Type} {S : Syn τ} (hS : Consuming S) (add : μ → Meta → Except Err μ)
    (attrs : List (Attribute τ)) (m : μ) (cx : Ctxt) :
    (StuckAttribute S attrs → newMeta S add attrs m cx = .error .derive) ∧
    (¬ StuckAttribute S attrs → newMeta (fixedSyn S) add attrs m cx = newMeta S add attrs m cx) := by
  induction attrs generalizing m cx with
  | nil => simp [StuckAttribute, newMeta]
  | cons a attrs ih =>
    rw [stuckAttribute_cons]
    by_cases ha : a.path.getIdent = some b!"oauth1"
    · obtain ⟨k1, k2⟩ := parseArgs_stuck hS a
      by_cases hs : ∃ t, a.args = some t ∧ Stuck S t
      · refine ⟨fun _ => ?_, fun h => absurd (.inl ⟨ha, hs⟩) h⟩
        simp only [newMeta, ha, if_true, k1 hs]; rfl
      · constructor
        · rintro (h | h)
          · exact absurd h.2 hs
          · have kl := fixedSyn_lawful hS
            obtain ⟨r, hr⟩ := parseArgs_ok kl a
            rw [k2 hs] at hr
            simp only [newMeta, ha, if_true, hr, Except.ok_bind']
            cases r with
            | error e => exact (ih _ _).1 h
            | ok l => exact (ih _ _).1 h
        · intro h
          have h' : ¬ StuckAttribute S attrs := fun h' => h (.inr h')
          simp only [newMeta, ha, if_true, k2 hs]
          cases a.parseArgs S with
          | error e => rfl
          | ok r =>
            simp only [Except.ok_bind']
            cases r with
            | error e => exact (ih _ _).2 h'
            | ok l => exact (ih _ _).2 h'
    · simp only [newMeta, ha, if_false, false_and, false_or]
      exact ih m cx

theorem attributeItems_fixed {S : Syn τ} (hS : Consuming S) (attrs : List (Attribute τ))
    (h : ¬ StuckAttribute S attrs) : attributeItems (fixedSyn S) attrs = attributeItems S attrs := by
  induction attrs with
  | nil => rfl
  | cons a attrs ih =>
    rw [stuckAttribute_cons, not_or] at h
    have ih := ih h.2
    unfold attributeItems at ih ⊢
    by_cases ha : isOauth1 a = true
    · have ha' := (isOauth1_iff a).mp ha
      rw [List.filter_cons_of_pos ha, List.flatMap_cons, List.flatMap_cons, ih]
      have : argItems (fixedSyn S) a = argItems S a := by
        unfold argItems; rw [(parseArgs_stuck hS a).2 fun hs => h.1 ⟨ha', hs⟩]
      rw [this]
    · rw [List.filter_cons_of_neg (by simpa using ha), ih]

theorem newFields_stuck {S : Syn τ} (hS : Consuming S) (fs : List (SynField τ)) (cx : Ctxt) :
    ((∃ f ∈ fs, StuckAttribute S f.attrs) → newFields S fs cx = .error .derive) ∧
    ((¬ ∃ f ∈ fs, StuckAttribute S f.attrs) → newFields (fixedSyn S) fs cx = newFields S fs cx) := by
  induction fs generalizing cx with
  | nil => simp [newFields]
  | cons f fs ih =>
    obtain ⟨k1, k2⟩ := newMeta_stuck hS FieldMeta.addMeta f.attrs {} cx
    by_cases hs : StuckAttribute S f.attrs
    · refine ⟨fun _ => ?_, fun h => absurd ⟨f, List.mem_cons_self, hs⟩ h⟩
      simp only [newFields, Field.new, FieldMeta.new, k1 hs]; rfl
    · have e : Field.new (fixedSyn S) f cx = Field.new S f cx := by
        simp only [Field.new, FieldMeta.new, k2 hs]
      constructor
      · rintro ⟨g, hg, h⟩
        rcases List.mem_cons.mp hg with rfl | hg
        · exact absurd h hs
        · have hr := fieldNew_eq (fixedSyn_lawful hS) f cx
          rw [e] at hr
          simp only [newFields, hr, Except.ok_bind', (ih _).1 ⟨g, hg, h⟩]; rfl
      · intro h
        simp only [newFields, e]
        cases Field.new S f cx with
        | error e => rfl
        | ok r =>
          simp only [Except.ok_bind']
          rw [(ih _).2 fun ⟨g, hg, h'⟩ => h ⟨g, List.mem_cons_of_mem _ hg, h'⟩]

theorem expandItem_stuck {S : Syn τ} (hS : Consuming S) (cfg : Cfg) (lookup : CrateLookup)
    (isIdent : Bytes → Bool) (item : Derive.Item τ) (fs : List (SynField τ)) (hfs : item.fields = some fs) :
    ((StuckAttribute S item.attrs ∨ ∃ f ∈ fs, StuckAttribute S f.attrs) →
      expandItem cfg S lookup isIdent item = .error .derive) ∧
    (¬ (StuckAttribute S item.attrs ∨ ∃ f ∈ fs, StuckAttribute S f.attrs) →
      expandItem cfg (fixedSyn S) lookup isIdent item = expandItem cfg S lookup isIdent item) := by
  obtain ⟨k1, k2⟩ := newFields_stuck hS fs []
  unfold expandItem expand
  simp only [hfs]
  by_cases hs : ∃ f ∈ fs, StuckAttribute S f.attrs
  · refine ⟨fun _ => ?_, fun h => absurd (.inr hs) h⟩
    simp only [k1 hs]; rfl
  · have hl := newFields_eq (fixedSyn_lawful hS) fs []
    rw [k2 hs] at hl
    rw [k2 hs]
    simp only [hl, Except.ok_bind']
    constructor
    · rintro (h | h)
      · simp only [ContainerMeta.new, (newMeta_stuck hS ContainerMeta.addMeta item.attrs {} _).1 h]; rfl
      · exact absurd h hs
    · intro h
      simp only [ContainerMeta.new,
        (newMeta_stuck hS ContainerMeta.addMeta item.attrs {} _).2 fun h' => h (.inl h')]

/-- C88, C59: when the macro panics, exactly, if an announced group need not be parsed: on a struct with
named fields with an attribute that is stuck, or one that does not say where to find the library while the
lookup gives no identifier. -/
theorem C88_panics_iff {S : Syn τ} (hS : Consuming S) (cfg : Cfg) (lookup : CrateLookup)
    (isIdent : Bytes → Bool) (item : Derive.Item τ) :
    (∃ e, expandItem cfg S lookup isIdent item = .error e) ↔
      ∃ fs, item.fields = some fs ∧
        ((StuckAttribute S item.attrs ∨ ∃ f ∈ fs, StuckAttribute S f.attrs) ∨
          ((∀ p, crateItem p ∉ attributeItems S item.attrs) ∧
            ∀ k, defaultCrate lookup = some k → isIdent k = false)) := by
  cases hfs : item.fields with
  | none => simp [expandItem, expand, hfs, Except.ok_bind']
  | some fs =>
    simp only [Option.some.injEq, exists_eq_left']
    obtain ⟨k1, k2⟩ := expandItem_stuck hS cfg lookup isIdent item fs hfs
    by_cases hs : StuckAttribute S item.attrs ∨ ∃ f ∈ fs, StuckAttribute S f.attrs
    · exact ⟨fun _ => .inl hs, fun _ => ⟨_, k1 hs⟩⟩
    · rw [← k2 hs, C59_panics_iff cfg (fixedSyn_lawful hS), hfs,
        attributeItems_fixed hS _ fun h => hs (.inl h)]
      simp [hs]

/-! ### Token trees -/

theorem firstVisible_iff (t : List TT) (x : TT) :
    FirstVisible t x ↔ ∃ rest, ignoreNone t = x :: rest ∧ ∀ ts, x ≠ .group .none ts := by
  constructor
  · intro h
    induction h with
    | here h =>
      rename_i x rest
      refine ⟨rest, ?_, h⟩
      unfold ignoreNone
      split
      · next heq => cases heq; exact absurd rfl (h _)
      · rfl
    | enter _ ih => rw [ignoreNone]; exact ih
  · rintro ⟨rest, h, hx⟩
    have key : ∀ n, ∀ t : List TT, sizeOfTokens t ≤ n → ignoreNone t = x :: rest → FirstVisible t x := by
      intro n
      induction n with
      | zero =>
        intro t ht h
        cases t with
        | nil => simp [ignoreNone] at h
        | cons y t => cases y <;> simp [sizeOfTokens, TT.size] at ht
      | succ n ih =>
        intro t ht h
        unfold ignoreNone at h
        split at h
        · next ts rest' =>
          refine .enter (ih _ ?_ h)
          simp only [sizeOfTokens, TT.size] at ht
          rw [sizeOfTokens_append]; omega
        · subst h; exact .here hx
    exact key _ t (Nat.le_refl _) h

theorem ignoreNone_cons (t : List TT) (h : ∀ ts rest, t ≠ .group .none ts :: rest) : ignoreNone t = t := by
  unfold ignoreNone
  split
  · exact absurd rfl (h _ _)
  · rfl

theorem ignoreNone_size (t : List TT) : sizeOfTokens (ignoreNone t) ≤ sizeOfTokens t := by
  have key : ∀ n, ∀ t : List TT, sizeOfTokens t ≤ n → sizeOfTokens (ignoreNone t) ≤ sizeOfTokens t := by
    intro n
    induction n with
    | zero =>
      intro t ht
      cases t with
      | nil => simp [ignoreNone]
      | cons y t => cases y <;> simp [sizeOfTokens, TT.size] at ht
    | succ n ih =>
      intro t ht
      unfold ignoreNone
      split
      · simp only [sizeOfTokens, TT.size] at ht ⊢
        refine Nat.le_trans (ih _ ?_) ?_ <;> (rw [sizeOfTokens_append]; omega)
      · exact Nat.le_refl _
  exact key _ t (Nat.le_refl _)

theorem parsePunct_size (c : UInt8) (t t' : List TT) (h : parsePunct c t = some t') :
    sizeOfTokens t' ≤ sizeOfTokens t := by
  have hs := ignoreNone_size t
  unfold parsePunct at h
  split at h
  · next heq =>
    rw [heq] at hs
    split at h
    · cases h; simp only [sizeOfTokens] at hs; omega
    · cases h
  · cases h

theorem parseGroup_size (b : Bool) (t t' : List TT) (h : parseGroup b t = some t') :
    sizeOfTokens t' ≤ sizeOfTokens t := by
  have hs : sizeOfTokens (if b then t else ignoreNone t) ≤ sizeOfTokens t := by
    cases b
    · exact ignoreNone_size t
    · exact Nat.le_refl _
  unfold parseGroup at h
  split at h
  · next heq =>
    rw [heq] at hs
    split at h
    · cases h
    · cases h; simp only [sizeOfTokens] at hs; omega
  · cases h

theorem cursorSyn_consuming {P : List TT → Option (Path × List TT)}
    {E : List TT → Option (Expr × List TT)} (h : TakesTokens P E) (strict : Bool) :
    Consuming (cursorSyn strict P E) where
  eq _ h := h
  pathSize := h.1
  groupSize := parseGroup_size strict
  eqSize := parsePunct_size 61
  exprSize := h.2
  commaSize := parsePunct_size 44

theorem peekParen_iff (t : List TT) : peekParen t = true ↔ ∃ ts, FirstVisible t (.group .paren ts) := by
  unfold peekParen
  constructor
  · intro h
    split at h
    · next ts rest heq => exact ⟨ts, (firstVisible_iff _ _).mpr ⟨rest, heq, by simp⟩⟩
    · cases h
  · rintro ⟨ts, h⟩
    obtain ⟨rest, h, -⟩ := (firstVisible_iff _ _).mp h
    rw [h]

/-- An announced group cannot be parsed exactly if it is in an invisible group, and invisible groups are
not entered. -/
theorem parseGroup_none_iff (strict : Bool) (t : List TT) (h : peekParen t = true) :
    parseGroup strict t = none ↔ strict = true ∧ HiddenParens t := by
  have hv := (peekParen_iff t).mp h
  unfold parseGroup HiddenParens
  cases strict with
  | false =>
    obtain ⟨ts, hv⟩ := hv
    obtain ⟨rest, hv, -⟩ := (firstVisible_iff _ _).mp hv
    simp [hv]
  | true =>
    simp only [if_true, true_and, hv, and_true]
    constructor
    · intro hg
      split at hg
      · next d ts rest =>
        split at hg
        · next hd => subst hd; exact ⟨_, _, rfl⟩
        · cases hg
      · next hn =>
        obtain ⟨ts, hv⟩ := hv
        cases hv with
        | here _ => exact absurd rfl (hn _ _ _)
        | enter _ => exact ⟨_, _, rfl⟩
    · rintro ⟨ts, rest, rfl⟩
      simp

theorem stuck_iff (strict : Bool) (P : List TT → Option (Path × List TT))
    (E : List TT → Option (Expr × List TT)) (t : List TT) :
    Stuck (cursorSyn strict P E) t ↔ strict = true ∧ HiddenAfterPath (cursorSyn strict P E) t := by
  have hne : ∀ t : List TT, (cursorSyn strict P E).isEmpty t = false ↔ t ≠ [] := by
    intro t; cases t <;> simp [cursorSyn]
  constructor
  · intro h
    induction h with
    | here h0 h1 h2 h3 =>
      obtain ⟨hs, h⟩ := (parseGroup_none_iff strict _ h2).mp h3
      exact ⟨hs, .here ((hne _).mp h0) h1 h⟩
    | later h0 h1 h2 h3 _ ih => exact ⟨ih.1, .later ((hne _).mp h0) h1 ((hne _).mp h2) h3 ih.2⟩
  · rintro ⟨hs, h⟩
    induction h with
    | here h0 h1 h2 =>
      have hp := (peekParen_iff _).mpr h2.2
      exact .here ((hne _).mpr h0) h1 hp ((parseGroup_none_iff strict _ hp).mpr ⟨hs, h2⟩)
    | later h0 h1 h2 h3 _ ih => exact .later ((hne _).mpr h0) h1 ((hne _).mpr h2) h3 ih

/-- C88, the claim: whatever tokens its attributes consist of, the macro returns, if the struct says where
to find the library. -/
def C88_claim : Prop :=
  ∀ (strict : Bool) (P : List TT → Option (Path × List TT)) (E : List TT → Option (Expr × List TT)),
    TakesTokens P E → ∀ (cfg : Cfg) (lookup : CrateLookup) (isIdent : Bytes → Bool)
    (item : Derive.Item (List TT)) (p : ExprPath),
    crateItem p ∈ attributeItems (cursorSyn strict P E) item.attrs →
    ∃ x, expandItem cfg (cursorSyn strict P E) lookup isIdent item = .ok x

theorem stuckAttribute_iff (strict : Bool) (P : List TT → Option (Path × List TT))
    (E : List TT → Option (Expr × List TT)) (attrs : List (Attribute (List TT))) :
    StuckAttribute (cursorSyn strict P E) attrs ↔
      strict = true ∧ HiddenIn (cursorSyn strict P E) attrs := by
  simp only [StuckAttribute, HiddenIn, stuck_iff]
  constructor
  · rintro ⟨a, h1, h2, t, h3, h4, h5⟩; exact ⟨h4, a, h1, h2, t, h3, h5⟩
  · rintro ⟨h4, a, h1, h2, t, h3, h5⟩; exact ⟨a, h1, h2, t, h3, h4, h5⟩

/-- C88, exactly: the macro panics on a struct that says where to find the library if and only if `syn` does
not enter invisible groups when it parses a group, and somewhere in an attribute of the struct or of a field
a path is followed by an invisible group beginning with parentheses. -/
theorem C88_iff (strict : Bool) {P : List TT → Option (Path × List TT)}
    {E : List TT → Option (Expr × List TT)} (hPE : TakesTokens P E) (cfg : Cfg) (lookup : CrateLookup)
    (isIdent : Bytes → Bool) (item : Derive.Item (List TT)) (p : ExprPath)
    (hp : crateItem p ∈ attributeItems (cursorSyn strict P E) item.attrs) :
    (∃ e, expandItem cfg (cursorSyn strict P E) lookup isIdent item = .error e) ↔
      strict = true ∧ ∃ fs, item.fields = some fs ∧
        (HiddenIn (cursorSyn strict P E) item.attrs ∨
          ∃ f ∈ fs, HiddenIn (cursorSyn strict P E) f.attrs) := by
  rw [C88_panics_iff (cursorSyn_consuming hPE strict)]
  simp only [stuckAttribute_iff]
  constructor
  · rintro ⟨fs, hfs, (⟨h, h'⟩ | ⟨f, hf, h, h'⟩) | ⟨h, -⟩⟩
    · exact ⟨h, fs, hfs, .inl h'⟩
    · exact ⟨h, fs, hfs, .inr ⟨f, hf, h'⟩⟩
    · exact absurd hp (h p)
  · rintro ⟨h, fs, hfs, h' | ⟨f, hf, h'⟩⟩
    · exact ⟨fs, hfs, .inl (.inl ⟨h, h'⟩)⟩
    · exact ⟨fs, hfs, .inl (.inr ⟨f, hf, h, h'⟩)⟩

/-- C88, where it holds: if no path in the attributes is followed by an invisible group with parentheses, or
if `syn` enters invisible groups, the macro returns. What is missing, see `C88_violated`. -/
theorem C88_partial (strict : Bool) {P : List TT → Option (Path × List TT)}
    {E : List TT → Option (Expr × List TT)} (hPE : TakesTokens P E) (cfg : Cfg) (lookup : CrateLookup)
    (isIdent : Bytes → Bool) (item : Derive.Item (List TT)) (p : ExprPath)
    (hp : crateItem p ∈ attributeItems (cursorSyn strict P E) item.attrs)
    (h : strict = true → ¬ HiddenIn (cursorSyn strict P E) item.attrs ∧
      ∀ fs, item.fields = some fs → ∀ f ∈ fs, ¬ HiddenIn (cursorSyn strict P E) f.attrs) :
    ∃ x, expandItem cfg (cursorSyn strict P E) lookup isIdent item = .ok x := by
  cases hx : expandItem cfg (cursorSyn strict P E) lookup isIdent item with
  | ok x => exact ⟨x, rfl⟩
  | error e =>
    obtain ⟨hs, fs, hfs, h' | ⟨f, hf, h'⟩⟩ := (C88_iff strict hPE cfg lookup isIdent item p hp).mp ⟨e, hx⟩
    · exact absurd h' (h hs).1
    · exact absurd h' ((h hs).2 fs hfs f hf)

/-- If `syn` enters invisible groups, everything proved of a `Lawful` one holds of it. -/
theorem C88_lenient {P : List TT → Option (Path × List TT)} {E : List TT → Option (Expr × List TT)}
    (hPE : TakesTokens P E) : Lawful (cursorSyn false P E) := by
  have hc := cursorSyn_consuming hPE false
  refine ⟨fun t h => ?_, hc.eq, hc.pathSize, hc.groupSize, hc.eqSize, hc.exprSize, hc.commaSize⟩
  cases hg : parseGroup false t with
  | some x => simp [cursorSyn, hg]
  | none => exact absurd ((parseGroup_none_iff false t h).mp hg).1 (by simp)

/-- C88: where the macro does not get stuck, it does what it does with a `Lawful` parser that reads the same
items, so that everything proved of those holds. -/
theorem C88_otherwise {S : Syn τ} (hS : Consuming S) (cfg : Cfg) (lookup : CrateLookup)
    (isIdent : Bytes → Bool) (item : Derive.Item τ) (fs : List (SynField τ)) (hfs : item.fields = some fs)
    (h : ¬ StuckAttribute S item.attrs) (hf : ∀ f ∈ fs, ¬ StuckAttribute S f.attrs) :
    ∃ S' : Syn τ, Lawful S' ∧
      expandItem cfg S' lookup isIdent item = expandItem cfg S lookup isIdent item ∧
      attributeItems S' item.attrs = attributeItems S item.attrs ∧
      ∀ f ∈ fs, attributeItems S' f.attrs = attributeItems S f.attrs := by
  refine ⟨fixedSyn S, fixedSyn_lawful hS, (expandItem_stuck hS cfg lookup isIdent item fs hfs).2 ?_,
    attributeItems_fixed hS _ h, fun f hf' => attributeItems_fixed hS _ (hf f hf')⟩
  rintro (h' | ⟨f, hf', h'⟩)
  · exact h h'
  · exact hf f hf' h'

namespace TokensExample

/-- Paths of one identifier. -/
def readPath : List TT → Option (Path × List TT)
  | .ident s :: t => some ({ leadingColon := false, segments := [(s, false)] }, t)
  | _ => none

/-- Expressions of one token. -/
def readExpr : List TT → Option (Expr × List TT)
  | .ident s :: t => some (.path s, t)
  | .lit s :: t => some (.litStr s, t)
  | _ :: t => some (.other, t)
  | [] => none

theorem takes : TakesTokens readPath readExpr := by
  constructor
  · intro t p t' h
    unfold readPath at h
    split at h
    · cases h; simp [sizeOfTokens, TT.size]
    · cases h
  · intro t p t' h
    unfold readExpr at h
    split at h <;> first | cases h; done | (cases h; simp [sizeOfTokens])

/-- `#[oauth1(..)]` -/
def attr (ts : List TT) : Attribute (List TT) :=
  ⟨{ leadingColon := false, segments := [(b!"oauth1", false)] }, some ts⟩

/-- `skip $x` in a `macro_rules!` macro, where `$x:expr` is `(1)`. -/
def skipVariable : List TT := [.ident b!"skip", .group .none [.group .paren [.lit b!"1"]]]

/-- `#[oauth1(crate = oauth)] struct A { #[oauth1(ts)] a: .. }` -/
def item (ts : List TT) : Derive.Item (List TT) :=
  { attrs := [attr [.ident b!"crate", .punct 61, .ident b!"oauth"]]
    fields := some [⟨[attr ts], b!"a", .other⟩]
    name := b!"A", generics := ⟨[], []⟩ }

theorem hidden (strict : Bool) : HiddenAfterPath (cursorSyn strict readPath readExpr) skipVariable :=
  .here (p := { leadingColon := false, segments := [(b!"skip", false)] })
    (t₁ := [.group .none [.group .paren [.lit b!"1"]]]) (by simp [skipVariable]) rfl
    ⟨⟨_, _, rfl⟩, _, .enter (.here (by simp))⟩

theorem reads (strict : Bool) (ts : List TT) :
    crateItem b!"oauth" ∈ attributeItems (cursorSyn strict readPath readExpr) (item ts).attrs := by
  have : ignoreNone [.punct 61, .ident b!"oauth"] = [.punct 61, .ident b!"oauth"] := by simp [ignoreNone]
  simp [attributeItems, item, attr, isOauth1, argItems, Attribute.parseArgs, parseTerminated, Meta.parse,
    cursorSyn, readPath, readExpr, peekParen, parsePunct, this, Path.getIdent, crateItem, Except.ok_bind']

/-- The macro panics on `skip $x`. -/
example : ∃ e, expandItem { debug := false } (cursorSyn true readPath readExpr) (.name b!"oauth")
    (fun _ => true) (item skipVariable) = .error e :=
  (C88_iff true takes _ _ _ (item skipVariable) b!"oauth" (reads _ _)).mpr
    ⟨rfl, _, rfl, .inr ⟨_, List.mem_singleton.mpr rfl, _, List.mem_singleton.mpr rfl, rfl, _, rfl, hidden _⟩⟩

/-- With the older versions of `syn` it returns. -/
example : ∃ x, expandItem { debug := false } (cursorSyn false readPath readExpr) (.name b!"oauth")
    (fun _ => true) (item skipVariable) = .ok x :=
  C88_partial false takes _ _ _ (item skipVariable) b!"oauth" (reads _ _) (by simp)

/-- A plain `skip` is no problem. -/
example : ∃ x, expandItem { debug := false } (cursorSyn true readPath readExpr) (.name b!"oauth")
    (fun _ => true) (item [.ident b!"skip"]) = .ok x := by
  refine C88_partial true takes _ _ _ (item [.ident b!"skip"]) b!"oauth" (reads _ _) fun _ => ⟨?_, ?_⟩
  · rintro ⟨a, ha, -, t, ht, h⟩
    rw [List.mem_singleton.mp ha] at ht
    cases ht
    cases h with
    | here _ h1 h2 => cases h1; obtain ⟨⟨ts, rest, h⟩, -⟩ := h2; cases h
    | later _ h1 h2 h3 =>
      cases h1 with
      | word h1 h2 h3 =>
        cases h1
        have : ignoreNone [.punct 61, .ident b!"oauth"] = [.punct 61, .ident b!"oauth"] := by
          simp [ignoreNone]
        simp [cursorSyn, parsePunct, this] at h3
      | list h1 h2 h3 =>
        cases h1
        have : ignoreNone [.punct 61, .ident b!"oauth"] = [.punct 61, .ident b!"oauth"] := by
          simp [ignoreNone]
        simp [cursorSyn, peekParen, this] at h2
      | nameValue h1 h2 h3 h4 h5 =>
        cases h1
        have : ignoreNone [.punct 61, .ident b!"oauth"] = [.punct 61, .ident b!"oauth"] := by
          simp [ignoreNone]
        simp [cursorSyn, parsePunct, this] at h4
        subst h4
        cases h5
        exact absurd rfl ‹[] ≠ []›
  · rintro fs hfs f hf ⟨a, ha, -, t, ht, h⟩
    cases hfs
    rw [List.mem_singleton.mp hf] at ha
    rw [List.mem_singleton.mp ha] at ht
    cases ht
    cases h with
    | here _ h1 h2 => cases h1; obtain ⟨⟨ts, rest, h⟩, -⟩ := h2; cases h
    | later _ h1 h2 h3 =>
      cases h1 with
      | word h1 => cases h1; exact absurd rfl h2
      | list h1 h2 => cases h1; simp [cursorSyn, peekParen, ignoreNone] at h2
      | nameValue h1 h2 h3 => cases h1; simp [cursorSyn, parsePunct, ignoreNone] at h3

/-- `C88_panics_iff` for the first. -/
example := (C88_panics_iff (cursorSyn_consuming takes true) { debug := false } (.name b!"oauth")
  (fun _ => true) (item skipVariable)).mpr ⟨_, rfl, .inl (.inr ⟨_, List.mem_singleton.mpr rfl,
    (stuckAttribute_iff _ _ _ _).mpr ⟨rfl, _, List.mem_singleton.mpr rfl, rfl, _, rfl, hidden _⟩⟩)⟩
example := C88_lenient takes

end TokensExample

open TokensExample in
/-- C88 is false: `#[oauth1(skip $x)]` in a `macro_rules!` macro, where `$x:expr` is `(1)`, makes the macro
panic. -/
theorem C88_violated : ¬ C88_claim := by
  intro h
  obtain ⟨x, hx⟩ := h true readPath readExpr takes { debug := false } (.name b!"oauth") (fun _ => true)
    (item skipVariable) b!"oauth" (reads _ _)
  obtain ⟨e, he⟩ := (C88_iff true takes { debug := false } (.name b!"oauth") (fun _ => true)
    (item skipVariable) b!"oauth" (reads _ _)).mpr
    ⟨rfl, _, rfl, .inr ⟨_, List.mem_singleton.mpr rfl, _, List.mem_singleton.mpr rfl, rfl, _, rfl, hidden _⟩⟩
  rw [hx] at he
  cases he

end OAuth
