import Verif.Spec.Derive
import Verif.Proofs.Trace
import Verif.Proofs.Signing
import Verif.Proofs.Worlds

/-
Lemmas about the derive macro: attributes, sorting, generated statements.
-/

namespace OAuth

open Spec Derive

/-! ### Parsing -/

theorem uriSafeByte_eq (b : UInt8) : uriSafeByte b = unreserved b := by
  revert b; apply forall_byte; decide +kernel

variable {τ : Type}

theorem Except.ok_bind' {ε α β : Type} (a : α) (f : α → Except ε β) :
    (Except.ok a >>= f) = f a := rfl

theorem Except.error_bind' {ε α β : Type} (e : ε) (f : α → Except ε β) :
    (Except.error e >>= f) = .error e := rfl

theorem meta_parse_ok {S : Syn τ} (hS : Lawful S) (t : τ) :
    ∃ r, Meta.parse S t = .ok r ∧ ∀ m t', r = .ok (m, t') → S.size t' < S.size t := by
  unfold Meta.parse
  cases h : S.parsePath t with
  | none => exact ⟨_, rfl, by simp⟩
  | some x =>
    obtain ⟨p, t1⟩ := x
    have h1 := hS.pathSize _ _ _ h
    simp only
    by_cases hp : S.peekParen t1 = true
    · obtain ⟨t2, h2⟩ := Option.isSome_iff_exists.mp (hS.paren _ hp)
      simp only [hp, if_true, h2]
      refine ⟨_, rfl, ?_⟩
      intro m t' e
      simp only [Except.ok.injEq, Prod.mk.injEq] at e
      have := hS.groupSize _ _ h2
      rw [← e.2]; omega
    · simp only [hp]
      by_cases hq : S.peekEq t1 = true
      · obtain ⟨t2, h2⟩ := Option.isSome_iff_exists.mp (hS.eq _ hq)
        simp only [hq, if_true, h2]
        cases h3 : S.parseExpr t2 with
        | none => exact ⟨_, rfl, by simp⟩
        | some x =>
          obtain ⟨e, t3⟩ := x
          refine ⟨_, rfl, ?_⟩
          intro m t' e
          simp only [Except.ok.injEq, Prod.mk.injEq] at e
          have := hS.eqSize _ _ h2
          have := hS.exprSize _ _ _ h3
          rw [← e.2]; omega
      · simp only [hq]
        refine ⟨_, rfl, ?_⟩
        intro m t' e
        simp only [Except.ok.injEq, Prod.mk.injEq] at e
        rw [← e.2]; exact h1

theorem parseTerminated_ok {S : Syn τ} (hS : Lawful S) (fuel : Nat) (t : τ) (h : S.size t < fuel) :
    ∃ r, parseTerminated S fuel t = .ok r := by
  induction fuel generalizing t with
  | zero => omega
  | succ fuel ih =>
    unfold parseTerminated
    split
    · exact ⟨_, rfl⟩
    · obtain ⟨r, hr, hsz⟩ := meta_parse_ok hS t
      rw [hr]
      cases r with
      | error e => exact ⟨_, rfl⟩
      | ok x =>
        obtain ⟨m, t1⟩ := x
        have h1 := hsz _ _ rfl
        simp only [Except.ok_bind']
        split
        · exact ⟨_, rfl⟩
        · cases h2 : S.parseComma t1 with
          | none => exact ⟨_, rfl⟩
          | some t2 =>
            have := hS.commaSize _ _ h2
            obtain ⟨r, hr⟩ := ih t2 (by omega)
            simp only [hr, Except.ok_bind']
            cases r <;> exact ⟨_, rfl⟩

/-- Errors of `syn` are the only ones of parsing. -/
theorem parseArgs_error {S : Syn τ} {a : Attribute τ} {e : Err} (h : a.parseArgs S = .ok (.error e)) :
    e = .syn := by
  have hmeta : ∀ t e, Meta.parse S t = .ok (.error e) → e = .syn := by
    intro t e h
    unfold Meta.parse at h
    repeat' split at h
    all_goals first | (cases h; rfl) | cases h
  have hterm : ∀ fuel t e, parseTerminated S fuel t = .ok (.error e) → e = .syn := by
    intro fuel
    induction fuel with
    | zero => intro t e h; cases h
    | succ fuel ih =>
      intro t e h
      unfold parseTerminated at h
      split at h
      · cases h
      · obtain ⟨r, h1, h2⟩ := Except.bind_ok_iff.mp h
        cases r with
        | error e' => cases h2; exact hmeta _ _ h1
        | ok x =>
          simp only at h2
          split at h2
          · cases h2
          · split at h2
            · cases h2; rfl
            · obtain ⟨r, h3, h4⟩ := Except.bind_ok_iff.mp h2
              cases r with
              | error e' => cases h4; exact ih _ _ h3
              | ok x => cases h4
  unfold Attribute.parseArgs at h
  split at h
  · cases h; rfl
  · exact hterm _ _ _ h

theorem parseArgs_ok {S : Syn τ} (hS : Lawful S) (a : Attribute τ) : ∃ r, a.parseArgs S = .ok r := by
  unfold Attribute.parseArgs
  split
  · exact ⟨_, rfl⟩
  · exact parseTerminated_ok hS _ _ (by omega)

/-! ### Collecting settings -/

/-- `list` can be added to `m` one by one without errors, giving the last argument. -/
inductive Adds {μ : Type} (addMeta : μ → Meta → Except Err μ) : μ → List Meta → μ → Prop
  | nil (m : μ) : Adds addMeta m [] m
  | cons {m m' m'' : μ} {x : Meta} {xs : List Meta} :
      addMeta m x = .ok m' → Adds addMeta m' xs m'' → Adds addMeta m (x :: xs) m''

theorem Adds.unique {μ : Type} {addMeta : μ → Meta → Except Err μ} {m a b : μ} {xs : List Meta}
    (h : Adds addMeta m xs a) (h' : Adds addMeta m xs b) : a = b := by
  induction h with
  | nil => cases h'; rfl
  | cons h1 _ ih =>
    cases h' with
    | cons h2 h3 =>
      rw [h1] at h2; cases h2
      exact ih h3

theorem Adds.append {μ : Type} {addMeta : μ → Meta → Except Err μ} {m a b : μ} {xs ys : List Meta}
    (h : Adds addMeta m xs a) (h' : Adds addMeta a ys b) : Adds addMeta m (xs ++ ys) b := by
  induction h with
  | nil => exact h'
  | cons h1 _ ih => exact .cons h1 (ih h')

theorem Adds.split {μ : Type} {addMeta : μ → Meta → Except Err μ} {m b : μ} {xs ys : List Meta}
    (h : Adds addMeta m (xs ++ ys) b) : ∃ a, Adds addMeta m xs a ∧ Adds addMeta a ys b := by
  induction xs generalizing m with
  | nil => exact ⟨m, .nil m, h⟩
  | cons x xs ih =>
    cases h with
    | cons h1 h2 =>
      obtain ⟨a, h3, h4⟩ := ih h2
      exact ⟨a, .cons h1 h3, h4⟩

/-- The loop over the items of one attribute. -/
def foldItems {μ : Type} (addMeta : μ → Meta → Except Err μ) (list : List Meta) (x : μ × Ctxt) :
    μ × Ctxt :=
  list.foldl (fun (ret, cx) m =>
    match addMeta ret m with
    | .ok ret => (ret, cx)
    | .error e => (ret, cx.addError e)) x

theorem foldItems_spec {μ : Type} (addMeta : μ → Meta → Except Err μ) (list : List Meta) (ret : μ) :
    ∃ ret' es, (∀ cx, foldItems addMeta list (ret, cx) = (ret', cx ++ es)) ∧
      (es = [] → Adds addMeta ret list ret') ∧ (∀ r, Adds addMeta ret list r → es = []) := by
  induction list generalizing ret with
  | nil => exact ⟨ret, [], fun cx => by simp [foldItems], fun _ => .nil _, fun _ _ => rfl⟩
  | cons x xs ih =>
    cases h : addMeta ret x with
    | ok r1 =>
      obtain ⟨r', es, h1, h2, h3⟩ := ih r1
      refine ⟨r', es, fun cx => ?_, fun he => .cons h (h2 he), fun r hr => ?_⟩
      · rw [← h1 cx]; simp [foldItems, h]
      · cases hr with
        | cons h4 h5 => rw [h] at h4; cases h4; exact h3 _ h5
    | error e =>
      obtain ⟨r', es, h1, _, _⟩ := ih ret
      refine ⟨r', e :: es, fun cx => ?_, by simp, fun r hr => ?_⟩
      · have := h1 (cx ++ [e])
        simp only [List.append_assoc, List.singleton_append] at this
        rw [← this]; simp [foldItems, h, Ctxt.addError]
      · cases hr with
        | cons h4 h5 => rw [h] at h4; cases h4

theorem getIdent_iff (p : Path) (i : Bytes) :
    p.getIdent = some i ↔ p = { leadingColon := false, segments := [(i, false)] } := by
  obtain ⟨lc, segs⟩ := p
  unfold Path.getIdent
  constructor
  · intro h
    simp only at h
    split at h
    · cases h; rfl
    · cases h
  · intro h; cases h; rfl

theorem isOauth1_iff (a : Attribute τ) :
    isOauth1 a = true ↔ a.path.getIdent = some b!"oauth1" := by simp [isOauth1, getIdent_iff]

theorem isOauth1_false {a : Attribute τ} (h : ¬ a.path.getIdent = some b!"oauth1") :
    isOauth1 a = false := by
  rw [← isOauth1_iff] at h; simpa using h

theorem newMeta_spec {μ : Type} {S : Syn τ} (hS : Lawful S) (addMeta : μ → Meta → Except Err μ)
    (attrs : List (Attribute τ)) (ret : μ) :
    ∃ ret' es, (∀ cx, newMeta S addMeta attrs ret cx = .ok (ret', cx ++ es)) ∧
      (es = [] → AllParse S attrs ∧ Adds addMeta ret (attributeItems S attrs) ret') ∧
      (∀ r, AllParse S attrs → Adds addMeta ret (attributeItems S attrs) r → es = []) := by
  induction attrs generalizing ret with
  | nil =>
    exact ⟨ret, [], fun cx => by simp [newMeta], fun _ => ⟨by simp [AllParse], .nil _⟩,
      fun _ _ _ => rfl⟩
  | cons a attrs ih =>
    by_cases ha : a.path.getIdent = some b!"oauth1"
    · have ha' := (isOauth1_iff a).mpr ha
      obtain ⟨r, hr⟩ := parseArgs_ok hS a
      cases r with
      | error e =>
        obtain ⟨r', es, h1, _, _⟩ := ih ret
        refine ⟨r', e :: es, fun cx => ?_, by simp, fun r hp _ => ?_⟩
        · have := h1 (cx ++ [e])
          simp only [List.append_assoc, List.singleton_append] at this
          simp only [newMeta, ha, if_true, hr, Except.ok_bind', Ctxt.addError, this]
        · have := hp a (by simp) ha'
          simp [argItems, hr] at this
      | ok list =>
        obtain ⟨r1, es1, h1, h2, h3⟩ := foldItems_spec addMeta list ret
        obtain ⟨r2, es2, h4, h5, h6⟩ := ih r1
        have hitems : attributeItems S (a :: attrs) = list ++ attributeItems S attrs := by
          simp [attributeItems, ha', argItems, hr]
        refine ⟨r2, es1 ++ es2, fun cx => ?_, fun he => ?_, fun r hp had => ?_⟩
        · have e1 := h1 cx
          have step : newMeta S addMeta (a :: attrs) ret cx = newMeta S addMeta attrs
              (foldItems addMeta list (ret, cx)).1 (foldItems addMeta list (ret, cx)).2 := by
            simp only [newMeta, ha, if_true, hr, Except.ok_bind']; rfl
          rw [step, e1]
          simp only [h4, List.append_assoc]
        · obtain ⟨he1, he2⟩ := List.append_eq_nil_iff.mp he
          obtain ⟨h7, h8⟩ := h5 he2
          refine ⟨?_, hitems ▸ (h2 he1).append h8⟩
          intro b hb hb'
          rcases List.mem_cons.mp hb with e | hb
          · subst e; simp [argItems, hr]
          · exact h7 b hb hb'
        · rw [hitems] at had
          obtain ⟨m, hm1, hm2⟩ := had.split
          have e1 := h3 m hm1
          have := (h2 e1).unique hm1
          subst this
          rw [e1, h6 r (fun b hb => hp b (by simp [hb])) hm2]; rfl
    · have ha' : isOauth1 a = false := isOauth1_false ha
      obtain ⟨r', es, h1, h2, h3⟩ := ih ret
      have hitems : attributeItems S (a :: attrs) = attributeItems S attrs := by
        simp [attributeItems, ha']
      have hparse : AllParse S (a :: attrs) ↔ AllParse S attrs := by
        simp [AllParse, ha']
      rw [hitems, hparse]
      refine ⟨r', es, fun cx => ?_, h2, h3⟩
      simp only [newMeta, ha, if_false]; exact h1 cx

/-! ### Settings of a field -/

/-- The setting has not been made yet. -/
def settingFree (m : FieldMeta) : Setting → Prop
  | .encoded => m.encoded = false
  | .fmt _ => m.fmt = none
  | .option _ => m.option = none
  | .rename _ => m.rename = none
  | .skip => m.skip = false
  | .skipIf _ => m.skipIf = none

/-- Making a setting. -/
def settingApply (m : FieldMeta) : Setting → FieldMeta
  | .encoded => { m with encoded := true }
  | .fmt p => { m with fmt := some p }
  | .option b => { m with option := some b }
  | .rename n => { m with rename := some n }
  | .skip => { m with skip := true }
  | .skipIf p => { m with skipIf := some p }

theorem boolArm_ok_iff (name : Bytes) (kind : MetaKind) (c r : Bool) :
    boolArm name kind c = .ok r ↔ kind = .path ∧ c = false ∧ r = true := by
  cases kind <;> cases c <;> simp [boolArm, eq_comm]

theorem valueArm_ok_iff {α : Type} (f : Expr → Except Err α) (name : Bytes) (kind : MetaKind)
    (c r : Option α) : valueArm f name kind c = .ok r ↔
      ∃ e v, kind = .nameValue e ∧ f e = .ok v ∧ c = none ∧ r = some v := by
  cases kind with
  | path => simp [valueArm]
  | list => simp [valueArm]
  | nameValue e =>
    cases h : f e with
    | error x => simp [valueArm, h, Except.bind_ok_iff]
    | ok v =>
      cases c with
      | none =>
        simp only [valueArm, Except.bind_ok_iff, Option.isSome_none]
        constructor
        · rintro ⟨a, ha, h'⟩; cases h'; exact ⟨e, a, rfl, ha, trivial, rfl⟩
        · rintro ⟨e', v', he, hv, -, hr⟩; cases he; rw [h] at hv; cases hv
          exact ⟨v, h, by simp [hr]⟩
      | some c => simp [valueArm, Except.bind_ok_iff]

theorem pathFromExpr_ok_iff (e : Expr) (p : ExprPath) :
    pathFromExpr e = .ok p ↔ e = .path p := by cases e <;> simp [pathFromExpr]

theorem boolFromExpr_ok_iff (e : Expr) (b : Bool) :
    boolFromExpr e = .ok b ↔ e = .litBool b := by cases e <;> simp [boolFromExpr]

theorem uriSafeFromExpr_ok_iff (e : Expr) (n : Bytes) :
    uriSafeFromExpr e = .ok n ↔ e = .litStr n ∧ ∀ b ∈ n, unreserved b = true := by
  cases e with
  | litStr s =>
    simp only [uriSafeFromExpr]
    split
    · next h =>
      simp only [List.all_eq_true, uriSafeByte_eq] at h
      constructor
      · intro e; cases e; exact ⟨rfl, h⟩
      · rintro ⟨e, -⟩; cases e; rfl
    · next h =>
      simp only [List.all_eq_true, uriSafeByte_eq] at h
      constructor
      · intro e; cases e
      · rintro ⟨e, h'⟩; cases e; exact absurd h' h
  | _ => simp [uriSafeFromExpr]

theorem addMeta_ok_iff (m m' : FieldMeta) (x : Meta) : m.addMeta x = .ok m' ↔
    ∃ t, SetsTo x t ∧ settingFree m t ∧ m' = settingApply m t := by
  constructor
  · intro h
    unfold FieldMeta.addMeta at h
    split at h
    · cases h
    · next name hid =>
      rw [getIdent_iff] at hid
      split at h
      · next hn =>
        subst hn
        obtain ⟨v, hv, h⟩ := Except.bind_ok_iff.mp h
        obtain ⟨h1, h2, h3⟩ := (boolArm_ok_iff _ _ _ _).mp hv
        cases h
        exact ⟨.encoded, ⟨hid, h1, by simp⟩, h2, by rw [h3]; rfl⟩
      split at h
      · next hn =>
        subst hn
        obtain ⟨v, hv, h⟩ := Except.bind_ok_iff.mp h
        obtain ⟨e, w, h1, h2, h3, h4⟩ := (valueArm_ok_iff _ _ _ _ _).mp hv
        cases h
        rw [pathFromExpr_ok_iff] at h2
        exact ⟨.fmt w, ⟨hid, by rw [h1, h2]; rfl, by simp⟩, h3, by rw [h4]; rfl⟩
      split at h
      · next hn =>
        subst hn
        obtain ⟨v, hv, h⟩ := Except.bind_ok_iff.mp h
        obtain ⟨e, w, h1, h2, h3, h4⟩ := (valueArm_ok_iff _ _ _ _ _).mp hv
        cases h
        rw [boolFromExpr_ok_iff] at h2
        exact ⟨.option w, ⟨hid, by rw [h1, h2]; rfl, by simp⟩, h3, by rw [h4]; rfl⟩
      split at h
      · next hn =>
        subst hn
        obtain ⟨v, hv, h⟩ := Except.bind_ok_iff.mp h
        obtain ⟨e, w, h1, h2, h3, h4⟩ := (valueArm_ok_iff _ _ _ _ _).mp hv
        cases h
        rw [uriSafeFromExpr_ok_iff] at h2
        exact ⟨.rename w, ⟨hid, by rw [h1, h2.1]; rfl, by intro n e; cases e; exact h2.2⟩, h3,
          by rw [h4]; rfl⟩
      split at h
      · next hn =>
        subst hn
        obtain ⟨v, hv, h⟩ := Except.bind_ok_iff.mp h
        obtain ⟨h1, h2, h3⟩ := (boolArm_ok_iff _ _ _ _).mp hv
        cases h
        exact ⟨.skip, ⟨hid, h1, by simp⟩, h2, by rw [h3]; rfl⟩
      split at h
      · next hn =>
        subst hn
        obtain ⟨v, hv, h⟩ := Except.bind_ok_iff.mp h
        obtain ⟨e, w, h1, h2, h3, h4⟩ := (valueArm_ok_iff _ _ _ _ _).mp hv
        cases h
        rw [pathFromExpr_ok_iff] at h2
        exact ⟨.skipIf w, ⟨hid, by rw [h1, h2]; rfl, by simp⟩, h3, by rw [h4]; rfl⟩
      · cases h
  · rintro ⟨t, ⟨h1, h2, h3⟩, hf, rfl⟩
    have hid := (getIdent_iff _ _).mpr h1
    unfold FieldMeta.addMeta
    rw [hid]
    cases t with
    | encoded =>
      simp only [settingFree] at hf
      simp [Setting.name, h2, Setting.kind, boolArm, hf, settingApply, Except.ok_bind']
    | skip =>
      simp only [settingFree] at hf
      simp [Setting.name, h2, Setting.kind, boolArm, hf, settingApply, Except.ok_bind']
    | fmt p =>
      simp only [settingFree] at hf
      simp [Setting.name, h2, Setting.kind, valueArm, pathFromExpr, hf, settingApply,
        Except.ok_bind']
    | option b =>
      simp only [settingFree] at hf
      simp [Setting.name, h2, Setting.kind, valueArm, boolFromExpr, hf, settingApply,
        Except.ok_bind']
    | rename n =>
      simp only [settingFree] at hf
      have : uriSafeFromExpr (.litStr n) = .ok n :=
        (uriSafeFromExpr_ok_iff _ _).mpr ⟨rfl, h3 n rfl⟩
      simp [Setting.name, h2, Setting.kind, valueArm, this, hf, settingApply, Except.ok_bind']
    | skipIf p =>
      simp only [settingFree] at hf
      simp [Setting.name, h2, Setting.kind, valueArm, pathFromExpr, hf, settingApply,
        Except.ok_bind']

theorem configures_nil : Configures (fun _ => False) {} := by
  constructor <;> simp

theorem settingFree_iff {has : Setting → Prop} {m : FieldMeta} (h : Configures has m) (t : Setting) :
    settingFree m t ↔ ∀ u, has u → u.name ≠ t.name := by
  have key : ∀ u : Setting, u.name = t.name ↔ match t, u with
      | .encoded, .encoded => True | .fmt _, .fmt _ => True | .option _, .option _ => True
      | .rename _, .rename _ => True | .skip, .skip => True | .skipIf _, .skipIf _ => True
      | _, _ => False := by
    intro u; cases t <;> cases u <;> simp [Setting.name]
  have none_iff : ∀ {α : Type} (o : Option α), o = none ↔ ∀ a, ¬ o = some a := by
    intro α o; cases o <;> simp
  simp only [ne_eq, key]
  cases t with
  | encoded =>
    simp only [settingFree, ← Bool.not_eq_true, h.encoded]
    exact ⟨fun hn u hu => by cases u <;> first | exact id | exact fun _ => hn hu,
      fun hn hm => hn _ hm trivial⟩
  | skip =>
    simp only [settingFree, ← Bool.not_eq_true, h.skip]
    exact ⟨fun hn u hu => by cases u <;> first | exact id | exact fun _ => hn hu,
      fun hn hm => hn _ hm trivial⟩
  | fmt p =>
    rw [settingFree, none_iff]
    simp only [h.fmt]
    exact ⟨fun hn u hu => by cases u <;> first | exact id | exact fun _ => hn _ hu,
      fun hn a hm => hn _ hm trivial⟩
  | option p =>
    rw [settingFree, none_iff]
    simp only [h.option]
    exact ⟨fun hn u hu => by cases u <;> first | exact id | exact fun _ => hn _ hu,
      fun hn a hm => hn _ hm trivial⟩
  | rename p =>
    rw [settingFree, none_iff]
    simp only [h.rename]
    exact ⟨fun hn u hu => by cases u <;> first | exact id | exact fun _ => hn _ hu,
      fun hn a hm => hn _ hm trivial⟩
  | skipIf p =>
    rw [settingFree, none_iff]
    simp only [h.skipIf]
    exact ⟨fun hn u hu => by cases u <;> first | exact id | exact fun _ => hn _ hu,
      fun hn a hm => hn _ hm trivial⟩

theorem configures_apply {has : Setting → Prop} {m : FieldMeta} (h : Configures has m) (t : Setting)
    (hf : settingFree m t) : Configures (fun u => has u ∨ u = t) (settingApply m t) := by
  obtain ⟨h1, h2, h3, h4, h5, h6⟩ := h
  have free : ∀ {α : Type} {o : Option α} {P : α → Prop}, (∀ a, o = some a ↔ P a) → o = none →
      ∀ a, ¬ P a := by
    intro α o P h e a hp; rw [← h, e] at hp; cases hp
  cases t with
  | encoded => constructor <;> simp [settingApply, h2, h3, h4, h5, h6]
  | skip => constructor <;> simp [settingApply, h1, h2, h3, h4, h6]
  | fmt p =>
    have hn := free h2 hf
    constructor
    case fmt => intro q; simp [settingApply, hn, @eq_comm _ p q]
    all_goals simp [settingApply, h1, h3, h4, h5, h6]
  | option p =>
    have hn := free h3 hf
    constructor
    case option => intro q; simp only [settingApply, hn, Option.some.injEq, false_or, Setting.option.injEq, @eq_comm _ p q]
    all_goals simp [settingApply, h1, h2, h4, h5, h6, -Bool.forall_bool]
  | rename p =>
    have hn := free h4 hf
    constructor
    case rename => intro q; simp [settingApply, hn, @eq_comm _ p q]
    all_goals simp [settingApply, h1, h2, h3, h5, h6]
  | skipIf p =>
    have hn := free h6 hf
    constructor
    case skipIf => intro q; simp [settingApply, hn, @eq_comm _ p q]
    all_goals simp [settingApply, h1, h2, h3, h4, h5]

theorem Spec.Configures.congr {has has' : Setting → Prop} {m : FieldMeta} (h : Configures has m)
    (e : ∀ t, has t ↔ has' t) : Configures has' m := by
  have : has = has' := funext fun t => propext (e t)
  rwa [← this]

theorem Spec.Configures.unique {has : Setting → Prop} {a b : FieldMeta} (ha : Configures has a)
    (hb : Configures has b) : a = b := by
  have opt : ∀ {α : Type} {x y : Option α}, (∀ v, x = some v ↔ y = some v) → x = y := by
    intro α x y h
    cases x with
    | none =>
      cases y with
      | none => rfl
      | some v => exact absurd ((h v).mpr rfl) (by simp)
    | some v => exact ((h v).mp rfl).symm
  have bool : ∀ {x y : Bool}, (x = true ↔ y = true) → x = y := by
    intro x y h; cases x <;> cases y <;> simp_all
  obtain ⟨a1, a2, a3, a4, a5, a6⟩ := ha
  obtain ⟨b1, b2, b3, b4, b5, b6⟩ := hb
  obtain ⟨x1, x2, x3, x4, x5, x6⟩ := a
  obtain ⟨y1, y2, y3, y4, y5, y6⟩ := b
  simp only [FieldMeta.mk.injEq]
  exact ⟨bool (a1.trans b1.symm), opt fun v => (a2 v).trans (b2 v).symm,
    opt fun v => (a3 v).trans (b3 v).symm, opt fun v => (a4 v).trans (b4 v).symm,
    bool (a5.trans b5.symm), opt fun v => (a6 v).trans (b6 v).symm⟩

theorem Spec.SetsTo.unique {m : Meta} {t u : Setting} (h : SetsTo m t) (h' : SetsTo m u) : t = u := by
  obtain ⟨h1, h2, -⟩ := h
  obtain ⟨h3, h4, -⟩ := h'
  rw [h1] at h3
  rw [h2] at h4
  cases t <;> cases u <;> simp_all [Setting.name, Setting.kind]

theorem Spec.SetsTo.path_eq {m n : Meta} {t u : Setting} (h : SetsTo m t) (h' : SetsTo n u) :
    m.path = n.path ↔ t.name = u.name := by
  rw [h.1, h'.1]; simp

/-- Items can be added one by one iff each is well-formed and no name is repeated, neither among them
nor with what has been set before. -/
theorem adds_iff (items : List Meta) {has : Setting → Prop} {m : FieldMeta} (h : Configures has m) :
    (∃ m', Adds FieldMeta.addMeta m items m') ↔
      (∀ x ∈ items, ∃ t, SetsTo x t ∧ ∀ u, has u → u.name ≠ t.name) ∧
        (items.map Meta.path).Nodup := by
  induction items generalizing has m with
  | nil => exact ⟨fun _ => ⟨by simp, by simp⟩, fun _ => ⟨m, .nil m⟩⟩
  | cons x xs ih =>
    constructor
    · rintro ⟨m', hm'⟩
      cases hm' with
      | cons h1 h2 =>
        obtain ⟨t, hw, hf, rfl⟩ := (addMeta_ok_iff _ _ _).mp h1
        obtain ⟨h3, h4⟩ := (ih (configures_apply h t hf)).mp ⟨_, h2⟩
        refine ⟨?_, ?_⟩
        · intro y hy
          rcases List.mem_cons.mp hy with e | hy
          · subst e; exact ⟨t, hw, (settingFree_iff h t).mp hf⟩
          · obtain ⟨u, hu, hu'⟩ := h3 y hy
            exact ⟨u, hu, fun v hv => hu' v (.inl hv)⟩
        · rw [List.map_cons, List.nodup_cons]
          refine ⟨?_, h4⟩
          intro hmem
          obtain ⟨y, hy, hp⟩ := List.mem_map.mp hmem
          obtain ⟨u, hu, hu'⟩ := h3 y hy
          exact hu' t (.inr rfl) ((hw.path_eq hu).mp hp.symm)
    · rintro ⟨h1, h2⟩
      rw [List.map_cons, List.nodup_cons] at h2
      obtain ⟨t, hw, ht⟩ := h1 x (by simp)
      have hf := (settingFree_iff h t).mpr ht
      obtain ⟨m', hm'⟩ := (ih (configures_apply h t hf)).mpr ⟨by
        intro y hy
        obtain ⟨u, hu, hu'⟩ := h1 y (by simp [hy])
        refine ⟨u, hu, ?_⟩
        rintro v (hv | rfl)
        · exact hu' v hv
        · intro e
          exact h2.1 (List.mem_map.mpr ⟨y, hy, ((hw.path_eq hu).mpr e).symm⟩), h2.2⟩
      exact ⟨m', .cons ((addMeta_ok_iff _ _ _).mpr ⟨t, hw, hf, rfl⟩) hm'⟩

theorem adds_configures {items : List Meta} {has : Setting → Prop} {m m' : FieldMeta}
    (h : Configures has m) (ha : Adds FieldMeta.addMeta m items m') :
    Configures (fun t => has t ∨ ∃ x ∈ items, SetsTo x t) m' := by
  induction items generalizing has m with
  | nil => cases ha; exact h.congr (by simp)
  | cons x xs ih =>
    cases ha with
    | cons h1 h2 =>
      obtain ⟨t, hw, hf, rfl⟩ := (addMeta_ok_iff _ _ _).mp h1
      refine (ih (configures_apply h t hf) h2).congr ?_
      intro u
      constructor
      · rintro ((hu | rfl) | ⟨y, hy, hu⟩)
        · exact .inl hu
        · exact .inr ⟨x, by simp, hw⟩
        · exact .inr ⟨y, by simp [hy], hu⟩
      · rintro (hu | ⟨y, hy, hu⟩)
        · exact .inl (.inl hu)
        · rcases List.mem_cons.mp hy with e | hy
          · subst e; exact .inl (.inr (hu.unique hw))
          · exact .inr ⟨y, hy, hu⟩

/-! ### Options -/

theorem isOption_iff (t : Ty) : isOption t = true ↔ OptionType t := by
  induction t with
  | group t ih =>
    rw [isOption, ih]
    exact ⟨.group, fun h => by cases h with | group h => exact h⟩
  | path lc segs =>
    constructor
    · intro h
      cases lc with
      | true => simp [isOption] at h
      | false =>
        match segs with
        | [] => simp [isOption] at h
        | [(i, args)] =>
          cases args with
          | none => simp [isOption] at h
          | parenthesized => simp [isOption] at h
          | angleBracketed n =>
            simp only [isOption, Bool.not_false, Bool.true_and, Bool.and_eq_true, beq_iff_eq] at h
            rw [h.1, h.2]; exact .plain
        | _ :: _ :: _ => simp [isOption] at h
    · intro h; cases h; rfl
  | other => exact ⟨fun h => by simp [isOption] at h, fun h => nomatch h⟩

theorem treatedAsOption_iff (f : Field) :
    f.info.option.getD (isOption f.ty) = true ↔ TreatedAsOption f := by
  unfold TreatedAsOption
  cases h : f.info.option with
  | none => simp [isOption_iff]
  | some b => simp

theorem fieldName_eq (f : Field) : f.name = parameterName f := by
  unfold Field.name parameterName
  cases f.info.rename <;> rfl

/-! ### Generated statements -/

section Body

variable {V σ ω : Type}

/-- The cursor position of a protocol parameter. -/
def paramOf (q : Proto) : OAuthParameter := cursorOf [q]

theorem exec_oauth (sc : Scope V) (self : Bytes → V) (S : Serializer σ ω) (b : Option V) (q : Proto)
    (s : σ) : Stmt.exec sc self S b (.oauth (paramOf q)) s = Call.run S (.oauth q) s := by
  cases q <;> rfl

theorem cursor_tokens (p : OAuthParameter) (hp : p ≠ .none) :
    ∃ q ps, protoFrom p = q :: ps ∧ oauthTokens p = .ok (.oauth (paramOf q)) := by
  cases p
  case none => exact absurd rfl hp
  all_goals exact ⟨_, _, rfl, rfl⟩

theorem genLess_eq (cfg : Cfg) (k : Bytes) (fuel : Nat) (p : OAuthParameter) (tokens : List Stmt)
    (hf : (protoFrom p).length < fuel) :
    genLess cfg k fuel p tokens =
      .ok (cursorOf ((protoFrom p).dropWhile (fun q => cmpBytes q.name k == .lt)),
        tokens ++ ((protoFrom p).takeWhile (fun q => cmpBytes q.name k == .lt)).map
          (fun q => .oauth (paramOf q))) := by
  induction fuel generalizing p tokens with
  | zero => omega
  | succ fuel ih =>
    by_cases hp : p = .none
    · subst hp
      simp [genLess, OAuthParameter.ltStr, OAuthParameter.cmpStr, OAuthParameter.asStr, protoFrom,
        cursorOf]
    · obtain ⟨q, p', h1, h2, h3, -⟩ := cursor_step cfg p hp
      obtain ⟨q', ps, h1', ht⟩ := cursor_tokens p hp
      rw [h1] at h1'; cases h1'
      simp only [genLess, h3, h2, h1, List.takeWhile_cons, List.dropWhile_cons, ht, Except.ok_bind']
      split
      · rw [ih p' _ (by rw [h1] at hf; simp at hf; omega)]
        simp
      · rw [← h1, cursorOf_protoFrom]; simp

theorem genRest_eq (cfg : Cfg) (fuel : Nat) (p : OAuthParameter) (tokens : List Stmt)
    (hf : (protoFrom p).length < fuel) :
    genRest cfg fuel p tokens =
      .ok (tokens ++ (protoFrom p).map (fun q => .oauth (paramOf q))) := by
  induction fuel generalizing p tokens with
  | zero => omega
  | succ fuel ih =>
    by_cases hp : p = .none
    · subst hp; simp [genRest, protoFrom]
    · obtain ⟨q, p', h1, h2, -, -⟩ := cursor_step cfg p hp
      obtain ⟨q', ps, h1', ht⟩ := cursor_tokens p hp
      rw [h1] at h1'; cases h1'
      simp only [genRest, if_pos hp, h2, h1, ht, Except.ok_bind']
      rw [ih p' _ (by rw [h1] at hf; simp at hf; omega)]
      simp

/-- The statements generated for the fields when the remaining protocol parameters are `ps`. -/
def weaveStmts : List Proto → List Field → List Stmt
  | ps, [] => ps.map (fun q => .oauth (paramOf q))
  | ps, f :: fs =>
    (ps.takeWhile (fun q => cmpBytes q.name f.name == .lt)).map (fun q => .oauth (paramOf q)) ++
      fieldStmt f :: weaveStmts (ps.dropWhile (fun q => cmpBytes q.name f.name == .lt)) fs

/-- The fields that take part. -/
def kept (fs : List Field) : List Field := fs.filter (fun f => !f.info.skip)

theorem gen_eq (cfg : Cfg) (fs : List Field) (p : OAuthParameter) (tokens : List Stmt) :
    (do let (p, tokens) ← genFields cfg fs p tokens
        genRest cfg 9 p tokens) = .ok (tokens ++ weaveStmts (protoFrom p) (kept fs)) := by
  induction fs generalizing p tokens with
  | nil => simp [genFields, Except.ok_bind', genRest_eq cfg 9 p tokens (protoFrom_length p), kept,
      weaveStmts]
  | cons f fs ih =>
    by_cases hs : f.info.skip = true
    · simp only [genFields, hs, if_true, ih]
      simp [kept, hs]
    · have hk : kept (f :: fs) = f :: kept fs := by simp [kept, hs]
      simp only [genFields, hs, genLess_eq cfg f.name 9 p tokens (protoFrom_length p),
        Except.ok_bind', Bool.false_eq_true, if_false]
      rw [ih, protoFrom_dropWhile, hk]
      simp [weaveStmts]

theorem methodBody_eq (cfg : Cfg) (fs : List Field) :
    methodBody cfg fs = .ok (weaveStmts allProto (kept fs)) := by
  have := gen_eq cfg fs .callback []
  simpa [methodBody, OAuthParameter.default, protoFrom] using this

/-- The call a field leads to. -/
def fieldCall (sc : Scope V) (self : Bytes → V) (f : Field) : Option Call :=
  let u := if f.info.option.getD (isOption f.ty) then sc.asRef (self f.ident) else some (self f.ident)
  u.bind fun u =>
    if (f.info.skipIf.map (fun p => sc.pred p u)).getD false then none
    else some (if f.info.encoded then .parameterEncoded f.name (shownBy sc f u)
      else .parameter f.name (shownBy sc f u))

theorem exec_parameter (sc : Scope V) (self : Bytes → V) (S : Serializer σ ω) (f : Field)
    (b : Option V) (pl : Place) (u : V) (hu : pl.eval self b = .ok u) (s : σ) :
    Stmt.exec sc self S b (.parameter f.info.encoded f.name (match f.info.fmt with
      | some fmt => .formatted fmt pl
      | none => .plain pl)) s =
    Call.run S (if f.info.encoded then .parameterEncoded f.name (shownBy sc f u)
      else .parameter f.name (shownBy sc f u)) s := by
  have hd : Shown.eval sc self b (match f.info.fmt with
      | some fmt => .formatted fmt pl
      | none => .plain pl) = .ok (shownBy sc f u) := by
    unfold shownBy
    cases f.info.fmt <;> simp [Shown.eval, hu, Except.map]
  simp only [Stmt.exec, hd, liftOk, pure_bind]
  cases f.info.encoded <;> rfl

theorem exec_skipIf (sc : Scope V) (self : Bytes → V) (S : Serializer σ ω) (o : Option ExprPath)
    (b : Option V) (pl : Place) (u : V) (hu : pl.eval self b = .ok u) (body : Stmt) (s : σ) :
    Stmt.exec sc self S b (match o with
      | some p => .unlessPred p pl body
      | none => body) s =
    if (o.map (fun p => sc.pred p u)).getD false then pure s
    else Stmt.exec sc self S b body s := by
  cases o with
  | none => simp
  | some p => simp [Stmt.exec, hu, liftOk]

theorem exec_field (sc : Scope V) (self : Bytes → V) (S : Serializer σ ω) (f : Field) (s : σ) :
    Stmt.exec sc self S none (fieldStmt f) s = runCalls S (fieldCall sc self f).toList s := by
  unfold fieldStmt fieldCall
  cases ho : f.info.option.getD (isOption f.ty) with
  | true =>
    simp only [if_true, Stmt.exec]
    cases hv : sc.asRef (self f.ident) with
    | none => simp [runCalls]
    | some u =>
      simp only [Option.bind_some]
      refine (exec_skipIf sc self S f.info.skipIf (some u) .bound u rfl _ s).trans ?_
      split
      · simp [runCalls]
      · refine (exec_parameter sc self S f (some u) .bound u rfl s).trans ?_
        simp [runCalls]
  | false =>
    simp only [Bool.false_eq_true, if_false, Option.bind_some]
    refine (exec_skipIf sc self S f.info.skipIf none (.field f.ident) (self f.ident) rfl _ s).trans ?_
    split
    · simp [runCalls]
    · refine (exec_parameter sc self S f none (.field f.ident) (self f.ident) rfl s).trans ?_
      simp [runCalls]

theorem fieldCall_iff (sc : Scope V) (self : Bytes → V) (f : Field) (hs : f.info.skip = false)
    (c : Call) : fieldCall sc self f = some c ↔ SentAs sc f (self f.ident) c := by
  unfold SentAs
  simp only [hs, true_and]
  have hpred : ∀ u, (∀ p, f.info.skipIf = some p → sc.pred p u = false) ↔
      (f.info.skipIf.map (fun p => sc.pred p u)).getD false = false := by
    intro u; cases f.info.skipIf <;> simp
  unfold fieldCall UnwrapsTo
  simp only [hpred, ← fieldName_eq, ← treatedAsOption_iff]
  cases ho : f.info.option.getD (isOption f.ty) with
  | true =>
    simp only [if_true, Option.bind_eq_some_iff]
    constructor
    · rintro ⟨u, hu, h⟩
      split at h
      · cases h
      · next hp => cases h; exact ⟨u, .inl ⟨trivial, hu⟩, by simpa using hp, rfl⟩
    · rintro ⟨u, hu, hp, rfl⟩
      have hu : sc.asRef (self f.ident) = some u := by
        rcases hu with h | h
        · exact h.2
        · exact absurd trivial h.1
      exact ⟨u, hu, by simp [hp]⟩
  | false =>
    simp only [Bool.false_eq_true, if_false, Option.bind_some]
    constructor
    · intro h
      split at h
      · cases h
      · next hp => cases h; exact ⟨_, .inr ⟨not_false, rfl⟩, by simpa using hp, rfl⟩
    · rintro ⟨u, hu, hp, rfl⟩
      have hu : u = self f.ident := by
        rcases hu with h | h
        · exact h.1.elim
        · exact h.2
      subst hu
      simp [hp]

/-- The calls made by the generated code when the remaining protocol parameters are `ps`. -/
def weaveCalls (sc : Scope V) (self : Bytes → V) : List Proto → List Field → List Call
  | ps, [] => ps.map .oauth
  | ps, f :: fs =>
    (ps.takeWhile (fun q => cmpBytes q.name f.name == .lt)).map .oauth ++
      ((fieldCall sc self f).toList ++
        weaveCalls sc self (ps.dropWhile (fun q => cmpBytes q.name f.name == .lt)) fs)

theorem execAll_append (sc : Scope V) (self : Bytes → V) (S : Serializer σ ω) (a b : List Stmt)
    (s : σ) : execAll sc self S (a ++ b) s =
      (do let s ← execAll sc self S a s; execAll sc self S b s) := by
  induction a generalizing s with
  | nil => simp [execAll]
  | cons t a ih => simp [execAll, ih]

theorem execAll_oauth (sc : Scope V) (self : Bytes → V) (S : Serializer σ ω) (ps : List Proto)
    (s : σ) : execAll sc self S (ps.map (fun q => .oauth (paramOf q))) s =
      runCalls S (ps.map .oauth) s := by
  induction ps generalizing s with
  | nil => rfl
  | cons q ps ih => simp only [List.map_cons, execAll, runCalls, exec_oauth, ih]

theorem execAll_weave (sc : Scope V) (self : Bytes → V) (S : Serializer σ ω) (ps : List Proto)
    (fs : List Field) (s : σ) : execAll sc self S (weaveStmts ps fs) s =
      runCalls S (weaveCalls sc self ps fs) s := by
  induction fs generalizing ps s with
  | nil => exact execAll_oauth sc self S ps s
  | cons f fs ih =>
    simp only [weaveStmts, weaveCalls, execAll_append, runCalls_append, execAll_oauth, execAll, ih,
      exec_field]

theorem isTrace_request (sc : Scope V) (self : Bytes → V) (fs : List Field) :
    IsTrace (Derive.request sc self (weaveStmts allProto fs)) (weaveCalls sc self allProto fs) := by
  intro σ ω S s
  simp only [Derive.request, execAll_weave]

/-! ### What is emitted -/

/-- The pairs sent, in the order of the fields. -/
def sentPairs (sc : Scope V) (self : Bytes → V) (fs : List Field) : List (Bytes × Display) :=
  (fs.filterMap (fieldCall sc self)).filterMap (fun c => c.forget.pair?)

theorem fieldCall_shape (sc : Scope V) (self : Bytes → V) (f : Field) (c : Call)
    (h : fieldCall sc self f = some c) :
    ∃ v, c.forget = .parameter f.name v ∧ c.isRequest = true ∧ c.key = f.name := by
  unfold fieldCall at h
  simp only [Option.bind_eq_some_iff] at h
  obtain ⟨u, -, h⟩ := h
  split at h
  · cases h
  · cases h
    cases f.info.encoded
    · exact ⟨_, rfl, rfl, rfl⟩
    · exact ⟨_, rfl, rfl, rfl⟩

theorem weave_skip (ps : List Proto) (k : Bytes) (l : List (Bytes × Display))
    (h : ∀ x ∈ l, bytesLe k x.1 = true) :
    (ps.takeWhile (fun q => cmpBytes q.name k == .lt)).map .oauth ++
      weave (ps.dropWhile (fun q => cmpBytes q.name k == .lt)) l = weave ps l := by
  cases l with
  | nil =>
    simp only [weave, ← List.map_append, List.takeWhile_append_dropWhile]
  | cons x l =>
    obtain ⟨k2, v⟩ := x
    have hk : bytesLe k k2 = true := h (k2, v) (by simp)
    simp only [weave]
    have hlt : ∀ q : Proto, (cmpBytes q.name k == .lt) = true → (cmpBytes q.name k2 == .lt) = true := by
      intro q hq
      simp only [beq_iff_eq] at hq ⊢
      rw [← not_bytesLe_iff] at hq ⊢
      cases hb : bytesLe k2 q.name with
      | false => rfl
      | true => rw [bytesLe_trans hk hb] at hq; exact hq
    rw [← List.append_assoc, ← List.map_append]
    have ht : ∀ ps : List Proto, ps.takeWhile (fun q => cmpBytes q.name k == .lt) ++
        (ps.dropWhile (fun q => cmpBytes q.name k == .lt)).takeWhile
          (fun q => cmpBytes q.name k2 == .lt) =
        ps.takeWhile (fun q => cmpBytes q.name k2 == .lt) := by
      intro ps
      induction ps with
      | nil => rfl
      | cons q ps ih =>
        simp only [List.takeWhile_cons, List.dropWhile_cons]
        by_cases hq : (cmpBytes q.name k == .lt) = true
        · simp only [hq, if_true, hlt q hq, List.cons_append, ih]
        · simp only [hq, Bool.false_eq_true, if_false, List.nil_append, List.takeWhile_cons]
    have hd : ∀ ps : List Proto, (ps.dropWhile (fun q => cmpBytes q.name k == .lt)).dropWhile
          (fun q => cmpBytes q.name k2 == .lt) =
        ps.dropWhile (fun q => cmpBytes q.name k2 == .lt) := by
      intro ps
      induction ps with
      | nil => rfl
      | cons q ps ih =>
        simp only [List.dropWhile_cons]
        by_cases hq : (cmpBytes q.name k == .lt) = true
        · simp only [hq, if_true, hlt q hq, ih]
        · simp only [hq, Bool.false_eq_true, if_false, List.dropWhile_cons]
    rw [ht, hd]

theorem weaveCalls_forget (sc : Scope V) (self : Bytes → V) (ps : List Proto) (fs : List Field)
    (h : fs.Pairwise (fun a b => bytesLe a.name b.name = true)) :
    (weaveCalls sc self ps fs).map Call.forget = weave ps (sentPairs sc self fs) := by
  induction fs generalizing ps with
  | nil => simp [weaveCalls, weave, sentPairs, Call.forget]
  | cons f fs ih =>
    rw [List.pairwise_cons] at h
    simp only [weaveCalls, List.map_append, ih _ h.2, List.map_map]
    have hmap : ∀ l : List Proto, l.map (Call.forget ∘ Call.oauth) = l.map Call.oauth := by
      intro l; rfl
    rw [hmap]
    cases hc : fieldCall sc self f with
    | none =>
      have : sentPairs sc self (f :: fs) = sentPairs sc self fs := by simp [sentPairs, hc]
      rw [this]
      simp only [Option.toList_none, List.map_nil, List.nil_append]
      apply weave_skip
      intro x hx
      simp only [sentPairs, List.mem_filterMap] at hx
      obtain ⟨c, ⟨g, hg, hgc⟩, hx⟩ := hx
      obtain ⟨v, h1, -, -⟩ := fieldCall_shape sc self g c hgc
      rw [h1] at hx
      simp only [Call.pair?, Option.some.injEq] at hx
      rw [← hx]
      exact h.1 g hg
    | some c =>
      obtain ⟨v, h1, -, -⟩ := fieldCall_shape sc self f c hc
      have : sentPairs sc self (f :: fs) = (f.name, v) :: sentPairs sc self fs := by
        simp [sentPairs, hc, h1, Call.pair?]
      rw [this]
      simp [weave, h1]

theorem weaveCalls_requests (sc : Scope V) (self : Bytes → V) (ps : List Proto) (fs : List Field) :
    (weaveCalls sc self ps fs).filter Call.isRequest = fs.filterMap (fieldCall sc self) := by
  have hoauth : ∀ l : List Proto, (l.map Call.oauth).filter Call.isRequest = [] := by
    intro l; simp [Call.isRequest]
  induction fs generalizing ps with
  | nil => simp [weaveCalls, hoauth]
  | cons f fs ih =>
    simp only [weaveCalls, List.filter_append, hoauth, List.nil_append, ih]
    cases hc : fieldCall sc self f with
    | none => simp [hc]
    | some c =>
      obtain ⟨v, -, h2, -⟩ := fieldCall_shape sc self f c hc
      simp [hc, h2]

end Body

/-! ### Sorting and duplicates -/

theorem insertByName_perm (f : Field) (fs : List Field) : (insertByName f fs).Perm (f :: fs) := by
  induction fs with
  | nil => exact .refl _
  | cons g gs ih =>
    unfold insertByName
    split
    · exact .refl _
    · exact (ih.cons g).trans (.swap f g gs)

theorem sortByName_perm (fs : List Field) : (sortByName fs).Perm fs := by
  induction fs with
  | nil => exact .refl _
  | cons f fs ih => exact (insertByName_perm f _).trans (ih.cons f)

/-- Sorted by name. -/
def NameSorted (fs : List Field) : Prop := fs.Pairwise (fun a b => bytesLe a.name b.name = true)

theorem insertByName_sorted (f : Field) (fs : List Field) (h : NameSorted fs) :
    NameSorted (insertByName f fs) := by
  induction fs with
  | nil => simp [insertByName, NameSorted]
  | cons g gs ih =>
    unfold NameSorted at h ih ⊢
    rw [List.pairwise_cons] at h
    unfold insertByName
    split
    · next hle =>
      rw [List.pairwise_cons, List.pairwise_cons]
      refine ⟨?_, h⟩
      intro x hx
      rcases List.mem_cons.mp hx with e | hx
      · subst e; exact hle
      · exact bytesLe_trans hle (h.1 x hx)
    · next hle =>
      rw [List.pairwise_cons]
      refine ⟨?_, ih h.2⟩
      intro x hx
      rcases List.mem_cons.mp ((insertByName_perm f gs).mem_iff.mp hx) with e | hx
      · subst e
        rcases bytesLe_total x.name g.name with h' | h'
        · exact absurd h' hle
        · exact h'
      · exact h.1 x hx

theorem sortByName_sorted (fs : List Field) : NameSorted (sortByName fs) := by
  induction fs with
  | nil => exact List.Pairwise.nil
  | cons f fs ih => exact insertByName_sorted f _ ih

/-- The names reported as duplicates. -/
def reported : List Field → Bytes → List Err
  | [], _ => []
  | f :: fs, prev =>
    (if f.name = prev then [.duplicateParameter f.name] else []) ++ reported fs f.name

theorem checkDuplicates_eq (fs : List Field) (prev : Bytes) (cx : Ctxt) :
    checkDuplicates fs prev cx = cx ++ reported fs prev := by
  induction fs generalizing prev cx with
  | nil => simp [checkDuplicates, reported]
  | cons f fs ih =>
    simp only [checkDuplicates, reported, ih]
    split <;> simp [Ctxt.addError]

theorem reported_eq_nil_iff (fs : List Field) (prev : Bytes) (hs : NameSorted fs)
    (hp : ∀ f ∈ fs, bytesLe prev f.name = true) :
    reported fs prev = [] ↔ (prev :: fs.map Field.name).Nodup := by
  induction fs generalizing prev with
  | nil => simp [reported]
  | cons f fs ih =>
    unfold NameSorted at hs
    rw [List.pairwise_cons] at hs
    simp only [reported, List.append_eq_nil_iff, ih f.name hs.2 hs.1, List.map_cons]
    constructor
    · rintro ⟨h1, h2⟩
      have hne : f.name ≠ prev := by intro e; simp [e] at h1
      rw [List.nodup_cons]
      refine ⟨?_, h2⟩
      intro hmem
      rcases List.mem_cons.mp hmem with e | hmem
      · exact hne e.symm
      · obtain ⟨g, hg, e⟩ := List.mem_map.mp hmem
        have h3 := hs.1 g hg
        rw [e] at h3
        exact hne (bytesLe_antisymm h3 (hp f (by simp)))
    · intro h
      rw [List.nodup_cons] at h
      refine ⟨?_, h.2⟩
      have : ¬ f.name = prev := fun e => h.1 (by simp [e])
      simp [this]

/-- Whatever is reported is the empty name or occurs twice. -/
theorem reported_sound (fs : List Field) (prev : Bytes) (n : Bytes)
    (h : Err.duplicateParameter n ∈ reported fs prev) :
    (∃ rest, prev = n ∧ (∃ f, fs = f :: rest ∧ f.name = n)) ∨
      2 ≤ (fs.map Field.name).count n := by
  induction fs generalizing prev with
  | nil => simp [reported] at h
  | cons f fs ih =>
    simp only [reported, List.mem_append] at h
    rcases h with h | h
    · split at h
      · next e =>
        simp only [List.mem_singleton, Err.duplicateParameter.injEq] at h
        exact .inl ⟨fs, by rw [h, e], f, rfl, h.symm⟩
      · simp at h
    · right
      rcases ih f.name h with ⟨rest, h1, g, h2, h3⟩ | h1
      · subst h2
        simp [h1, h3]
      · simp only [List.map_cons, List.count_cons]; omega

theorem sortByName_unique {fs gs : List Field} (hperm : fs.Perm gs)
    (hn : (fs.map Field.name).Nodup) : sortByName fs = sortByName gs := by
  have hp : (sortByName fs).Perm (sortByName gs) :=
    (sortByName_perm fs).trans (hperm.trans (sortByName_perm gs).symm)
  refine List.Perm.eq_of_pairwise (le := fun a b : Field => bytesLe a.name b.name = true) ?_
    (sortByName_sorted fs) (sortByName_sorted gs) hp
  intro a b ha hb h1 h2
  have ha' := (sortByName_perm fs).mem_iff.mp ha
  have hb' := hperm.mem_iff.mpr ((sortByName_perm gs).mem_iff.mp hb)
  have e := bytesLe_antisymm h1 h2
  have key : ∀ l : List Field, (l.map Field.name).Nodup → ∀ a ∈ l, ∀ b ∈ l, a.name = b.name → a = b := by
    intro l
    induction l with
    | nil => intro _ a ha; simp at ha
    | cons x l ih =>
      intro hn a ha b hb e
      rw [List.map_cons, List.nodup_cons] at hn
      rcases List.mem_cons.mp ha with e1 | ha1 <;> rcases List.mem_cons.mp hb with e2 | hb1
      · rw [e1, e2]
      · subst e1; exact absurd (List.mem_map.mpr ⟨b, hb1, e.symm⟩) hn.1
      · subst e2; exact absurd (List.mem_map.mpr ⟨a, ha1, e⟩) hn.1
      · exact ih hn.2 a ha1 b hb1 e
  exact key fs hn a ha' b hb' e

/-! ### The whole expansion -/

theorem nameOf_iff (i n : Bytes) : NameOf i n ↔ n = unraw i := by
  unfold unraw
  split
  · rename_i rest
    constructor
    · rintro (h | ⟨-, h⟩)
      · exact (List.append_cancel_left (as := b!"r#") (show b!"r#" ++ rest = _ from h)).symm
      · exact absurd rfl (h rest)
    · rintro rfl; exact .inl rfl
  · rename_i h
    constructor
    · rintro (e | ⟨e, -⟩)
      · exact absurd e (h n)
      · exact e.symm
    · rintro rfl; exact .inr ⟨rfl, fun m e => h m e⟩

/-- What `Field::new` makes of a field, when `syn` is lawful. -/
theorem fieldNew_spec {S : Syn τ} (hS : Lawful S) (f : SynField τ) :
    ∃ info es, (∀ cx, Field.new S f cx = .ok ({ ident := unraw f.ident, ty := f.ty, info }, cx ++ es)) ∧
      (es = [] → AllParse S f.attrs ∧ Adds FieldMeta.addMeta {} (attributeItems S f.attrs) info) ∧
      (∀ r, AllParse S f.attrs → Adds FieldMeta.addMeta {} (attributeItems S f.attrs) r → es = []) := by
  obtain ⟨info, es, h1, h2, h3⟩ := newMeta_spec hS FieldMeta.addMeta f.attrs {}
  refine ⟨info, es, fun cx => ?_, h2, h3⟩
  simp only [Field.new, FieldMeta.new, h1, Except.ok_bind']

/-- The field understood by the macro. -/
def understood (S : Syn τ) (f : SynField τ) : Field :=
  match Field.new S f [] with
  | .ok (f, _) => f
  | .error _ => { ident := [], ty := .other, info := {} }

/-- The errors reported for a field. -/
def fieldErrors (S : Syn τ) (f : SynField τ) : List Err :=
  match Field.new S f [] with
  | .ok (_, es) => es
  | .error _ => []

theorem fieldNew_eq {S : Syn τ} (hS : Lawful S) (f : SynField τ) (cx : Ctxt) :
    Field.new S f cx = .ok (understood S f, cx ++ fieldErrors S f) := by
  obtain ⟨info, es, h1, -, -⟩ := fieldNew_spec hS f
  simp [understood, fieldErrors, h1]

theorem newFields_eq {S : Syn τ} (hS : Lawful S) (fs : List (SynField τ)) (cx : Ctxt) :
    newFields S fs cx = .ok (fs.map (understood S), cx ++ fs.flatMap (fieldErrors S)) := by
  induction fs generalizing cx with
  | nil => simp [newFields]
  | cons f fs ih =>
    simp only [newFields, fieldNew_eq hS, Except.ok_bind', ih]
    simp

/-- Container attributes and crate lookup: what is imported, and the errors. -/
theorem container_eq {S : Syn τ} (hS : Lawful S) (attrs : List (Attribute τ)) :
    ∃ info es, ∀ cx, ContainerMeta.new S attrs cx = .ok (info, cx ++ es) := by
  obtain ⟨info, es, h1, -, -⟩ := newMeta_spec hS ContainerMeta.addMeta attrs {}
  exact ⟨info, es, h1⟩

theorem importOf_cx (lookup : CrateLookup) (isIdent : Bytes → Bool) (info : ContainerMeta) :
    (∃ e, ∀ cx, importOf lookup isIdent info cx = .error e) ∨
      ∃ i es, ∀ cx, importOf lookup isIdent info cx = .ok (i, cx ++ es) := by
  unfold importOf
  cases info.krate with
  | some p => exact .inr ⟨.use p, [], by simp⟩
  | none =>
    cases lookup with
    | name k =>
      by_cases h : isIdent k = true
      · exact .inr ⟨.externCrate k, [], by simp [h]⟩
      · exact .inl ⟨.derive, by simp [h]⟩
    | itself c =>
      cases c with
      | none => exact .inl ⟨.derive, by simp⟩
      | some k =>
        by_cases h : isIdent k = true
        · exact .inr ⟨.externCrate k, [], by simp [h]⟩
        · exact .inl ⟨.derive, by simp [h]⟩
    | manifestDirNotSet =>
      by_cases h : isIdent b!"oauth1_request" = true
      · exact .inr ⟨.externCrate b!"oauth1_request", [], by simp [h]⟩
      · exact .inl ⟨.derive, by simp [h]⟩
    | failed =>
      by_cases h : isIdent b!"oauth1_request" = true
      · exact .inr ⟨.externCrate b!"oauth1_request", [.crateLookup], by simp [h, Ctxt.addError]⟩
      · exact .inl ⟨.derive, by simp [h]⟩

/-- Acceptance of a struct, and what is generated. -/
theorem expand_impl_iff (cfg : Cfg) {S : Syn τ} (hS : Lawful S) (lookup : CrateLookup)
    (isIdent : Bytes → Bool) (attrs : List (Attribute τ)) (fs : List (SynField τ)) (i : Import)
    (body : List Stmt) :
    expand cfg S lookup isIdent ⟨attrs, some fs⟩ = .ok (.impl i body) ↔
      fs.flatMap (fieldErrors S) = [] ∧ ([] :: (fs.map (understood S)).map Field.name).Nodup ∧
      (∃ info, ContainerMeta.new S attrs [] = .ok (info, []) ∧
        importOf lookup isIdent info [] = .ok (i, [])) ∧
      body = weaveStmts allProto (kept (sortByName (fs.map (understood S)))) := by
  obtain ⟨info, es, hc⟩ := container_eq hS attrs
  have hdup : reported (sortByName (fs.map (understood S))) [] = [] ↔
      ([] :: (fs.map (understood S)).map Field.name).Nodup := by
    rw [reported_eq_nil_iff _ _ (sortByName_sorted _) (fun _ _ => bytesLe_nil _)]
    exact (((sortByName_perm _).map _).cons _).nodup_iff
  unfold expand
  simp only [newFields_eq hS, Except.ok_bind', checkDuplicates_eq, hc, List.nil_append]
  rcases importOf_cx lookup isIdent info with ⟨e, he⟩ | ⟨j, es', hi⟩
  · simp only [he]
    constructor
    · intro h; cases h
    · rintro ⟨-, -, ⟨info', h1, h2⟩, -⟩
      simp only [Except.ok.injEq, Prod.mk.injEq] at h1
      rw [← h1.1, he] at h2; cases h2
  · simp only [hi, Except.ok_bind']
    constructor
    · intro h
      split at h
      · cases h
      · next hcx =>
        simp only [ne_eq, Decidable.not_not, List.append_eq_nil_iff] at hcx
        obtain ⟨⟨⟨h1, h2⟩, h3⟩, h4⟩ := hcx
        rw [methodBody_eq] at h
        cases h
        subst h3 h4
        exact ⟨h1, hdup.mp h2, ⟨info, by simp, by simp [hi]⟩, rfl⟩
    · rintro ⟨h1, h2, ⟨info', h3, h4⟩, rfl⟩
      simp only [Except.ok.injEq, Prod.mk.injEq] at h3
      rw [← h3.1, hi] at h4
      simp only [List.nil_append, Except.ok.injEq, Prod.mk.injEq] at h4
      rw [h1, hdup.mpr h2, h3.2, h4.2, methodBody_eq, h4.1]
      rfl

end OAuth
