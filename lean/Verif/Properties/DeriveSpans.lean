import Verif.Properties.DeriveAccepts
import Verif.Spec.DeriveSpans

/-
C89: the errors of the macro, with places and texts.
-/

namespace OAuth

open Spec Derive

variable {τ σ α β : Type}

/-! ### Forgetting spans -/

/-- The result without spans. -/
def er (f : α → β) : Except (SErr σ) α → Except Err β
  | .error e => .error e.kind
  | .ok a => .ok (f a)

theorem metaParse_erase (J : SpanOps σ) (Y : SSyn τ σ) (t : τ) :
    Meta.parse Y.erase t = (SMeta.parse J Y t).map (er fun r => (r.1.erase, r.2)) := by
  unfold Meta.parse SMeta.parse
  have h1 : Y.erase.parsePath t = (Y.parsePath t).toOption.map fun r => (r.1.path, r.2) := rfl
  rw [h1]
  cases Y.parsePath t with
  | error e => rfl
  | ok r =>
    obtain ⟨p, t₁⟩ := r
    simp only [Except.toOption, Option.map_some]
    by_cases h : Y.peekParen t₁ = true
    · rw [if_pos h, if_pos (show Y.erase.peekParen t₁ = true from h)]
      have h2 : Y.erase.parseGroup t₁ = (Y.parseGroup t₁).map Prod.snd := rfl
      rw [h2]
      cases Y.parseGroup t₁ <;> rfl
    · rw [if_neg h, if_neg (show ¬ Y.erase.peekParen t₁ = true from h)]
      by_cases h : Y.peekEq t₁ = true
      · rw [if_pos h, if_pos (show Y.erase.peekEq t₁ = true from h)]
        have h2 : Y.erase.parseEq t₁ = Y.parseEq t₁ := rfl
        rw [h2]
        cases Y.parseEq t₁ with
        | none => rfl
        | some t₂ =>
          have h3 : Y.erase.parseExpr t₂ = (Y.parseExpr t₂).toOption.map fun r => (r.1.expr, r.2) := rfl
          simp only [h3]
          cases Y.parseExpr t₂ <;> rfl
      · rw [if_neg h, if_neg (show ¬ Y.erase.peekEq t₁ = true from h)]; rfl

theorem parseTerminated_erase (J : SpanOps σ) (Y : SSyn τ σ) (n : Nat) (t : τ) :
    parseTerminated Y.erase n t = (sparseTerminated J Y n t).map (er (List.map SMeta.erase)) := by
  induction n generalizing t with
  | zero => rfl
  | succ n ih =>
    unfold parseTerminated sparseTerminated
    rw [metaParse_erase J]
    have e1 : Y.erase.isEmpty = Y.isEmpty := rfl
    have e2 : ∀ t, Y.erase.parseComma t = (Y.parseComma t).toOption := fun _ => rfl
    rw [e1]
    split
    · rfl
    · cases SMeta.parse J Y t with
      | error e => rfl
      | ok r =>
        simp only [Except.map, Except.ok_bind']
        cases r with
        | error e => rfl
        | ok r =>
          obtain ⟨m, t₁⟩ := r
          simp only [er, e2]
          split
          · rfl
          · cases Y.parseComma t₁ with
            | error e => rfl
            | ok t₂ =>
              simp only [Except.toOption, ih]
              cases sparseTerminated J Y n t₂ with
              | error e => rfl
              | ok r => cases r <;> rfl

theorem parseArgs_erase (J : SpanOps σ) (Y : SSyn τ σ) (a : SAttribute τ σ) :
    a.erase.parseArgs Y.erase = (a.parseArgs J Y).map (er (List.map SMeta.erase)) := by
  unfold Attribute.parseArgs SAttribute.parseArgs SAttribute.erase
  cases a.args with
  | error e => rfl
  | ok t => exact parseTerminated_erase J Y _ t

theorem newMeta_erase {μ ν : Type} (J : SpanOps σ) (Y : SSyn τ σ) (f : μ → ν)
    (add : μ → SMeta σ → Except (SErr σ) μ) (add' : ν → Meta → Except Err ν)
    (hadd : ∀ r m, add' (f r) m.erase = er f (add r m)) (attrs : List (SAttribute τ σ)) (ret : μ)
    (cx : List (SErr σ)) :
    newMeta Y.erase add' (attrs.map SAttribute.erase) (f ret) (cx.map SErr.kind) =
      (snewMeta J Y add attrs ret cx).map fun r => (f r.1, r.2.map SErr.kind) := by
  induction attrs generalizing ret cx with
  | nil => rfl
  | cons a attrs ih =>
    simp only [List.map_cons, newMeta, snewMeta]
    have hp : a.erase.path = a.path := rfl
    rw [hp]
    split
    · rw [parseArgs_erase J]
      cases a.parseArgs J Y with
      | error e => rfl
      | ok r =>
        cases r with
        | error e =>
          simp only [Except.map, Except.ok_bind', er]
          have := ih ret (cx ++ [e])
          simp only [List.map_append, List.map_cons, List.map_nil] at this
          exact this
        | ok ms =>
          simp only [Except.map, Except.ok_bind', er]
          have hfold : ∀ (ms : List (SMeta σ)) (ret : μ) (cx : List (SErr σ)),
              (ms.map SMeta.erase).foldl (fun (x : ν × Ctxt) m =>
                match add' x.1 m with
                | .ok ret => (ret, x.2)
                | .error e => (x.1, x.2.addError e)) (f ret, cx.map SErr.kind) =
              (fun r : μ × List (SErr σ) => (f r.1, r.2.map SErr.kind))
                (ms.foldl (fun (x : μ × List (SErr σ)) m =>
                  match add x.1 m with
                  | .ok ret => (ret, x.2)
                  | .error e => (x.1, x.2 ++ [e])) (ret, cx)) := by
            intro ms
            induction ms with
            | nil => intro ret cx; rfl
            | cons m ms ihm =>
              intro ret cx
              simp only [List.map_cons, List.foldl_cons, hadd]
              cases add ret m with
              | ok r => exact ihm r cx
              | error e =>
                simp only [er, Ctxt.addError]
                have := ihm ret (cx ++ [e])
                simp only [List.map_append, List.map_cons, List.map_nil] at this
                exact this
          exact (congrArg (fun z : ν × Ctxt => newMeta Y.erase add' (attrs.map SAttribute.erase) z.1 z.2)
            (hfold ms ret cx)).trans (ih _ _)
    · exact ih ret cx

theorem boolArm_erase (J : SpanOps σ) (name : Bytes) (m : SMeta σ) (c : Bool) :
    boolArm name m.erase.kind c = er id (sboolArm J name m c) := by
  unfold boolArm sboolArm SMeta.erase
  cases m.kind <;> simp only [SMetaKind.erase]
  · cases c <;> rfl
  · rfl
  · rfl

theorem valueArm_erase (J : SpanOps σ) (f : α → β) (g : Expr → Except Err β)
    (sg : SExpr σ → Except (SErr σ) α) (hg : ∀ e, g e.expr = er f (sg e)) (name : Bytes) (m : SMeta σ)
    (c : Option α) :
    valueArm g name m.erase.kind (c.map f) = er (Option.map f) (svalueArm J sg name m c) := by
  unfold valueArm svalueArm SMeta.erase
  cases m.kind with
  | path => rfl
  | list s => rfl
  | nameValue e =>
    simp only [SMetaKind.erase, hg]
    cases sg e with
    | error e => rfl
    | ok v =>
      simp only [er, Except.ok_bind', Option.isSome_map]
      cases c.isSome <;> rfl

theorem pathFromExpr_erase (e : SExpr σ) : pathFromExpr e.expr = er id (spathFromExpr e) := by
  unfold pathFromExpr spathFromExpr
  cases e.expr <;> rfl

theorem boolFromExpr_erase (e : SExpr σ) : boolFromExpr e.expr = er id (sboolFromExpr e) := by
  unfold boolFromExpr sboolFromExpr
  cases e.expr <;> rfl

theorem uriSafeFromExpr_erase (e : SExpr σ) :
    uriSafeFromExpr e.expr = er Prod.fst (suriSafeFromExpr e) := by
  unfold uriSafeFromExpr suriSafeFromExpr
  cases e.expr with
  | litStr s => simp only; split <;> rfl
  | _ => rfl

theorem container_addMeta_erase (J : SpanOps σ) (i : ContainerMeta) (m : SMeta σ) :
    ContainerMeta.addMeta i m.erase = er id (ContainerMeta.saddMeta J i m) := by
  unfold ContainerMeta.addMeta ContainerMeta.saddMeta
  have hp : m.erase.path = m.path.path := rfl
  rw [hp]
  cases m.path.path.getIdent with
  | none => rfl
  | some name =>
    simp only
    split
    · have := valueArm_erase J id pathFromExpr spathFromExpr pathFromExpr_erase name m i.krate
      rw [Option.map_id, id] at this
      rw [this]
      cases svalueArm J spathFromExpr name m i.krate with
      | error e => rfl
      | ok v => cases v <;> rfl
    · rfl

theorem field_addMeta_erase (J : SpanOps σ) (i : SFieldMeta σ) (m : SMeta σ) :
    FieldMeta.addMeta i.erase m.erase = er SFieldMeta.erase (SFieldMeta.addMeta J i m) := by
  unfold FieldMeta.addMeta SFieldMeta.addMeta
  have hp : m.erase.path = m.path.path := rfl
  rw [hp]
  have hpath : ∀ name c, valueArm pathFromExpr name m.erase.kind c =
      er id (svalueArm J spathFromExpr name m c) := by
    intro name c
    have := valueArm_erase J id pathFromExpr spathFromExpr pathFromExpr_erase name m c
    rw [Option.map_id, id] at this
    exact this.trans (by cases svalueArm J spathFromExpr name m c <;> simp [er])
  have hbool : ∀ name c, valueArm boolFromExpr name m.erase.kind c =
      er id (svalueArm J sboolFromExpr name m c) := by
    intro name c
    have := valueArm_erase J id boolFromExpr sboolFromExpr boolFromExpr_erase name m c
    rw [Option.map_id, id] at this
    exact this.trans (by cases svalueArm J sboolFromExpr name m c <;> simp [er])
  cases m.path.path.getIdent with
  | none => rfl
  | some name =>
    simp only
    split
    · have h : i.erase.encoded = i.encoded := rfl
      rw [h, boolArm_erase J]; cases sboolArm J name m i.encoded <;> rfl
    split
    · have h : i.erase.fmt = i.fmt := rfl
      rw [h, hpath]; cases svalueArm J spathFromExpr name m i.fmt <;> rfl
    split
    · have h : i.erase.option = i.option := rfl
      rw [h, hbool]; cases svalueArm J sboolFromExpr name m i.option <;> rfl
    split
    · have h : i.erase.rename = i.rename.map Prod.fst := rfl
      rw [h, valueArm_erase J Prod.fst uriSafeFromExpr suriSafeFromExpr uriSafeFromExpr_erase]
      cases svalueArm J suriSafeFromExpr name m i.rename <;> rfl
    split
    · have h : i.erase.skip = i.skip := rfl
      rw [h, boolArm_erase J]; cases sboolArm J name m i.skip <;> rfl
    split
    · have h : i.erase.skipIf = i.skipIf := rfl
      rw [h, hpath]; cases svalueArm J spathFromExpr name m i.skipIf <;> rfl
    · rfl

theorem fieldNew_erase (J : SpanOps σ) (Y : SSyn τ σ) (f : SSynField τ σ) (cx : List (SErr σ)) :
    Field.new Y.erase f.erase (cx.map SErr.kind) =
      (SField.new J Y f cx).map fun r => (r.1.erase, r.2.map SErr.kind) := by
  unfold Field.new SField.new FieldMeta.new
  have := newMeta_erase J Y SFieldMeta.erase (SFieldMeta.addMeta J) FieldMeta.addMeta
    (field_addMeta_erase J) f.attrs {} cx
  have h0 : (SFieldMeta.erase ({} : SFieldMeta σ)) = {} := rfl
  rw [h0] at this
  have h1 : f.erase.attrs = f.attrs.map SAttribute.erase := rfl
  rw [h1, this]
  cases snewMeta J Y (SFieldMeta.addMeta J) f.attrs {} cx <;> rfl

theorem newFields_erase (J : SpanOps σ) (Y : SSyn τ σ) (fs : List (SSynField τ σ)) (cx : List (SErr σ)) :
    newFields Y.erase (fs.map SSynField.erase) (cx.map SErr.kind) =
      (snewFields J Y fs cx).map fun r => (r.1.map SField.erase, r.2.map SErr.kind) := by
  induction fs generalizing cx with
  | nil => rfl
  | cons f fs ih =>
    simp only [List.map_cons, newFields, snewFields, fieldNew_erase J]
    cases SField.new J Y f cx with
    | error e => rfl
    | ok r =>
      simp only [Except.map, Except.ok_bind', ih]
      cases snewFields J Y fs r.2 <;> rfl

theorem name_erase (f : SField σ) : f.erase.name = f.name := by
  unfold Field.name SField.name SField.erase SFieldMeta.erase
  cases f.info.rename <;> rfl

theorem insert_erase (f : SField σ) (gs : List (SField σ)) :
    (sinsertByName f gs).map SField.erase = insertByName f.erase (gs.map SField.erase) := by
  induction gs with
  | nil => rfl
  | cons g gs ih =>
    simp only [List.map_cons, sinsertByName, insertByName, name_erase]
    split
    · rfl
    · simp [ih]

theorem sort_erase (fs : List (SField σ)) :
    (ssortByName fs).map SField.erase = sortByName (fs.map SField.erase) := by
  induction fs with
  | nil => rfl
  | cons f fs ih => simp only [List.map_cons, ssortByName, sortByName, insert_erase, ih]

theorem duplicates_erase (fs : List (SField σ)) (prev : Bytes) (cx : List (SErr σ)) :
    checkDuplicates (fs.map SField.erase) prev (cx.map SErr.kind) =
      (scheckDuplicates fs prev cx).map SErr.kind := by
  induction fs generalizing prev cx with
  | nil => rfl
  | cons f fs ih =>
    simp only [List.map_cons, checkDuplicates, scheckDuplicates, name_erase, ← ih]
    split <;> simp [Ctxt.addError]

theorem import_erase (J : SpanOps σ) (lookup : CrateLookup) (failure : Bytes) (isIdent : Bytes → Bool)
    (info : ContainerMeta) (cx : List (SErr σ)) :
    importOf lookup isIdent info (cx.map SErr.kind) =
      (simportOf J lookup failure isIdent info cx).map fun r => (r.1, r.2.map SErr.kind) := by
  unfold importOf simportOf
  cases info.krate with
  | some p => rfl
  | none =>
    cases lookup with
    | name k => simp only; split <;> rfl
    | itself c =>
      cases c with
      | none => rfl
      | some k => simp only; split <;> rfl
    | manifestDirNotSet => simp only; split <;> rfl
    | failed => simp only; split <;> simp [Except.map, Ctxt.addError]

/-- C89: this is the macro of the other theorems: it panics in the same cases, and returns errors of the
same kinds in the same order, none if it accepts the struct. -/
theorem C89_same (J : SpanOps σ) (Y : SSyn τ σ) (cfg : Cfg) (lookup : CrateLookup) (failure : Bytes)
    (isIdent : Bytes → Bool) (input : SInput τ σ) :
    (∀ p, expandErrors J Y lookup failure isIdent input = .error p ↔
      expand cfg Y.erase lookup isIdent input.erase = .error p) ∧
    (∀ es, expandErrors J Y lookup failure isIdent input = .ok es → es ≠ [] →
      expand cfg Y.erase lookup isIdent input.erase =
        .ok (.errors (es.map SErr.kind) input.fields.isSome)) ∧
    (expandErrors J Y lookup failure isIdent input = .ok [] ↔
      ∃ i body, expand cfg Y.erase lookup isIdent input.erase = .ok (.impl i body)) := by
  unfold expandErrors expand SInput.erase
  cases input.fields with
  | none => simp
  | some fs =>
    simp only [Option.map_some]
    have h1 := newFields_erase J Y fs []
    rw [List.map_nil] at h1
    rw [h1]
    cases snewFields J Y fs [] with
    | error e => simp [Except.map, Except.error_bind']
    | ok r =>
      simp only [Except.map, Except.ok_bind', ← sort_erase, duplicates_erase]
      have h2 := newMeta_erase J Y id (ContainerMeta.saddMeta J) ContainerMeta.addMeta
        (container_addMeta_erase J) input.attrs {} (scheckDuplicates (ssortByName r.1) [] r.2)
      simp only [id] at h2
      simp only [ContainerMeta.new, h2]
      cases snewMeta J Y (ContainerMeta.saddMeta J) input.attrs {}
          (scheckDuplicates (ssortByName r.1) [] r.2) with
      | error e => simp [Except.map, Except.error_bind']
      | ok r' =>
        simp only [Except.map, Except.ok_bind', import_erase J lookup failure]
        cases simportOf J lookup failure isIdent r'.1 r'.2 with
        | error e => simp [Except.error_bind']
        | ok r'' =>
          simp only [Except.ok_bind', methodBody_eq]
          cases hr : r''.2 with
          | nil => simp
          | cons e es => simp

/-! ### Errors of items -/

theorem pathText_none {p : SPath σ} (h : p.path.getIdent = none) : pathText p = p.text.filter (· != 32) := by
  unfold pathText
  split
  · next i hp => rw [hp] at h; cases h
  · rfl

theorem pathText_some {p : SPath σ} {i : Bytes} (h : p.path.getIdent = some i) : pathText p = i := by
  rw [getIdent_iff] at h
  simp [pathText, h]

theorem span_wholeItem (J : SpanOps σ) (m : SMeta σ) : m.span J = wholeItem J m := by
  unfold SMeta.span wholeItem SpanOps.joinOr
  cases m.kind <;> rfl

theorem sboolArm_error {J : SpanOps σ} {name : Bytes} {m : SMeta σ} {c : Bool} {e : SErr σ}
    (h : sboolArm J name m c = .error e) : e = complaint J m e.kind := by
  unfold sboolArm at h
  split at h
  · split at h <;> cases h; rfl
  · cases h; simp [complaint, span_wholeItem]

theorem svalueArm_error {J : SpanOps σ} {f : SExpr σ → Except (SErr σ) α} {name : Bytes} {m : SMeta σ}
    {c : Option α} {e : SErr σ}
    (hf : ∀ x e, m.kind = .nameValue x → f x = .error e → e = complaint J m e.kind)
    (h : svalueArm J f name m c = .error e) : e = complaint J m e.kind := by
  unfold svalueArm at h
  split at h
  · next x hx =>
    cases hv : f x with
    | error e' => rw [hv, Except.error_bind'] at h; cases h; exact hf x _ hx hv
    | ok v =>
      rw [hv, Except.ok_bind'] at h
      split at h <;> cases h; rfl
  · cases h; simp [complaint, span_wholeItem]

theorem spathFromExpr_error {J : SpanOps σ} {m : SMeta σ} (x : SExpr σ) (e : SErr σ)
    (hx : m.kind = .nameValue x) (h : spathFromExpr x = .error e) : e = complaint J m e.kind := by
  unfold spathFromExpr at h
  split at h <;> cases h
  simp [complaint, valuePlace, hx]

theorem sboolFromExpr_error {J : SpanOps σ} {m : SMeta σ} (x : SExpr σ) (e : SErr σ)
    (hx : m.kind = .nameValue x) (h : sboolFromExpr x = .error e) : e = complaint J m e.kind := by
  unfold sboolFromExpr at h
  split at h <;> cases h
  simp [complaint, valuePlace, hx]

theorem suriSafeFromExpr_error {J : SpanOps σ} {m : SMeta σ} (x : SExpr σ) (e : SErr σ)
    (hx : m.kind = .nameValue x) (h : suriSafeFromExpr x = .error e) : e = complaint J m e.kind := by
  unfold suriSafeFromExpr at h
  split at h
  · split at h <;> cases h
    simp [complaint, valuePlace, hx]
  · cases h
    simp [complaint, valuePlace, hx]

theorem bindOk_error {γ : Type} {r : Except (SErr σ) α} {k : α → γ} {e : SErr σ}
    (h : (r >>= fun v => Except.ok (k v)) = .error e) : r = .error e := by
  cases r with
  | error e' => rw [Except.error_bind'] at h; cases h; rfl
  | ok a => rw [Except.ok_bind'] at h; cases h

theorem field_addMeta_error {J : SpanOps σ} {i : SFieldMeta σ} {m : SMeta σ} {e : SErr σ}
    (h : i.addMeta J m = .error e) : e = complaint J m e.kind := by
  unfold SFieldMeta.addMeta at h
  split at h
  · next hn => cases h; simp [unknownAttr, complaint, pathText_none hn]
  · next name hn =>
    split at h
    · exact sboolArm_error (bindOk_error h)
    split at h
    · exact svalueArm_error spathFromExpr_error (bindOk_error h)
    split at h
    · exact svalueArm_error sboolFromExpr_error (bindOk_error h)
    split at h
    · exact svalueArm_error suriSafeFromExpr_error (bindOk_error h)
    split at h
    · exact sboolArm_error (bindOk_error h)
    split at h
    · exact svalueArm_error spathFromExpr_error (bindOk_error h)
    · cases h; simp [unknownAttr, complaint, pathText_some hn]

theorem container_addMeta_error {J : SpanOps σ} {i : ContainerMeta} {m : SMeta σ} {e : SErr σ}
    (h : ContainerMeta.saddMeta J i m = .error e) : e = complaint J m e.kind := by
  unfold ContainerMeta.saddMeta at h
  split at h
  · next hn => cases h; simp [unknownAttr, complaint, pathText_none hn]
  · next name hn =>
    split at h
    · exact svalueArm_error spathFromExpr_error (bindOk_error h)
    · cases h; simp [unknownAttr, complaint, pathText_some hn]

/-- What is in the `#[oauth1(..)]` attributes, as the macro reads it. -/
def entries (J : SpanOps σ) (Y : SSyn τ σ) (attrs : List (SAttribute τ σ)) :
    List (Except (SErr σ) (SMeta σ)) :=
  (attrs.filter fun a => decide (a.path = { leadingColon := false, segments := [(b!"oauth1", false)] })).flatMap
    fun a => match a.parseArgs J Y with
      | .ok (.ok ms) => ms.map .ok
      | .ok (.error e) => [.error e]
      | .error _ => []

/-- One entry of the attributes. -/
def entryStep {μ : Type} (add : μ → SMeta σ → Except (SErr σ) μ) (x : μ × List (SErr σ))
    (e : Except (SErr σ) (SMeta σ)) : μ × List (SErr σ) :=
  match e with
  | .error e => (x.1, x.2 ++ [e])
  | .ok m => match add x.1 m with
    | .ok ret => (ret, x.2)
    | .error e => (x.1, x.2 ++ [e])

theorem snewMeta_entries {μ : Type} (J : SpanOps σ) (Y : SSyn τ σ) (add : μ → SMeta σ → Except (SErr σ) μ)
    (attrs : List (SAttribute τ σ)) (ret : μ) (cx : List (SErr σ)) (r : μ × List (SErr σ))
    (h : snewMeta J Y add attrs ret cx = .ok r) :
    r = (entries J Y attrs).foldl (entryStep add) (ret, cx) := by
  induction attrs generalizing ret cx with
  | nil => cases h; rfl
  | cons a attrs ih =>
    unfold snewMeta at h
    by_cases ha : a.path.getIdent = some b!"oauth1"
    · rw [if_pos ha] at h
      rw [getIdent_iff] at ha
      have he : entries J Y (a :: attrs) = (match a.parseArgs J Y with
          | .ok (.ok ms) => ms.map .ok
          | .ok (.error e) => [.error e]
          | .error _ => []) ++ entries J Y attrs := by
        simp only [entries, ha, List.filter_cons, decide_true, if_true, List.flatMap_cons]
      rw [he, List.foldl_append]
      cases hp : a.parseArgs J Y with
      | error e => rw [hp, Except.error_bind'] at h; cases h
      | ok l =>
        rw [hp, Except.ok_bind'] at h
        cases l with
        | error e => exact ih _ _ h
        | ok ms =>
          simp only [List.foldl_map]
          exact ih _ _ h
    · rw [if_neg ha] at h
      rw [getIdent_iff] at ha
      have he : entries J Y (a :: attrs) = entries J Y attrs := by simp [entries, ha]
      rw [he]
      exact ih _ _ h

theorem metaParse_itemAt {J : SpanOps σ} {Y : SSyn τ σ} {t t' : τ} {m : SMeta σ}
    (h : SMeta.parse J Y t = .ok (.ok (m, t'))) : ItemAt J Y t m t' := by
  unfold SMeta.parse at h
  cases hp : Y.parsePath t with
  | error e => rw [hp] at h; cases h
  | ok r =>
    obtain ⟨p, t₁⟩ := r
    rw [hp] at h
    simp only at h
    by_cases h1 : Y.peekParen t₁ = true
    · rw [if_pos h1] at h
      cases hg : Y.parseGroup t₁ with
      | none => rw [hg] at h; cases h
      | some g => rw [hg] at h; cases h; exact .list hp h1 hg
    · rw [if_neg h1] at h
      by_cases h2 : Y.peekEq t₁ = true
      · rw [if_pos h2] at h
        cases he : Y.parseEq t₁ with
        | none => rw [he] at h; cases h
        | some t₂ =>
          rw [he] at h
          simp only at h
          cases hx : Y.parseExpr t₂ with
          | error e => rw [hx] at h; cases h
          | ok r => rw [hx] at h; cases h; exact .nameValue hp (by simpa using h1) h2 he hx
      · rw [if_neg h2] at h
        cases h
        exact .word hp (by simpa using h1) (by simpa using h2)

theorem metaParse_noItem {J : SpanOps σ} {Y : SSyn τ σ} {t : τ} {e : SErr σ}
    (h : SMeta.parse J Y t = .ok (.error e)) : ∃ x, e = ⟨.syn, x.1, x.2⟩ ∧ NoItem Y t x := by
  unfold SMeta.parse at h
  cases hp : Y.parsePath t with
  | error x => rw [hp] at h; cases h; exact ⟨x, rfl, .path hp⟩
  | ok r =>
    obtain ⟨p, t₁⟩ := r
    rw [hp] at h
    simp only at h
    by_cases h1 : Y.peekParen t₁ = true
    · rw [if_pos h1] at h
      cases hg : Y.parseGroup t₁ <;> rw [hg] at h <;> cases h
    · rw [if_neg h1] at h
      by_cases h2 : Y.peekEq t₁ = true
      · rw [if_pos h2] at h
        cases he : Y.parseEq t₁ with
        | none => rw [he] at h; cases h
        | some t₂ =>
          rw [he] at h
          simp only at h
          cases hx : Y.parseExpr t₂ with
          | error x => rw [hx] at h; cases h; exact ⟨x, rfl, .value hp (by simpa using h1) h2 he hx⟩
          | ok r => rw [hx] at h; cases h
      · rw [if_neg h2] at h; cases h

theorem sparseTerminated_itemsAt {J : SpanOps σ} {Y : SSyn τ σ} (n : Nat) (t : τ)
    (r : Except (SErr σ) (List (SMeta σ))) (h : sparseTerminated J Y n t = .ok r) :
    (∃ ms, r = .ok ms ∧ ItemsAt J Y t (.ok ms)) ∨
      ∃ x, r = .error ⟨.syn, x.1, x.2⟩ ∧ ItemsAt J Y t (.error x) := by
  induction n generalizing t r with
  | zero => cases h
  | succ n ih =>
    unfold sparseTerminated at h
    by_cases h0 : Y.isEmpty t = true
    · rw [if_pos h0] at h; cases h; exact .inl ⟨[], rfl, .nil h0⟩
    · rw [if_neg h0] at h
      have h0' : Y.isEmpty t = false := by simpa using h0
      cases hm : SMeta.parse J Y t with
      | error p => rw [hm, Except.error_bind'] at h; cases h
      | ok q =>
        rw [hm, Except.ok_bind'] at h
        cases q with
        | error e =>
          cases h
          obtain ⟨x, rfl, hx⟩ := metaParse_noItem hm
          exact .inr ⟨x, rfl, .noItem h0' hx⟩
        | ok q =>
          obtain ⟨m, t₁⟩ := q
          have hi := metaParse_itemAt hm
          simp only at h
          by_cases h1 : Y.isEmpty t₁ = true
          · rw [if_pos h1] at h; cases h; exact .inl ⟨_, rfl, .last h0' hi h1⟩
          · rw [if_neg h1] at h
            have h1' : Y.isEmpty t₁ = false := by simpa using h1
            cases hc : Y.parseComma t₁ with
            | error x => rw [hc] at h; cases h; exact .inr ⟨x, rfl, .noComma h0' hi h1' hc⟩
            | ok t₂ =>
              rw [hc] at h
              simp only at h
              cases hs : sparseTerminated J Y n t₂ with
              | error p => rw [hs, Except.error_bind'] at h; cases h
              | ok q =>
                rw [hs, Except.ok_bind'] at h
                rcases ih t₂ q hs with ⟨ms, rfl, hms⟩ | ⟨x, rfl, hx⟩
                · cases h; exact .inl ⟨_, rfl, .more h0' hi h1' hc hms⟩
                · cases h; exact .inr ⟨x, rfl, .later h0' hi h1' hc hx⟩

theorem snewMeta_entriesOf {μ : Type} (J : SpanOps σ) (Y : SSyn τ σ) (add : μ → SMeta σ → Except (SErr σ) μ)
    (attrs : List (SAttribute τ σ)) (ret : μ) (cx : List (SErr σ)) (r : μ × List (SErr σ))
    (h : snewMeta J Y add attrs ret cx = .ok r) : EntriesOf J Y attrs (entries J Y attrs) := by
  induction attrs generalizing ret cx with
  | nil => exact .nil
  | cons a attrs ih =>
    unfold snewMeta at h
    by_cases ha : a.path.getIdent = some b!"oauth1"
    · rw [if_pos ha] at h
      rw [getIdent_iff] at ha
      cases hp : a.parseArgs J Y with
      | error e => rw [hp, Except.error_bind'] at h; cases h
      | ok l =>
        rw [hp, Except.ok_bind'] at h
        have he : entries J Y (a :: attrs) = (match l with
            | .ok ms => ms.map .ok
            | .error e => [.error e]) ++ entries J Y attrs := by
          simp only [entries, ha, List.filter_cons, decide_true, if_true, List.flatMap_cons, hp]
          cases l <;> rfl
        have hrest : EntriesOf J Y attrs (entries J Y attrs) := by
          cases l with
          | error e => exact ih _ _ h
          | ok ms => exact ih _ _ h
        rw [he]
        unfold SAttribute.parseArgs at hp
        cases hargs : a.args with
        | error e => rw [hargs] at hp; cases hp; exact .bare ha hargs hrest
        | ok t =>
          rw [hargs] at hp
          rcases sparseTerminated_itemsAt _ _ _ hp with ⟨ms, rfl, hms⟩ | ⟨x, rfl, hx⟩
          · exact .items ha hargs hms hrest
          · exact .unread ha hargs hx hrest
    · rw [if_neg ha] at h
      rw [getIdent_iff] at ha
      have he : entries J Y (a :: attrs) = entries J Y attrs := by simp [entries, ha]
      rw [he]
      exact .other ha (ih _ _ h)

theorem field_entries (J : SpanOps σ) (es : List (Except (SErr σ) (SMeta σ))) {has : Setting → Prop}
    {i : SFieldMeta σ} (h : Configures has i.erase) (cx : List (SErr σ)) :
    ∃ rs has', ReportsAt J has es rs has' ∧
      (es.foldl (entryStep (SFieldMeta.addMeta J)) (i, cx)).2 = cx ++ rs ∧
      Configures has' (es.foldl (entryStep (SFieldMeta.addMeta J)) (i, cx)).1.erase := by
  induction es generalizing has i cx with
  | nil => exact ⟨[], has, .nil, by simp, h⟩
  | cons x es ih =>
    simp only [List.foldl_cons]
    cases x with
    | error e =>
      obtain ⟨rs, has', h1, h2, h3⟩ := ih h (cx ++ [e])
      exact ⟨e :: rs, has', .unread h1, by rw [entryStep, h2]; simp, h3⟩
    | ok m =>
      have her := field_addMeta_erase J i m
      cases ha : i.addMeta J m with
      | ok i' =>
        rw [ha] at her
        have e : entryStep (SFieldMeta.addMeta J) (i, cx) (.ok m) = (i', cx) := by
          simp [entryStep, ha]
        obtain ⟨t, ht, hf, hi'⟩ := (addMeta_ok_iff _ _ _).mp her
        obtain ⟨rs, has', h1, h2, h3⟩ := ih (i := i') (by rw [hi']; exact configures_apply h t hf) cx
        exact ⟨rs, has', .sets ht ((settingFree_iff h t).mp hf) h1, by rw [e, h2], by rw [e]; exact h3⟩
      | error err =>
        rw [ha] at her
        have e : entryStep (SFieldMeta.addMeta J) (i, cx) (.ok m) = (i, cx ++ [err]) := by
          simp [entryStep, ha]
        have hc := field_addMeta_error ha
        obtain ⟨rs, has', h1, h2, h3⟩ := ih h (cx ++ [err])
        refine ⟨err :: rs, has', ?_, by rw [e, h2]; simp, by rw [e]; exact h3⟩
        rcases addMeta_error _ _ _ her with ⟨t, ht, hf, hk⟩ | hw
        · rw [settingFree_iff h] at hf
          simp only [ne_eq, Classical.not_forall, Decidable.not_not] at hf
          obtain ⟨u, hu, hn⟩ := hf
          rw [hc, hk]
          exact .repeated ht hu hn h1
        · rw [hc]
          exact .wrong hw h1

/-- The literal of the `rename` that is in force. -/
theorem field_rename (J : SpanOps σ) (es : List (Except (SErr σ) (SMeta σ))) (cx : List (SErr σ)) :
    ((es.foldl (entryStep (SFieldMeta.addMeta J)) ({}, cx)).1.rename = none ∧ ∀ e ∈ es, ¬ Renames e) ∨
    ∃ es₁ es₂ m n, es = es₁ ++ .ok m :: es₂ ∧ (∀ e ∈ es₁, ¬ Renames e) ∧ SetsTo m.erase (.rename n) ∧
      (es.foldl (entryStep (SFieldMeta.addMeta J)) ({}, cx)).1.rename = some (n, (valuePlace m).2) := by
  suffices hs : ∀ (post pre : List (Except (SErr σ) (SMeta σ))) (x : SFieldMeta σ × List (SErr σ)),
      ((x.1.rename = none ∧ ∀ e ∈ pre, ¬ Renames e) ∨
        ∃ es₁ es₂ m n, pre = es₁ ++ .ok m :: es₂ ∧ (∀ e ∈ es₁, ¬ Renames e) ∧
          SetsTo m.erase (.rename n) ∧ x.1.rename = some (n, (valuePlace m).2)) →
      (((post.foldl (entryStep (SFieldMeta.addMeta J)) x).1.rename = none ∧
          ∀ e ∈ pre ++ post, ¬ Renames e) ∨
        ∃ es₁ es₂ m n, pre ++ post = es₁ ++ .ok m :: es₂ ∧ (∀ e ∈ es₁, ¬ Renames e) ∧
          SetsTo m.erase (.rename n) ∧
          (post.foldl (entryStep (SFieldMeta.addMeta J)) x).1.rename = some (n, (valuePlace m).2)) by
    have := hs es [] ({}, cx) (.inl ⟨rfl, by simp⟩)
    simpa using this
  intro post
  induction post with
  | nil => intro pre x h; simpa using h
  | cons y post ih =>
    intro pre x h
    have := ih (pre ++ [y]) (entryStep (SFieldMeta.addMeta J) x y) ?_
    · simpa using this
    rcases h with ⟨hn, hp⟩ | ⟨es₁, es₂, m, n, h1, h2, h3, h4⟩
    · cases y with
      | error e =>
        refine .inl ⟨hn, ?_⟩
        intro e' he'
        rw [List.mem_append, List.mem_singleton] at he'
        rcases he' with he' | rfl
        · exact hp _ he'
        · rintro ⟨m, n, h, _⟩; cases h
      | ok m =>
        have her := field_addMeta_erase J x.1 m
        by_cases hr : Renames (.ok m : Except (SErr σ) (SMeta σ))
        · obtain ⟨m', n, hm, hs⟩ := hr
          cases hm
          refine .inr ⟨pre, [], m, n, by simp, hp, hs, ?_⟩
          have hok : x.1.addMeta J m = .ok { x.1 with rename := some (n, (valuePlace m).2) } := by
            obtain ⟨hp1, hk, hu⟩ := hs
            have hid : m.path.path.getIdent = some b!"rename" := (getIdent_iff _ _).mpr hp1
            have hkk : ∃ x, m.kind = .nameValue x ∧ x.expr = .litStr n := by
              simp only [SMeta.erase] at hk
              cases hmk : m.kind with
              | path => rw [hmk] at hk; cases hk
              | list s => rw [hmk] at hk; cases hk
              | nameValue x =>
                rw [hmk] at hk
                exact ⟨x, rfl, by simpa [SMetaKind.erase, Setting.kind] using hk⟩
            obtain ⟨z, hz, hzn⟩ := hkk
            have hall : n.all uriSafeByte = true := by
              rw [List.all_eq_true]; intro b hb; rw [uriSafeByte_eq]; exact hu n rfl b hb
            have e1 : (b!"rename" = b!"encoded") = False := by simp
            have e2 : (b!"rename" = b!"fmt") = False := by simp
            have e3 : (b!"rename" = b!"option") = False := by simp
            unfold SFieldMeta.addMeta
            simp only [hid, e1, e2, e3, if_false, if_true]
            simp only [svalueArm, hz, suriSafeFromExpr, hzn, hall, if_true, Except.ok_bind', hn, valuePlace]
            rfl
          simp [entryStep, hok]
        · refine .inl ⟨?_, ?_⟩
          · simp only [entryStep]
            cases ha : x.1.addMeta J m with
            | error e => exact hn
            | ok i' =>
              rw [ha] at her
              obtain ⟨t, ht, hf, hi'⟩ := (addMeta_ok_iff _ _ _).mp her
              have : i'.erase.rename = x.1.erase.rename := by
                rw [hi']
                cases t with
                | rename n => exact absurd ⟨m, n, rfl, ht⟩ hr
                | _ => rfl
              simp only [SFieldMeta.erase, hn, Option.map_none, Option.map_eq_none_iff] at this
              exact this
          · intro e' he'
            rw [List.mem_append, List.mem_singleton] at he'
            rcases he' with he' | rfl
            · exact hp _ he'
            · exact hr
    · refine .inr ⟨es₁, es₂ ++ [y], m, n, by simp [h1], h2, h3, ?_⟩
      cases y with
      | error e => exact h4
      | ok m' =>
        simp only [entryStep]
        cases ha : x.1.addMeta J m' with
        | error e => exact h4
        | ok i' =>
          have hkeep : x.1.rename = some (n, (valuePlace m).2) → i'.rename = some (n, (valuePlace m).2) := by
            intro hr
            unfold SFieldMeta.addMeta at ha
            have hb : ∀ {γ : Type} {r : Except (SErr σ) γ} {k : γ → SFieldMeta σ},
                (r >>= fun v => Except.ok (k v)) = .ok i' → ∃ v, r = .ok v ∧ i' = k v := by
              intro γ r k h
              cases r with
              | error e => rw [Except.error_bind'] at h; cases h
              | ok v => rw [Except.ok_bind'] at h; cases h; exact ⟨v, rfl, rfl⟩
            split at ha
            · cases ha
            · split at ha
              · obtain ⟨v, _, rfl⟩ := hb ha; exact hr
              split at ha
              · obtain ⟨v, _, rfl⟩ := hb ha; exact hr
              split at ha
              · obtain ⟨v, _, rfl⟩ := hb ha; exact hr
              split at ha
              · obtain ⟨v, hv, rfl⟩ := hb ha
                unfold svalueArm at hv
                split at hv
                · next z hz =>
                  cases hs : suriSafeFromExpr z with
                  | error e => rw [hs, Except.error_bind'] at hv; cases hv
                  | ok w => rw [hs, Except.ok_bind', hr] at hv; cases hv
                · cases hv
              split at ha
              · obtain ⟨v, _, rfl⟩ := hb ha; exact hr
              split at ha
              · obtain ⟨v, _, rfl⟩ := hb ha; exact hr
              · cases ha
          exact hkeep h4

/-- C89: the errors about a field are those of its ill-formed and repeated items and of its attributes that
cannot be parsed, in order, each at the place and with the text that `complaint` says; the other items take
effect; and the name of the field has the place of what it is taken from. -/
theorem C89_field (J : SpanOps σ) (Y : SSyn τ σ) (f : SSynField τ σ) (cx : List (SErr σ)) (g : SField σ)
    (cx' : List (SErr σ)) (h : SField.new J Y f cx = .ok (g, cx')) :
    ∃ ents es has, EntriesOf J Y f.attrs ents ∧ cx' = cx ++ es ∧ ReportsAt J (fun _ => False) ents es has ∧
      Configures has g.info.erase ∧ NameAt f ents g.name g.nameSpan := by
  unfold SField.new at h
  cases hn : snewMeta J Y (SFieldMeta.addMeta J) f.attrs {} cx with
  | error e => rw [hn, Except.error_bind'] at h; cases h
  | ok r =>
    rw [hn, Except.ok_bind'] at h
    cases h
    have hr := snewMeta_entries J Y _ _ _ _ _ hn
    obtain ⟨rs, has, h1, h2, h3⟩ := field_entries J (entries J Y f.attrs) (i := {}) configures_nil cx
    refine ⟨_, rs, has, snewMeta_entriesOf J Y _ _ _ _ _ hn, by rw [hr]; exact h2, h1, by simp only; rw [hr]; exact h3, ?_⟩
    rcases field_rename J (entries J Y f.attrs) cx with ⟨hnone, hall⟩ | ⟨es₁, es₂, m, n, h4, h5, h6, h7⟩
    · rw [← hr] at hnone
      simp only [SField.name, SField.nameSpan, hnone]
      exact .ident hall ((nameOf_iff _ _).mpr rfl)
    · rw [← hr] at h7
      simp only [SField.name, SField.nameSpan, h7]
      exact .renamed h4 h5 h6

/-- C89: the same for the attributes of the struct. -/
theorem C89_container (J : SpanOps σ) (Y : SSyn τ σ) (attrs : List (SAttribute τ σ)) (cx : List (SErr σ))
    (info : ContainerMeta) (cx' : List (SErr σ))
    (h : snewMeta J Y (ContainerMeta.saddMeta J) attrs {} cx = .ok (info, cx')) :
    ∃ ents es, EntriesOf J Y attrs ents ∧ cx' = cx ++ es ∧ ContainerReports J none ents es info.krate := by
  have hr := snewMeta_entries J Y _ _ _ _ _ h
  suffices hs : ∀ (es : List (Except (SErr σ) (SMeta σ))) (i : ContainerMeta) (cx : List (SErr σ)),
      ∃ rs, (es.foldl (entryStep (ContainerMeta.saddMeta J)) (i, cx)).2 = cx ++ rs ∧
        ContainerReports J i.krate es rs (es.foldl (entryStep (ContainerMeta.saddMeta J)) (i, cx)).1.krate by
    obtain ⟨rs, h1, h2⟩ := hs (entries J Y attrs) {} cx
    rw [← hr] at h1 h2
    exact ⟨_, rs, snewMeta_entriesOf J Y _ _ _ _ _ h, h1, h2⟩
  intro es
  induction es with
  | nil => intro i cx; exact ⟨[], by simp, .nil⟩
  | cons x es ih =>
    intro i cx
    simp only [List.foldl_cons]
    cases x with
    | error e =>
      obtain ⟨rs, h1, h2⟩ := ih i (cx ++ [e])
      exact ⟨e :: rs, by simp [entryStep, h1], .unread h2⟩
    | ok m =>
      have hid : ∀ k, m.path.path.getIdent = some k ↔ IsIdent m.path.path k := getIdent_iff _
      -- an error of this item
      have herr : ∀ k, (ContainerMeta.saddMeta J i m) = .error (complaint J m k) →
          (∀ rs c', ContainerReports J i.krate es rs c' →
            ContainerReports J i.krate (.ok m :: es) (complaint J m k :: rs) c') →
          ∃ rs, (es.foldl (entryStep (ContainerMeta.saddMeta J))
              (entryStep (ContainerMeta.saddMeta J) (i, cx) (.ok m))).2 = cx ++ rs ∧
            ContainerReports J i.krate (.ok m :: es) rs (es.foldl (entryStep (ContainerMeta.saddMeta J))
              (entryStep (ContainerMeta.saddMeta J) (i, cx) (.ok m))).1.krate := by
        intro k hk hstep
        obtain ⟨rs, h1, h2⟩ := ih i (cx ++ [complaint J m k])
        exact ⟨complaint J m k :: rs, by simp [entryStep, hk, h1],
          by simp only [entryStep, hk]; exact hstep _ _ h2⟩
      by_cases hc : IsIdent m.path.path b!"crate"
      · have hg := (hid _).mpr hc
        cases hk : m.kind with
        | path =>
          refine herr .expectedNameValue ?_ fun rs c' => .nameValue hc (by simp [SMeta.erase, hk, SMetaKind.erase])
          simp [ContainerMeta.saddMeta, hg, svalueArm, hk, Except.error_bind', complaint, span_wholeItem]
        | list s =>
          refine herr .expectedNameValue ?_ fun rs c' => .nameValue hc (by simp [SMeta.erase, hk, SMetaKind.erase])
          simp [ContainerMeta.saddMeta, hg, svalueArm, hk, Except.error_bind', complaint, span_wholeItem]
        | nameValue z =>
          have hke : m.erase.kind = .nameValue z.expr := by simp [SMeta.erase, hk, SMetaKind.erase]
          by_cases hz : ∃ p, z.expr = .path p
          · obtain ⟨p, hz⟩ := hz
            rw [hz] at hke
            cases hik : i.krate with
            | none =>
              have ha : ContainerMeta.saddMeta J i m = .ok { i with krate := some p } := by
                simp [ContainerMeta.saddMeta, hg, svalueArm, hk, Except.ok_bind', spathFromExpr, hz, hik]
              obtain ⟨rs, h1, h2⟩ := ih { i with krate := some p } cx
              exact ⟨rs, by simp [entryStep, ha, h1], .sets hc hke (by simp only [entryStep, ha]; exact h2)⟩
            | some q =>
              rw [← hik]
              refine herr (.duplicateAttribute b!"crate") ?_ fun rs c' => ?_
              · simp [ContainerMeta.saddMeta, hg, svalueArm, hk, Except.error_bind', spathFromExpr, hz,
                  Except.ok_bind', complaint, hik, duplicateAttr]
              · rw [hik]; exact .repeated hc hke
          · refine herr .expectedPath ?_ fun rs c' => .path hc hke fun p hp => hz ⟨p, hp⟩
            have : spathFromExpr z = .error ⟨.expectedPath, z.span, b!"expected path"⟩ := by
              unfold spathFromExpr
              split
              · next p hp => exact absurd ⟨p, hp⟩ hz
              · rfl
            simp [ContainerMeta.saddMeta, hg, svalueArm, hk, Except.error_bind', this, complaint, valuePlace]
      · refine herr .unknown ?_ fun rs c' => .unknown hc
        unfold ContainerMeta.saddMeta
        split
        · next hn => simp [unknownAttr, complaint, pathText_none hn]
        · next name hn =>
          have : name ≠ b!"crate" := by
            rintro rfl; exact hc ((hid _).mp hn)
          rw [if_neg this]
          simp [unknownAttr, complaint, pathText_some hn]

/-! ### Fields of the same name -/

/-- Those with the name of the one before. -/
def flagged : Bytes → List (SField σ) → List (SField σ)
  | _, [] => []
  | prev, f :: fs => if f.name = prev then f :: flagged f.name fs else flagged f.name fs

/-- The name of a field with its place. -/
def placed (g : SField σ) : Bytes × σ := (g.name, g.nameSpan)

theorem scheckDuplicates_eq (fs : List (SField σ)) (prev : Bytes) (cx : List (SErr σ)) :
    scheckDuplicates fs prev cx = cx ++ ((flagged prev fs).map placed).map duplicateAt := by
  induction fs generalizing prev cx with
  | nil => simp [scheckDuplicates, flagged]
  | cons f fs ih =>
    simp only [scheckDuplicates, flagged, ih]
    split <;> simp [duplicateAt, placed]

/-- Sorted by name. -/
def SortedByName (fs : List (SField σ)) : Prop := fs.Pairwise fun f g => bytesLe f.name g.name = true

theorem sinsert_mem {f g : SField σ} {fs : List (SField σ)} (h : g ∈ sinsertByName f fs) :
    g = f ∨ g ∈ fs := by
  induction fs with
  | nil => simpa [sinsertByName] using h
  | cons x xs ih =>
    unfold sinsertByName at h
    split at h
    · simpa using h
    · rcases List.mem_cons.mp h with rfl | h
      · simp
      · rcases ih h with h | h <;> simp [h]

theorem sinsert_sorted (f : SField σ) (fs : List (SField σ)) (h : SortedByName fs) :
    SortedByName (sinsertByName f fs) := by
  induction fs with
  | nil => simp [sinsertByName, SortedByName]
  | cons g gs ih =>
    obtain ⟨h1, h2⟩ := List.pairwise_cons.mp h
    unfold sinsertByName
    split
    · next hle =>
      refine List.pairwise_cons.mpr ⟨?_, h⟩
      intro x hx
      rcases List.mem_cons.mp hx with rfl | hx
      · exact hle
      · exact bytesLe_trans hle (h1 x hx)
    · next hle =>
      refine List.pairwise_cons.mpr ⟨?_, ih h2⟩
      intro x hx
      rcases sinsert_mem hx with rfl | hx
      · exact (bytesLe_total _ _).resolve_left hle
      · exact h1 x hx

theorem ssort_sorted (fs : List (SField σ)) : SortedByName (ssortByName fs) := by
  induction fs with
  | nil => exact .nil
  | cons f fs ih => exact sinsert_sorted f _ ih

theorem sinsert_filter (f : SField σ) (fs : List (SField σ)) (n : Bytes) :
    (sinsertByName f fs).filter (fun g => g.name = n) = (f :: fs).filter fun g => g.name = n := by
  induction fs with
  | nil => rfl
  | cons g gs ih =>
    unfold sinsertByName
    split
    · rfl
    · next hle =>
      have hne : g.name ≠ f.name := by
        intro h; rw [h] at hle; exact hle (bytesLe_refl _)
      rw [List.filter_cons, ih]
      by_cases hg : g.name = n
      · have hf : f.name ≠ n := fun h => hne (hg.trans h.symm)
        simp [hg, hf]
      · by_cases hf : f.name = n <;> simp [hg, hf]

/-- The sort is stable. -/
theorem ssort_filter (fs : List (SField σ)) (n : Bytes) :
    (ssortByName fs).filter (fun g => g.name = n) = fs.filter fun g => g.name = n := by
  induction fs with
  | nil => rfl
  | cons f fs ih =>
    simp only [ssortByName, sinsert_filter]
    rw [List.filter_cons, List.filter_cons, ih]

theorem flagged_filter (n prev : Bytes) (fs : List (SField σ)) (h : SortedByName fs)
    (hp : ∀ g ∈ fs, bytesLe prev g.name = true) :
    (flagged prev fs).filter (fun g => g.name = n) =
      if n = prev then fs.filter (fun g => g.name = n) else (fs.filter fun g => g.name = n).tail := by
  induction fs generalizing prev with
  | nil => simp [flagged]
  | cons f fs ih =>
    obtain ⟨h1, h2⟩ := List.pairwise_cons.mp h
    have ih := ih f.name h2 h1
    unfold flagged
    by_cases hf : f.name = prev
    · rw [if_pos hf, List.filter_cons, ih]
      by_cases hn : n = prev
      · simp [hf, hn]
      · have : ¬ prev = n := fun h => hn h.symm
        simp [hf, hn, this]
    · rw [if_neg hf, ih]
      by_cases hn : n = prev
      · have hnone : fs.filter (fun g => g.name = n) = [] := by
          rw [List.filter_eq_nil_iff]
          intro g hg hgn
          simp only [decide_eq_true_eq] at hgn
          refine hf (bytesLe_antisymm ?_ (hp f (by simp)))
          have := h1 g hg
          rw [hgn, hn] at this
          exact this
        have hfn : ¬ f.name = n := fun h => hf (h.trans hn)
        have hnf : ¬ n = f.name := fun h => hfn h.symm
        rw [if_neg hnf, if_pos hn, hnone, List.filter_cons, hnone]
        simp [hfn]
      · rw [if_neg hn]
        by_cases hfn : n = f.name
        · simp [hfn]
        · have : ¬ f.name = n := fun h => hfn h.symm
          simp [hfn, this]

theorem later_filter {γ : Type} (name : γ → Bytes) (n : Bytes) (seen : List Bytes) (gs : List γ) :
    (later name seen gs).filter (fun g => name g = n) =
      if n ∈ seen then gs.filter (fun g => name g = n) else (gs.filter fun g => name g = n).tail := by
  induction gs generalizing seen with
  | nil => simp [later]
  | cons g gs ih =>
    unfold later
    split
    · next hm =>
      rw [List.filter_cons, ih]
      by_cases hg : name g = n
      · rw [hg] at hm; simp [hg, hm]
      · simp [hg]
    · next hm =>
      rw [ih]
      by_cases hg : name g = n
      · rw [hg] at hm; simp [hg, hm]
      · have : ¬ n = name g := fun h => hg h.symm
        simp [hg, this]

theorem filter_placed (n : Bytes) (fs : List (SField σ)) :
    (fs.map placed).filter (fun d => d.1 = n) = (fs.filter fun g => g.name = n).map placed := by
  rw [List.filter_map]; rfl

theorem flagged_sublist (prev : Bytes) (fs : List (SField σ)) : (flagged prev fs).Sublist fs := by
  induction fs generalizing prev with
  | nil => exact .slnil
  | cons f fs ih =>
    unfold flagged
    split
    · exact (ih _).cons_cons _
    · exact (ih _).cons _

/-- C89: of the fields with one name, those after the first are reported, wherever they are in the struct. -/
theorem C89_duplicates (gs : List (SField σ)) (cx : List (SErr σ)) :
    ∃ ds : List (Bytes × σ), scheckDuplicates (ssortByName gs) [] cx = cx ++ ds.map duplicateAt ∧
      ds.Pairwise (fun a b => bytesLe a.1 b.1 = true) ∧
      ∀ n, ds.filter (fun d => d.1 = n) =
        (later Prod.fst [[]] (gs.map fun g => (g.name, g.nameSpan))).filter fun d => d.1 = n := by
  refine ⟨(flagged [] (ssortByName gs)).map placed, scheckDuplicates_eq _ _ _, ?_, ?_⟩
  · rw [List.pairwise_map]
    exact (ssort_sorted gs).sublist (flagged_sublist _ _)
  · intro n
    have h : (gs.map fun g => (g.name, g.nameSpan)) = gs.map placed := rfl
    rw [h, later_filter Prod.fst, filter_placed, filter_placed,
      flagged_filter n [] _ (ssort_sorted gs) (fun g _ => bytesLe_nil _), ssort_filter]
    by_cases hn : n = []
    · simp [hn]
    · simp [hn]

/-- Lists with the same elements of each name have the same elements. -/
theorem C89_perm {γ : Type} (name : γ → Bytes) (as bs : List γ)
    (h : ∀ n, as.filter (fun a => name a = n) = bs.filter fun b => name b = n) : as.Perm bs := by
  classical
  rw [List.perm_iff_count]
  intro a
  have := congrArg (List.count a) (h (name a))
  rwa [List.count_filter (by simp), List.count_filter (by simp)] at this

theorem snewFields_read (J : SpanOps σ) (Y : SSyn τ σ) (fs : List (SSynField τ σ)) (cx : List (SErr σ))
    (gs : List (SField σ)) (cx' : List (SErr σ)) (h : snewFields J Y fs cx = .ok (gs, cx')) :
    ∃ es, cx' = cx ++ es ∧ FieldsRead J Y fs (gs.map fun g => (g.name, g.nameSpan)) es := by
  induction fs generalizing cx gs with
  | nil => cases h; exact ⟨[], by simp, .nil⟩
  | cons f fs ih =>
    unfold snewFields at h
    cases hf : SField.new J Y f cx with
    | error e => rw [hf, Except.error_bind'] at h; cases h
    | ok r =>
      rw [hf, Except.ok_bind'] at h
      cases hn : snewFields J Y fs r.2 with
      | error e => simp only [hn, Except.error_bind'] at h; cases h
      | ok r' =>
        simp only [hn, Except.ok_bind'] at h
        cases h
        obtain ⟨ents, es, has, h0, h1, h2, _, h4⟩ := C89_field J Y f cx r.1 r.2 hf
        obtain ⟨es', h5, h6⟩ := ih r.2 r'.1 hn
        exact ⟨es ++ es', by rw [h5, h1]; simp, .cons h0 h2 h4 h6⟩

/-- C89: what the macro reports about a struct with named fields is all that is wrong with it, each error at
the place and with the text of what is wrong. -/
theorem C89_errors (J : SpanOps σ) (Y : SSyn τ σ) (lookup : CrateLookup) (failure : Bytes)
    (isIdent : Bytes → Bool) (input : SInput τ σ) (fs : List (SSynField τ σ)) (es : List (SErr σ))
    (hf : input.fields = some fs) (h : expandErrors J Y lookup failure isIdent input = .ok es) :
    ErrorsOf J Y lookup failure input.attrs fs es := by
  unfold expandErrors at h
  rw [hf] at h
  simp only at h
  cases h1 : snewFields J Y fs [] with
  | error e => rw [h1, Except.error_bind'] at h; cases h
  | ok r =>
    obtain ⟨gs, cx⟩ := r
    rw [h1, Except.ok_bind'] at h
    simp only at h
    cases h2 : snewMeta J Y (ContainerMeta.saddMeta J) input.attrs {}
        (scheckDuplicates (ssortByName gs) [] cx) with
    | error e => rw [h2, Except.error_bind'] at h; cases h
    | ok r =>
      obtain ⟨info, cx₂⟩ := r
      rw [h2, Except.ok_bind'] at h
      simp only at h
      cases h3 : simportOf J lookup failure isIdent info cx₂ with
      | error e => rw [h3, Except.error_bind'] at h; cases h
      | ok r =>
        rw [h3, Except.ok_bind'] at h
        cases h
        obtain ⟨es₁, e1, r1⟩ := snewFields_read J Y fs [] gs cx h1
        obtain ⟨ds, e2, r2, r2'⟩ := C89_duplicates gs cx
        obtain ⟨ents, es₃, r0, e3, r3⟩ := C89_container J Y _ _ _ _ h2
        have e4 : r.2 = cx₂ ++
            if lookup = .failed ∧ info.krate = none then [⟨.crateLookup, J.callSite, failure⟩] else [] := by
          unfold simportOf at h3
          cases hk : info.krate with
          | some p => rw [hk] at h3; cases h3; simp
          | none =>
            rw [hk] at h3
            simp only at h3
            cases lookup with
            | name k => simp only at h3; split at h3 <;> cases h3; simp
            | itself c =>
              cases c with
              | none => cases h3
              | some k => simp only at h3; split at h3 <;> cases h3; simp
            | manifestDirNotSet => simp only at h3; split at h3 <;> cases h3; simp
            | failed => simp only at h3; split at h3 <;> cases h3; simp
        rw [e4, e3, e2, e1, List.nil_append]
        exact .intro r1 r2 r2' r0 r3

/-- C89: anything else than a struct with named fields gets one error, at the whole item. -/
theorem C89_other (J : SpanOps σ) (Y : SSyn τ σ) (lookup : CrateLookup) (failure : Bytes)
    (isIdent : Bytes → Bool) (input : SInput τ σ) (hf : input.fields = none) :
    expandErrors J Y lookup failure isIdent input =
      .ok [⟨.notNamedStruct, input.span, b!"expected a struct with named fields"⟩] := by
  unfold expandErrors; rw [hf]

theorem itemAt_unique {J : SpanOps σ} {Y : SSyn τ σ} {t t₁ t₂ : τ} {m₁ m₂ : SMeta σ} (a : ItemAt J Y t m₁ t₁)
    (b : ItemAt J Y t m₂ t₂) : m₁ = m₂ ∧ t₁ = t₂ := by
  cases a <;> cases b <;> simp_all

theorem noItem_unique {Y : SSyn τ σ} {t : τ} {x y : σ × Bytes} (a : NoItem Y t x) (b : NoItem Y t y) : x = y := by
  cases a <;> cases b <;> simp_all

theorem noItem_not_itemAt {J : SpanOps σ} {Y : SSyn τ σ} {t t' : τ} {m : SMeta σ} {x : σ × Bytes}
    (a : NoItem Y t x) : ¬ ItemAt J Y t m t' := by
  intro b
  cases a <;> cases b <;> simp_all

theorem itemsAt_unique {J : SpanOps σ} {Y : SSyn τ σ} {t : τ} {r s : Except (σ × Bytes) (List (SMeta σ))}
    (a : ItemsAt J Y t r) (b : ItemsAt J Y t s) : r = s := by
  induction a generalizing s with
  | nil h => cases b <;> simp_all
  | last h0 hi h1 =>
    cases b with
    | nil => simp_all
    | last _ hi' _ => rw [(itemAt_unique hi hi').1]
    | noItem _ hn => exact absurd hi (noItem_not_itemAt hn)
    | more _ hi' h1' | noComma _ hi' h1' | later _ hi' h1' =>
      obtain ⟨rfl, rfl⟩ := itemAt_unique hi hi'; simp_all
  | more h0 hi h1 hc _ ih =>
    cases b with
    | nil => simp_all
    | last _ hi' h1' => obtain ⟨rfl, rfl⟩ := itemAt_unique hi hi'; simp_all
    | noItem _ hn => exact absurd hi (noItem_not_itemAt hn)
    | noComma _ hi' _ hc' => obtain ⟨rfl, rfl⟩ := itemAt_unique hi hi'; simp_all
    | more _ hi' _ hc' b' | later _ hi' _ hc' b' =>
      obtain ⟨rfl, rfl⟩ := itemAt_unique hi hi'
      rw [hc] at hc'
      cases hc'
      cases ih b' <;> rfl
  | noItem h0 hn =>
    cases b with
    | nil => simp_all
    | noItem _ hn' => rw [noItem_unique hn hn']
    | last _ hi | more _ hi | noComma _ hi | later _ hi => exact absurd hi (noItem_not_itemAt hn)
  | noComma h0 hi h1 hc =>
    cases b with
    | nil => simp_all
    | noItem _ hn => exact absurd hi (noItem_not_itemAt hn)
    | last _ hi' h1' => obtain ⟨rfl, rfl⟩ := itemAt_unique hi hi'; simp_all
    | more _ hi' _ hc' | noComma _ hi' _ hc' | later _ hi' _ hc' =>
      obtain ⟨rfl, rfl⟩ := itemAt_unique hi hi'; simp_all
  | later h0 hi h1 hc _ ih =>
    cases b with
    | nil => simp_all
    | last _ hi' h1' => obtain ⟨rfl, rfl⟩ := itemAt_unique hi hi'; simp_all
    | noItem _ hn => exact absurd hi (noItem_not_itemAt hn)
    | noComma _ hi' _ hc' => obtain ⟨rfl, rfl⟩ := itemAt_unique hi hi'; simp_all
    | more _ hi' _ hc' b' | later _ hi' _ hc' b' =>
      obtain ⟨rfl, rfl⟩ := itemAt_unique hi hi'
      rw [hc] at hc'
      cases hc'
      cases ih b' <;> rfl

/-- C89: the attributes determine the entries. -/
theorem C89_entries_unique {J : SpanOps σ} {Y : SSyn τ σ} {attrs : List (SAttribute τ σ)}
    {es es' : List (Except (SErr σ) (SMeta σ))} (a : EntriesOf J Y attrs es) (b : EntriesOf J Y attrs es') :
    es = es' := by
  induction a generalizing es' with
  | nil => cases b; rfl
  | other h _ ih =>
    cases b with
    | other _ b' => exact ih b'
    | bare h' | unread h' | items h' => exact absurd h' h
  | bare h ha _ ih =>
    cases b with
    | other h' => exact absurd h h'
    | bare _ ha' b' => rw [ha] at ha'; cases ha'; rw [ih b']
    | unread _ ha' | items _ ha' => rw [ha] at ha'; cases ha'
  | unread h ha hi _ ih =>
    cases b with
    | other h' => exact absurd h h'
    | bare _ ha' => rw [ha] at ha'; cases ha'
    | unread _ ha' hi' b' | items _ ha' hi' b' =>
      rw [ha] at ha'; cases ha'
      cases itemsAt_unique hi hi' <;> rw [ih b']
  | items h ha hi _ ih =>
    cases b with
    | other h' => exact absurd h h'
    | bare _ ha' => rw [ha] at ha'; cases ha'
    | unread _ ha' hi' b' | items _ ha' hi' b' =>
      rw [ha] at ha'; cases ha'
      cases itemsAt_unique hi hi' <;> rw [ih b']

/-- C89: the entries determine the errors. -/
theorem C89_unique {J : SpanOps σ} {has : Setting → Prop} {ents : List (Except (SErr σ) (SMeta σ))}
    {es es' : List (SErr σ)} {h1 h2 : Setting → Prop} (a : ReportsAt J has ents es h1)
    (b : ReportsAt J has ents es' h2) : es = es' ∧ h1 = h2 := by
  induction a generalizing es' h2 with
  | nil => cases b; exact ⟨rfl, rfl⟩
  | unread _ ih =>
    cases b with
    | unread b' => obtain ⟨rfl, e⟩ := ih b'; exact ⟨rfl, e⟩
  | sets s1 n1 _ ih =>
    cases b with
    | sets s2 n2 b' =>
      cases s1.unique s2
      exact ih b'
    | repeated s2 hu hn _ => cases s1.unique s2; exact absurd hn (n1 _ hu)
    | wrong w _ => exact absurd s1 (w.not_setsTo _)
  | repeated s1 hu hn _ ih =>
    cases b with
    | sets s2 n2 b' => cases s1.unique s2; exact absurd hn (n2 _ hu)
    | repeated s2 _ _ b' =>
      cases s1.unique s2
      obtain ⟨rfl, e⟩ := ih b'
      exact ⟨rfl, e⟩
    | wrong w _ => exact absurd s1 (w.not_setsTo _)
  | wrong w _ ih =>
    cases b with
    | sets s _ _ => exact absurd s (w.not_setsTo _)
    | repeated s _ _ _ => exact absurd s (w.not_setsTo _)
    | wrong w' b' =>
      obtain ⟨rfl, e⟩ := ih b'
      exact ⟨by rw [w.unique w'], e⟩

/-! ### tests/ui/attrs.rs and attrs.stderr -/

namespace SpansExample

/-- Line and column. -/
abbrev At := Nat × Nat

/-- Tokens with places. -/
inductive STok
  | path (p : Path) (text : Bytes) (s : At)
  | group (s : At)
  | eq
  | comma
  | expr (e : Expr) (s : At)

/-- `Span::join` of stable compilers. -/
def stable : SpanOps At := ⟨fun _ _ => none, (0, 0)⟩

/-- Parsing of `STok` streams. -/
def stokSyn : SSyn (List STok) At where
  isEmpty := List.isEmpty
  parsePath | .path p text s :: t => .ok (⟨p, text, s⟩, t) | _ => .error ((0, 0), b!"expected path")
  peekParen | .group _ :: _ => true | _ => false
  parseGroup | .group s :: t => some (s, t) | _ => none
  peekEq | .eq :: _ => true | _ => false
  parseEq | .eq :: t => some t | _ => none
  parseExpr | .expr e s :: t => .ok (⟨e, s, s⟩, t) | _ => .error ((0, 0), b!"expected expression")
  parseComma | .comma :: t => .ok t | _ => .error ((0, 0), b!"expected `,`")
  size := List.length

def id' (i : Bytes) (s : At) : STok := .path ⟨false, [(i, false)]⟩ i s
def unknownPath (s : At) : STok :=
  .path ⟨false, [(b!"unknown", false), (b!"path", false)]⟩ b!"unknown :: path" s
def attr (t : List STok) : SAttribute (List STok) At := ⟨⟨false, [(b!"oauth1", false)]⟩, .ok t⟩

/-- attrs.rs l.38-99 `Fields`. -/
def fields : List (SSynField (List STok) At) :=
  [⟨[attr [id' b!"rename" (40, 14), .eq, .expr .other (40, 23)]], b!"non_str_lit", (41, 5), .other⟩,
   ⟨[attr [id' b!"skip" (43, 14), .eq, .expr (.litStr []) (43, 21)]],
     b!"expected_word_unexpected_name_value", (44, 5), .other⟩,
   ⟨[attr [id' b!"skip" (46, 14), .group (46, 18)]], b!"expected_word_unexpected_list", (47, 5), .other⟩,
   ⟨[attr [id' b!"skip_if" (49, 14)]], b!"expected_name_value_unexpected_word", (50, 5), .other⟩,
   ⟨[attr [id' b!"skip_if" (52, 14), .group (52, 21)]], b!"expected_name_value_unexpected_list", (53, 5),
     .other⟩,
   ⟨[attr [id' b!"unknown" (55, 14)]], b!"unknown_word", (56, 5), .other⟩,
   ⟨[attr [unknownPath (58, 14)]], b!"unknown_path_word", (59, 5), .other⟩,
   ⟨[attr [id' b!"unknown" (61, 14), .eq, .expr (.litStr []) (61, 24)]], b!"unknown_name_value", (62, 5),
     .other⟩,
   ⟨[attr [unknownPath (64, 14), .eq, .expr (.litStr []) (64, 30)]], b!"unknown_path_name", (65, 5),
     .other⟩,
   ⟨[attr [id' b!"unknown" (67, 14), .group (67, 21)]], b!"unknown_list", (68, 5), .other⟩,
   ⟨[attr [unknownPath (70, 14), .group (70, 27)]], b!"unknown_path_list_name", (71, 5), .other⟩,
   ⟨[attr [id' b!"skip" (73, 14), .comma, id' b!"skip" (73, 20)]], b!"duplicate_word", (74, 5), .other⟩,
   ⟨[attr [id' b!"encoded" (76, 14)], attr [id' b!"encoded" (77, 14)]], b!"duplicate_word_2", (78, 5),
     .other⟩,
   ⟨[attr [id' b!"rename" (80, 14), .eq, .expr (.litStr b!"a") (80, 23), .comma, id' b!"rename" (80, 28),
     .eq, .expr (.litStr b!"b") (80, 37)]], b!"duplicate_name_value", (81, 5), .other⟩,
   ⟨[attr [id' b!"rename" (83, 14), .eq, .expr (.litStr b!"c") (83, 23)],
     attr [id' b!"rename" (84, 14), .eq, .expr (.litStr b!"d") (84, 23)]], b!"duplicate_name_value_2",
     (85, 5), .other⟩,
   ⟨[attr [id' b!"option" (87, 14), .eq, .expr (.path b!"FALSE") (87, 23)]], b!"invalid_boolean", (88, 5),
     .other⟩,
   ⟨[attr [id' b!"fmt" (90, 14), .eq, .expr .other (90, 20)]], b!"invalid_path", (91, 5), .other⟩,
   ⟨[], b!"duplicate", (93, 5), .other⟩,
   ⟨[attr [id' b!"rename" (94, 14), .eq, .expr (.litStr b!"duplicate") (94, 23)]], b!"duplicate_renamed",
     (95, 5), .other⟩,
   ⟨[attr [id' b!"rename" (97, 14), .eq, .expr (.litStr b!"?") (97, 23)]], b!"uri_unsafe", (98, 5),
     .other⟩]

/-- The macro's errors about the struct, as in attrs.stderr l.55 to the end. -/
example : ((expandErrors stable stokSyn (.name b!"oauth1_request") [] (fun _ => true)
      ⟨[], some fields, (37, 1)⟩).toOption.map fun es => es.map fun e => (e.span, e.text)) =
    some [((40, 23), b!"expected string literal"), ((43, 14), b!"expected meta word"),
      ((46, 14), b!"expected meta word"), ((49, 14), b!"expected name-value meta"),
      ((52, 14), b!"expected name-value meta"), ((55, 14), b!"unknown attribute `unknown`"),
      ((58, 14), b!"unknown attribute `unknown::path`"), ((61, 14), b!"unknown attribute `unknown`"),
      ((64, 14), b!"unknown attribute `unknown::path`"), ((67, 14), b!"unknown attribute `unknown`"),
      ((70, 14), b!"unknown attribute `unknown::path`"), ((73, 20), b!"duplicate attribute `skip`"),
      ((77, 14), b!"duplicate attribute `encoded`"), ((80, 28), b!"duplicate attribute `rename`"),
      ((84, 14), b!"duplicate attribute `rename`"), ((87, 23), b!"expected boolean literal"),
      ((90, 20), b!"expected path"), ((97, 23), b!"parameter name must be URI-safe"),
      ((94, 23), b!"duplicate parameter \"duplicate\"")] := by decide +kernel

/-- The structs of attrs.rs l.1-36. -/
example : ([[attr [id' b!"unknown" (2, 10)]], [attr [unknownPath (6, 10)]],
      [attr [id' b!"unknown" (10, 10), .eq, .expr (.litStr []) (10, 20)]],
      [attr [unknownPath (18, 10), .group (18, 23)]], [attr [id' b!"crate" (22, 10)]],
      [attr [id' b!"crate" (26, 10), .group (26, 15)]],
      [attr [id' b!"crate" (30, 10), .eq, .expr (.path b!"oauth1_request") (30, 18)],
        attr [id' b!"crate" (31, 10), .eq, .expr (.path b!"oauth1_request") (31, 18)]],
      [attr [id' b!"crate" (35, 10), .eq, .expr (.path b!"oauth1_request") (35, 18), .comma,
        id' b!"crate" (35, 34), .eq, .expr (.path b!"oauth1_request") (35, 42)]]].map fun attrs =>
      (expandErrors stable stokSyn (.name b!"oauth1_request") [] (fun _ => true)
        ⟨attrs, some [], (1, 1)⟩).toOption.map fun es => es.map fun e => (e.span, e.text)) =
    [some [((2, 10), b!"unknown attribute `unknown`")], some [((6, 10), b!"unknown attribute `unknown::path`")],
      some [((10, 10), b!"unknown attribute `unknown`")],
      some [((18, 10), b!"unknown attribute `unknown::path`")],
      some [((22, 10), b!"expected name-value meta")], some [((26, 10), b!"expected name-value meta")],
      some [((31, 10), b!"duplicate attribute `crate`")],
      some [((35, 34), b!"duplicate attribute `crate`")]] := by decide +kernel

/-- The entries of one attribute: `skip(..)`, then a comma and no path. -/
theorem entries_unread : EntriesOf stable stokSyn [attr [id' b!"skip" (1, 10), .group (1, 14), .comma, .eq]]
    [.error ⟨.syn, (0, 0), b!"expected path"⟩] := by
  refine EntriesOf.unread (e := ((0, 0), b!"expected path")) (by rfl) rfl ?_ .nil
  exact .later rfl (.list rfl rfl rfl) rfl rfl (.noItem rfl (.path rfl))

example (es : List (Except (SErr At) (SMeta At)))
    (h : EntriesOf stable stokSyn [attr [id' b!"skip" (1, 10), .group (1, 14), .comma, .eq]] es) :
    es = [.error ⟨.syn, (0, 0), b!"expected path"⟩] := C89_entries_unique h entries_unread

/-- ... and without the error, where spans can be joined: the item extends to the group. -/
example : EntriesOf ⟨fun a b => some (a.1, b.2), (0, 0)⟩ stokSyn
    [attr [id' b!"skip" (1, 10), .group (1, 14)]]
    [.ok ⟨⟨⟨false, [(b!"skip", false)]⟩, b!"skip", (1, 10)⟩, .list (1, 14)⟩] := by
  refine EntriesOf.items (ms := [_]) (by rfl) rfl ?_ .nil
  exact .last rfl (.list (p := ⟨⟨false, [(b!"skip", false)]⟩, b!"skip", (1, 10)⟩) (g := (1, 14)) rfl rfl rfl) rfl

/-- The theorems for the struct with all these fields. -/
example (es : List (SErr At)) (h : expandErrors stable stokSyn (.name b!"oauth1_request") [] (fun _ => true)
    ⟨[], some fields, (37, 1)⟩ = .ok es) := C89_errors stable stokSyn _ _ _ _ _ es rfl h
example := C89_same stable stokSyn ⟨true, true, .std⟩ (.name b!"oauth1_request") [] (fun _ => true)
  ⟨[], some fields, (37, 1)⟩
/-- An `enum`. -/
example := C89_other stable stokSyn (.name b!"oauth1_request") [] (fun _ => true) ⟨[], none, (3, 1)⟩ rfl

end SpansExample

end OAuth
