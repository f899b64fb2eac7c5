import Verif.Model.Authorization
import Verif.Proofs.Bytes
import Verif.Spec.Received

/-
The header parser of the example server against the grammar.
-/

namespace OAuth.Server

open Spec

theorem isTchar_eq (b : UInt8) : isTchar b = tchar b := by
  revert b; apply forall_byte; decide +kernel

theorem isQdtext_eq (b : UInt8) : isQdtext b = qdtext b := by
  revert b; apply forall_byte; decide +kernel

theorem isQuotable_eq (b : UInt8) : (isSpace b || isVchar b || isObsText b) = quotable b := by
  revert b; apply forall_byte; decide +kernel

theorem isSpace_iff (b : UInt8) : isSpace b = true ↔ b = 0x20 ∨ b = 0x09 := by
  simp [isSpace]

theorem tchar_not_space {b : UInt8} (h : tchar b = true) : isSpace b = false := by
  revert b; apply forall_byte; decide +kernel

/-! ### Basic parsers -/

/-- The first byte of `r`, if there is one, does not satisfy `p`. -/
def Stops (p : UInt8 → Bool) (r : Bytes) : Prop := ∀ b, r.head? = some b → p b = false

theorem stops_nil (p : UInt8 → Bool) : Stops p [] := by intro b h; cases h

theorem stops_cons {p : UInt8 → Bool} {b : UInt8} {r : Bytes} (h : p b = false) : Stops p (b :: r) := by
  intro c hc; cases hc; exact h

theorem takeWhile_stops {p : UInt8 → Bool} {m r : Bytes} (hm : ∀ b ∈ m, p b = true) (hr : Stops p r) :
    (m ++ r).takeWhile p = m ∧ (m ++ r).dropWhile p = r := by
  induction m with
  | nil =>
    cases r with
    | nil => exact ⟨rfl, rfl⟩
    | cons b r => simp [hr b rfl]
  | cons b m ih =>
    obtain ⟨h1, h2⟩ := ih (fun b hb => hm b (by simp [hb]))
    simp [hm b (by simp), h1, h2]

theorem takeWhile_decomp (p : UInt8 → Bool) (s : Bytes) :
    s = s.takeWhile p ++ s.dropWhile p ∧ (∀ b ∈ s.takeWhile p, p b = true) ∧
      Stops p (s.dropWhile p) := by
  induction s with
  | nil => exact ⟨rfl, by simp, stops_nil p⟩
  | cons b s ih =>
    cases h : p b with
    | true =>
      simp only [List.takeWhile_cons, List.dropWhile_cons, h, if_true, List.cons_append]
      refine ⟨by rw [← ih.1], ?_, ih.2.2⟩
      intro c hc
      rcases List.mem_cons.mp hc with rfl | hc
      · exact h
      · exact ih.2.1 c hc
    | false =>
      simp only [List.takeWhile_cons, List.dropWhile_cons, h]
      exact ⟨rfl, by simp, stops_cons h⟩

theorem takeWhile1_eq {p : UInt8 → Bool} {m r : Bytes} (hne : m ≠ []) (hm : ∀ b ∈ m, p b = true)
    (hr : Stops p r) : takeWhile1 p (m ++ r) = .ok (r, m) := by
  obtain ⟨h1, h2⟩ := takeWhile_stops hm hr
  unfold takeWhile1
  rw [h1, h2]
  cases m with
  | nil => exact absurd rfl hne
  | cons b m => rfl

theorem takeWhile1_ok {p : UInt8 → Bool} {s r m : Bytes} (h : takeWhile1 p s = .ok (r, m)) :
    s = m ++ r ∧ m ≠ [] ∧ (∀ b ∈ m, p b = true) ∧ Stops p r := by
  obtain ⟨h1, h2, h3⟩ := takeWhile_decomp p s
  unfold takeWhile1 at h
  split at h
  · cases h
  · next hne =>
    cases h
    exact ⟨h1, fun e => hne e, h2, h3⟩

theorem takeWhile1_error {p : UInt8 → Bool} {s : Bytes} {e : NomErr} (h : takeWhile1 p s = .error e) :
    e = .error ∧ Stops p s := by
  obtain ⟨h1, h2, h3⟩ := takeWhile_decomp p s
  unfold takeWhile1 at h
  split at h
  · next he =>
    cases h
    rw [he] at h1
    rw [h1]
    exact ⟨rfl, h3⟩
  · cases h

theorem takeWhile1_stops {p : UInt8 → Bool} {s : Bytes} (h : Stops p s) :
    takeWhile1 p s = .error .error := by
  unfold takeWhile1
  have := (takeWhile_stops (m := []) (by simp) h).1
  rw [List.nil_append] at this
  rw [this]

theorem tag_cons (c : UInt8) (s : Bytes) : tag [c] (c :: s) = .ok (s, [c]) := by simp [tag]

theorem tag_ok {c : UInt8} {s r m : Bytes} (h : tag [c] s = .ok (r, m)) : s = c :: r := by
  unfold tag at h
  split at h
  · next he =>
    cases h
    cases s with
    | nil => simp at he
    | cons b s => simp at he; subst he; rfl
  · cases h

theorem tag_error {c : UInt8} {s : Bytes} {e : NomErr} (h : tag [c] s = .error e) :
    e = .error ∧ ∀ r, s ≠ c :: r := by
  unfold tag at h
  split at h
  · cases h
  · next he =>
    cases h
    refine ⟨rfl, ?_⟩
    rintro r rfl
    simp at he

theorem ows_eq {w r : Bytes} (hw : IsBlank w) (hr : Stops isSpace r) : ows (w ++ r) = .ok (r, w) := by
  obtain ⟨h1, h2⟩ := takeWhile_stops (p := isSpace) (fun b hb => (isSpace_iff b).mpr (hw b hb)) hr
  rw [ows, space0, h1, h2]

theorem ows_ok (s : Bytes) : ∃ w r, s = w ++ r ∧ IsBlank w ∧ Stops isSpace r ∧ ows s = .ok (r, w) := by
  obtain ⟨h1, h2, h3⟩ := takeWhile_decomp isSpace s
  exact ⟨_, _, h1, fun b hb => (isSpace_iff b).mp (h2 b hb), h3, rfl⟩

/-! ### Quoted strings -/

/-- Splits off the run of plain text at the beginning. -/
theorem _root_.OAuth.Spec.QuotedText.run {q v : Bytes} (h : QuotedText q v) :
    ∃ m q' v', q = m ++ q' ∧ v = m ++ v' ∧ (∀ b ∈ m, qdtext b = true) ∧ QuotedText q' v' ∧
      (q' = [] ∨ ∃ b q'' v'', q' = 0x5C :: b :: q'' ∧ v' = b :: v'' ∧ quotable b = true ∧
        QuotedText q'' v'') := by
  induction h with
  | nil => exact ⟨[], [], [], rfl, rfl, by simp, .nil, .inl rfl⟩
  | @text b q v hb hq ih =>
    obtain ⟨m, q', v', rfl, rfl, hm, hq', hcase⟩ := ih
    refine ⟨b :: m, q', v', rfl, rfl, ?_, hq', hcase⟩
    intro c hc
    rcases List.mem_cons.mp hc with rfl | hc
    · exact hb
    · exact hm c hc
  | @pair b q v hb hq ih =>
    exact ⟨[], _, _, rfl, rfl, by simp, .pair hb hq, .inr ⟨b, q, v, rfl, rfl, hb, hq⟩⟩

theorem _root_.OAuth.Spec.QuotedText.append_text {m q v : Bytes} (hm : ∀ b ∈ m, qdtext b = true) (h : QuotedText q v) :
    QuotedText (m ++ q) (m ++ v) := by
  induction m with
  | nil => exact h
  | cons b m ih => exact .text (hm b (by simp)) (ih fun b hb => hm b (by simp [hb]))

/-- The loop with the parsers of `quoted_string`. -/
abbrev quotedLoop (emptyOk : Bool) : Nat → Bool → Bytes → Bytes → IResult Bytes :=
  escapedLoop emptyOk (takeWhile1 isQdtext) (takeOne fun b => isSpace b || isVchar b || isObsText b)
    0x5C

theorem quotedLoop_complete (emptyOk : Bool) (fuel : Nat) (first : Bool) {q v : Bytes} (r res : Bytes)
    (h : QuotedText q v) (hfuel : (q ++ 0x22 :: r).length ≤ fuel)
    (hfirst : first = true → q = [] → emptyOk = true) :
    quotedLoop emptyOk fuel first (q ++ 0x22 :: r) res = .ok (0x22 :: r, res ++ v) := by
  induction fuel generalizing first q v res with
  | zero => simp at hfuel
  | succ fuel ih =>
    obtain ⟨m, q', v', rfl, rfl, hm, hq', hcase⟩ := h.run
    have hstop : Stops isQdtext (q' ++ 0x22 :: r) := by
      rcases hcase with rfl | ⟨b, q'', v'', rfl, -⟩
      · exact stops_cons (by decide)
      · exact stops_cons (by decide)
    cases m with
    | cons b m =>
      have hrun := takeWhile1_eq (p := isQdtext) (m := b :: m) (by simp)
        (fun b hb => by rw [isQdtext_eq]; exact hm b hb) hstop
      have hlen : (q' ++ 0x22 :: r).length ≤ fuel := by simp at hfuel ⊢; omega
      have e : b :: m ++ q' ++ 0x22 :: r = b :: (m ++ (q' ++ 0x22 :: r)) := by simp
      rw [e]
      have hrun' : takeWhile1 isQdtext (b :: (m ++ (q' ++ 0x22 :: r))) =
          .ok (q' ++ 0x22 :: r, b :: m) := hrun
      have ih := ih false (res ++ b :: m) hq' hlen (by simp)
      unfold quotedLoop escapedLoop
      rw [hrun']
      cases hc : q' ++ 0x22 :: r with
      | nil => simp at hc
      | cons c i2 =>
        rw [hc] at ih
        simp only []
        refine ih.trans ?_
        simp
    | nil =>
      rcases hcase with rfl | ⟨b, q'', v'', rfl, rfl, hb, hq''⟩
      · have hv : v' = [] := by cases hq'; rfl
        subst hv
        have herr : takeWhile1 isQdtext (0x22 :: r) = .error .error :=
          takeWhile1_stops (stops_cons (by decide))
        simp only [List.nil_append]
        unfold quotedLoop escapedLoop
        rw [herr]
        simp only []
        rw [if_neg (by decide), if_neg]
        · simp
        · intro hf
          simp only [Bool.and_eq_true, Bool.not_eq_true'] at hf
          have := hfirst hf.1 rfl
          rw [this] at hf
          simp at hf
      · have herr : takeWhile1 isQdtext (0x5C :: (b :: q'' ++ 0x22 :: r)) = .error .error :=
          takeWhile1_stops (stops_cons (by decide))
        have hlen : (q'' ++ 0x22 :: r).length ≤ fuel := by simp at hfuel ⊢; omega
        have ih := ih false (res ++ [b]) hq'' hlen (by simp)
        have e : ([] : Bytes) ++ 0x5C :: b :: q'' ++ 0x22 :: r = 0x5C :: (b :: q'' ++ 0x22 :: r) := by
          simp
        rw [e]
        unfold quotedLoop escapedLoop
        rw [herr]
        have hone : takeOne (fun b => isSpace b || isVchar b || isObsText b)
            (b :: q'' ++ 0x22 :: r) = .ok (q'' ++ 0x22 :: r, [b]) := by
          simp only [List.cons_append, takeOne, isQuotable_eq, hb, if_true]
        simp only [if_true]
        rw [if_neg (by simp), hone]
        cases hc : q'' ++ 0x22 :: r with
        | nil => simp at hc
        | cons c i2 =>
          rw [hc] at ih
          simp only []
          refine ih.trans ?_
          simp

theorem takeOne_ok {p : UInt8 → Bool} {s r m : Bytes} (h : takeOne p s = .ok (r, m)) :
    ∃ b, s = b :: r ∧ m = [b] ∧ p b = true := by
  cases s with
  | nil => cases h
  | cons b s =>
    simp only [takeOne] at h
    split at h
    · next hb => cases h; exact ⟨b, rfl, rfl, hb⟩
    · cases h

theorem takeOne_error {p : UInt8 → Bool} {s : Bytes} {e : NomErr} (h : takeOne p s = .error e) :
    e = .error := by
  cases s with
  | nil => cases h; rfl
  | cons b s =>
    simp only [takeOne] at h
    split at h
    · cases h
    · cases h; rfl

theorem quotedLoop_sound (emptyOk : Bool) (fuel : Nat) (first : Bool) (s res : Bytes)
    (hfuel : s.length ≤ fuel) :
    (∀ r v, quotedLoop emptyOk fuel first s res = .ok (r, v) →
      ∃ q u, s = q ++ r ∧ v = res ++ u ∧ QuotedText q u ∧
        (first = true → q = [] → r = [] ∨ emptyOk = true)) ∧
    (∀ e, quotedLoop emptyOk fuel first s res = .error e → e = .error) := by
  induction fuel generalizing first s res with
  | zero =>
    cases s with
    | cons b s => simp at hfuel
    | nil =>
      constructor
      · intro r v h
        simp only [quotedLoop, escapedLoop] at h
        cases h
        exact ⟨[], [], rfl, by simp, .nil, fun _ _ => .inl rfl⟩
      · intro e h
        simp only [quotedLoop, escapedLoop] at h
        cases h
  | succ fuel ih =>
    cases s with
    | nil =>
      constructor
      · intro r v h
        simp only [quotedLoop, escapedLoop] at h
        cases h
        exact ⟨[], [], rfl, by simp, .nil, fun _ _ => .inl rfl⟩
      · intro e h
        simp only [quotedLoop, escapedLoop] at h
        cases h
    | cons b s =>
      unfold quotedLoop escapedLoop
      cases hn : takeWhile1 isQdtext (b :: s) with
      | ok x =>
        obtain ⟨i2, o⟩ := x
        obtain ⟨h1, h2, h3, h4⟩ := takeWhile1_ok hn
        have h3' : ∀ b ∈ o, qdtext b = true := fun b hb => by rw [← isQdtext_eq]; exact h3 b hb
        have hlen : i2.length ≤ fuel := by
          have := congrArg List.length h1
          have ho : 0 < o.length := List.length_pos_iff.mpr h2
          simp at this hfuel
          omega
        cases i2 with
        | nil =>
          constructor
          · intro r v h
            cases h
            refine ⟨o, o, h1, rfl, ?_, fun _ hq => absurd hq h2⟩
            have := QuotedText.append_text h3' .nil
            simpa using this
          · intro e h; cases h
        | cons c i2 =>
          obtain ⟨ih1, ih2⟩ := ih false (c :: i2) (res ++ o) hlen
          constructor
          · intro r v h
            obtain ⟨q, u, e1, e2, e3, -⟩ := ih1 r v h
            refine ⟨o ++ q, o ++ u, ?_, ?_, .append_text h3' e3, ?_⟩
            · rw [h1, e1]; simp
            · rw [e2]; simp
            · intro _ hq
              exact absurd (List.append_eq_nil_iff.mp hq).1 h2
          · exact fun e h => ih2 e h
      | error e =>
        obtain ⟨rfl, hst⟩ := takeWhile1_error hn
        simp only []
        split
        · next hb =>
          subst hb
          split
          · exact ⟨fun r v h => (by cases h), fun e h => by cases h; rfl⟩
          · cases ht : takeOne (fun b => isSpace b || isVchar b || isObsText b) s with
            | error e =>
              have := takeOne_error ht
              subst this
              exact ⟨fun r v h => (by cases h), fun e h => by cases h; rfl⟩
            | ok x =>
              obtain ⟨i2, o⟩ := x
              obtain ⟨b, rfl, rfl, hb⟩ := takeOne_ok ht
              rw [isQuotable_eq] at hb
              have hlen : i2.length ≤ fuel := by simp at hfuel; omega
              cases i2 with
              | nil =>
                constructor
                · intro r v h
                  cases h
                  exact ⟨[0x5C, b], [b], rfl, rfl, .pair hb .nil, fun _ hq => by cases hq⟩
                · intro e h; cases h
              | cons c i2 =>
                obtain ⟨ih1, ih2⟩ := ih false (c :: i2) (res ++ [b]) hlen
                constructor
                · intro r v h
                  obtain ⟨q, u, e1, e2, e3, -⟩ := ih1 r v h
                  refine ⟨0x5C :: b :: q, b :: u, ?_, ?_, .pair hb e3, fun _ hq => by cases hq⟩
                  · rw [e1]; simp
                  · rw [e2]; simp
                · exact fun e h => ih2 e h
        · next hb =>
          split
          · exact ⟨fun r v h => (by cases h), fun e h => by cases h; rfl⟩
          · next hf =>
            constructor
            · intro r v h
              cases h
              refine ⟨[], [], rfl, by simp, .nil, ?_⟩
              intro hfst _
              right
              simpa [hfst] using hf
            · intro e h; cases h

theorem quotedString_complete {emptyOk : Bool} {q v : Bytes} (r : Bytes) (h : QuotedText q v)
    (he : q = [] → emptyOk = true) :
    quotedString emptyOk (0x22 :: (q ++ [0x22]) ++ r) = .ok (r, v) := by
  have e : (0x22 : UInt8) :: (q ++ [0x22]) ++ r = 0x22 :: (q ++ 0x22 :: r) := by simp
  rw [e, quotedString, delimited, tag_cons]
  simp only [escapedTransform]
  have := quotedLoop_complete emptyOk (q ++ 0x22 :: r).length true r [] h (Nat.le_refl _) (fun _ => he)
  unfold quotedLoop at this
  rw [this]
  simp only [tag_cons, List.nil_append]

theorem quotedString_ok {emptyOk : Bool} {s r v : Bytes} (h : quotedString emptyOk s = .ok (r, v)) :
    ∃ q, s = 0x22 :: (q ++ [0x22]) ++ r ∧ QuotedText q v ∧ (q = [] → emptyOk = true) := by
  unfold quotedString delimited at h
  split at h
  · cases h
  · next s1 _ h1 =>
    have e1 := tag_ok h1
    subst e1
    split at h
    · cases h
    · next s2 o h2 =>
      split at h
      · cases h
      · next s3 _ h3 =>
        cases h
        have e3 := tag_ok h3
        subst e3
        obtain ⟨q, u, e1, e2, e3, e4⟩ := (quotedLoop_sound emptyOk s1.length true s1 []
          (Nat.le_refl _)).1 _ _ h2
        subst e1
        simp only [List.nil_append] at e2
        subst e2
        refine ⟨q, by simp, e3, fun hq => ?_⟩
        rcases e4 rfl hq with h | h
        · cases h
        · exact h

theorem quotedString_error {emptyOk : Bool} {s : Bytes} {e : NomErr}
    (h : quotedString emptyOk s = .error e) : e = .error := by
  unfold quotedString delimited at h
  split at h
  · next h1 => cases h; exact (tag_error h1).1
  · split at h
    · next h2 =>
      cases h
      exact (quotedLoop_sound emptyOk _ true _ [] (Nat.le_refl _)).2 _ h2
    · split at h
      · next h3 => cases h; exact (tag_error h3).1
      · cases h

/-! ### Parameters -/

/-- The alternative in `auth_param`. -/
abbrev paramValue (emptyOk : Bool) : Bytes → IResult Cow :=
  alt (mapP (quotedString emptyOk) Cow.owned) (mapP token Cow.borrowed)

theorem paramValue_quoted {emptyOk : Bool} {q v : Bytes} (r : Bytes) (h : QuotedText q v)
    (he : q = [] → emptyOk = true) :
    paramValue emptyOk (0x22 :: (q ++ [0x22]) ++ r) = .ok (r, .owned v) := by
  unfold paramValue alt mapP
  rw [quotedString_complete r h he]
  rfl

theorem paramValue_token {emptyOk : Bool} {v r : Bytes} (h : IsToken v) (hr : Stops isTchar r) :
    paramValue emptyOk (v ++ r) = .ok (r, .borrowed v) := by
  have hq : quotedString emptyOk (v ++ r) = .error .error := by
    cases hq : quotedString emptyOk (v ++ r) with
    | error e => rw [quotedString_error hq]
    | ok x =>
      obtain ⟨q, e, -⟩ := quotedString_ok hq
      obtain ⟨hne, hv⟩ := h
      cases v with
      | nil => exact absurd rfl hne
      | cons b v =>
        have := hv b (by simp)
        simp only [List.cons_append, List.cons.injEq] at e
        rw [e.1] at this
        exact absurd this (by decide)
  unfold paramValue alt mapP
  rw [hq]
  simp only [Except.map]
  rw [token, takeWhile1_eq h.1 (fun b hb => by rw [isTchar_eq]; exact h.2 b hb) hr]

theorem paramValue_ok {emptyOk : Bool} {s r : Bytes} {v : Cow} (h : paramValue emptyOk s = .ok (r, v)) :
    ∃ t, s = t ++ r ∧ IsParamValue emptyOk t v.bytes := by
  unfold paramValue alt mapP at h
  cases hq : quotedString emptyOk s with
  | ok x =>
    rw [hq] at h
    simp only [Except.map] at h
    cases h
    obtain ⟨q, e1, e2, e3⟩ := quotedString_ok hq
    exact ⟨_, e1, .inr ⟨q, rfl, e2, e3⟩⟩
  | error e =>
    have := quotedString_error hq
    subst this
    rw [hq] at h
    simp only [Except.map] at h
    cases ht : token s with
    | error e => rw [ht] at h; cases h
    | ok x =>
      rw [ht] at h
      cases h
      obtain ⟨e1, e2, e3, -⟩ := takeWhile1_ok ht
      exact ⟨_, e1, .inl ⟨⟨e2, fun b hb => by rw [← isTchar_eq]; exact e3 b hb⟩, rfl⟩⟩

theorem paramValue_error {emptyOk : Bool} {s : Bytes} {e : NomErr} (h : paramValue emptyOk s = .error e) :
    e = .error := by
  unfold paramValue alt mapP at h
  cases hq : quotedString emptyOk s with
  | ok x =>
    rw [hq] at h
    cases h
  | error e =>
    have := quotedString_error hq
    subst this
    rw [hq] at h
    simp only [Except.map] at h
    cases ht : token s with
    | error e => rw [ht] at h; cases h; exact (takeWhile1_error ht).1
    | ok x => rw [ht] at h; cases h

theorem paramValue_starts {emptyOk : Bool} {t v : Bytes} (h : IsParamValue emptyOk t v) (r : Bytes) :
    Stops isSpace (t ++ r) ∧ ∃ r' v', paramValue emptyOk (t ++ r) = .ok (r', v') := by
  rcases h with ⟨⟨h1, h2⟩, -⟩ | ⟨q, rfl, h2, h3⟩
  · constructor
    · cases t with
      | nil => exact absurd rfl h1
      | cons b t => exact stops_cons (tchar_not_space (h2 b (by simp)))
    · obtain ⟨e1, e2, e3⟩ := takeWhile_decomp isTchar r
      rw [e1, ← List.append_assoc]
      refine ⟨_, _, paramValue_token (v := t ++ r.takeWhile isTchar) ⟨by simp [h1], ?_⟩ e3⟩
      intro b hb
      rcases List.mem_append.mp hb with hb | hb
      · exact h2 b hb
      · rw [← isTchar_eq]; exact e2 b hb
  · exact ⟨stops_cons (by decide), _, _, paramValue_quoted r h2 h3⟩

theorem authParam_steps {emptyOk : Bool} {key w w' s : Bytes} (hk : IsToken key) (hw : IsBlank w)
    (hw' : IsBlank w') (hs : Stops isSpace s) :
    authParam emptyOk (key ++ (w ++ (0x3D :: (w' ++ s)))) =
      (paramValue emptyOk s).bind fun x => .ok (x.1, (key, x.2)) := by
  have h1 : token (key ++ (w ++ (0x3D :: (w' ++ s)))) = .ok (w ++ (0x3D :: (w' ++ s)), key) := by
    refine takeWhile1_eq hk.1 (fun b hb => by rw [isTchar_eq]; exact hk.2 b hb) ?_
    cases w with
    | nil => exact stops_cons (by decide)
    | cons b w =>
      refine stops_cons ?_
      rcases hw b (by simp) with rfl | rfl <;> decide
  have h2 : ows (w ++ (0x3D :: (w' ++ s))) = .ok (0x3D :: (w' ++ s), w) :=
    ows_eq hw (stops_cons (by decide))
  have h3 : ows (w' ++ s) = .ok (s, w') := ows_eq hw' hs
  have h4 : tag b!"=" (0x3D :: (w' ++ s)) = .ok (w' ++ s, b!"=") := tag_cons _ _
  unfold authParam
  simp only [h1, h2, h3, h4, Except.bind]

theorem authParam_ok {emptyOk : Bool} {s r k : Bytes} {v : Cow}
    (h : authParam emptyOk s = .ok (r, (k, v))) :
    ∃ t, s = t ++ r ∧ t ≠ [] ∧ IsAuthParam emptyOk t k v.bytes := by
  unfold authParam at h
  cases h1 : token s with
  | error e => rw [h1] at h; cases h
  | ok x1 =>
    obtain ⟨s1, key⟩ := x1
    obtain ⟨w, s2, e2, hw, -, h2⟩ := ows_ok s1
    rw [h1] at h
    simp only [Except.bind, h2] at h
    cases h3 : tag b!"=" s2 with
    | error e => rw [h3] at h; cases h
    | ok x3 =>
      obtain ⟨s3, m⟩ := x3
      obtain ⟨w', s4, e4, hw', -, h4⟩ := ows_ok s3
      rw [h3] at h
      simp only [h4] at h
      cases h5 : paramValue emptyOk s4 with
      | error e =>
        unfold paramValue at h5
        rw [h5] at h; cases h
      | ok x5 =>
        have h5' := h5
        unfold paramValue at h5
        rw [h5] at h
        cases h
        obtain ⟨t, e5, ht⟩ := paramValue_ok h5'
        obtain ⟨e1, hne, hk, -⟩ := takeWhile1_ok h1
        refine ⟨k ++ (w ++ (0x3D :: (w' ++ t))), ?_, by simp, w, w', t, rfl,
          ⟨hne, fun b hb => by rw [← isTchar_eq]; exact hk b hb⟩, hw, hw', ht⟩
        rw [e1, e2, tag_ok h3, e4, e5]
        simp

theorem authParam_error {emptyOk : Bool} {s : Bytes} {e : NomErr} (h : authParam emptyOk s = .error e) :
    e = .error := by
  unfold authParam at h
  cases h1 : token s with
  | error e => rw [h1] at h; cases h; exact (takeWhile1_error h1).1
  | ok x1 =>
    obtain ⟨s1, key⟩ := x1
    obtain ⟨w, s2, e2, hw, -, h2⟩ := ows_ok s1
    rw [h1] at h
    simp only [Except.bind, h2] at h
    cases h3 : tag b!"=" s2 with
    | error e => rw [h3] at h; cases h; exact (tag_error h3).1
    | ok x3 =>
      obtain ⟨s3, m⟩ := x3
      obtain ⟨w', s4, e4, hw', -, h4⟩ := ows_ok s3
      rw [h3] at h
      simp only [h4] at h
      cases h5 : paramValue emptyOk s4 with
      | error e =>
        have h5' := h5
        unfold paramValue at h5
        rw [h5] at h; cases h
        exact paramValue_error h5'
      | ok x5 =>
        unfold paramValue at h5
        rw [h5] at h; cases h

theorem authParam_complete {emptyOk : Bool} {t k v : Bytes} (h : IsAuthParam emptyOk t k v) (r : Bytes) :
    (∃ x, authParam emptyOk (t ++ r) = .ok x) ∧ Stops isSpace (t ++ r) := by
  obtain ⟨w, w', vt, rfl, hk, hw, hw', hv⟩ := h
  obtain ⟨hs, r', v', hp⟩ := paramValue_starts hv r
  have e : k ++ (w ++ (0x3D :: (w' ++ vt))) ++ r = k ++ (w ++ (0x3D :: (w' ++ (vt ++ r)))) := by simp
  rw [e]
  constructor
  · rw [authParam_steps hk hw hw' hs, hp]
    exact ⟨_, rfl⟩
  · obtain ⟨h1, h2⟩ := hk
    cases k with
    | nil => exact absurd rfl h1
    | cons b k => exact stops_cons (tchar_not_space (h2 b (by simp)))

/-! ### Lists -/

theorem comma_eq {w w' s : Bytes} (hw : IsBlank w) (hw' : IsBlank w') (hs : Stops isSpace s) :
    comma (w ++ (0x2C :: (w' ++ s))) = .ok (s, ()) := by
  have h2 : ows (w ++ (0x2C :: (w' ++ s))) = .ok (0x2C :: (w' ++ s), w) :=
    ows_eq hw (stops_cons (by decide))
  have h3 : ows (w' ++ s) = .ok (s, w') := ows_eq hw' hs
  have h4 : tag b!"," (0x2C :: (w' ++ s)) = .ok (w' ++ s, b!",") := tag_cons _ _
  simp only [comma, h2, h3, h4, Except.bind]

theorem comma_ok {s r : Bytes} (h : comma s = .ok (r, ())) :
    ∃ w w', s = w ++ (0x2C :: (w' ++ r)) ∧ IsBlank w ∧ IsBlank w' := by
  unfold comma at h
  obtain ⟨w, s2, e2, hw, -, h2⟩ := ows_ok s
  simp only [Except.bind, h2] at h
  cases h3 : tag b!"," s2 with
  | error e => rw [h3] at h; cases h
  | ok x3 =>
    obtain ⟨s3, m⟩ := x3
    obtain ⟨w', s4, e4, hw', -, h4⟩ := ows_ok s3
    rw [h3] at h
    simp only [h4] at h
    cases h
    exact ⟨w, w', by rw [e2, tag_ok h3, e4], hw, hw'⟩

theorem comma_error {s : Bytes} {e : NomErr} (h : comma s = .error e) : e = .error := by
  unfold comma at h
  obtain ⟨w, s2, e2, hw, -, h2⟩ := ows_ok s
  simp only [Except.bind, h2] at h
  cases h3 : tag b!"," s2 with
  | error e => rw [h3] at h; cases h; exact (tag_error h3).1
  | ok x3 =>
    obtain ⟨s3, m⟩ := x3
    obtain ⟨w', s4, e4, hw', -, h4⟩ := ows_ok s3
    rw [h3] at h
    simp only [h4] at h
    cases h

/-- The iterator of `hash(_, auth_param)` in a given state. -/
def params (emptyOk : Bool) (input : Bytes) (st : State) : Punctuated (Bytes × Cow) :=
  ⟨input, authParam emptyOk, comma, st⟩

/-- Draining after the first item. -/
theorem drain_mid (emptyOk : Bool) (fuel : Nat) (s : Bytes) (hfuel : s.length < fuel) :
    ∃ items text rest, (params emptyOk s .mid).drain fuel = .ok (items, params emptyOk rest .done) ∧
      s = text ++ rest ∧ IsParamTail emptyOk text (plainItems items) ∧
      ∀ w w' t k v after, IsAuthParam emptyOk t k v → IsBlank w → IsBlank w' →
        rest ≠ w ++ (0x2C :: w') ++ (t ++ after) := by
  induction fuel generalizing s with
  | zero => simp at hfuel
  | succ fuel ih =>
    cases hcomma : comma s with
    | error e =>
      have := comma_error hcomma
      subst this
      refine ⟨[], [], s, ?_, rfl, .nil, ?_⟩
      · simp only [Punctuated.drain, Punctuated.next, params, hcomma, Punctuated.failed]
      · rintro w w' t k v after ht hw hw' rfl
        have := comma_eq (s := t ++ after) hw hw' (authParam_complete ht after).2
        simp only [List.append_assoc, List.cons_append] at hcomma this
        rw [this] at hcomma
        cases hcomma
    | ok x =>
      obtain ⟨s1, _⟩ := x
      obtain ⟨w, w', e1, hw, hw'⟩ := comma_ok hcomma
      cases hp : authParam emptyOk s1 with
      | error e =>
        have := authParam_error hp
        subst this
        refine ⟨[], [], s, ?_, rfl, .nil, ?_⟩
        · simp only [Punctuated.drain, Punctuated.next, params, hcomma, hp, Punctuated.failed]
        · rintro w w' t k v after ht hw hw' rfl
          obtain ⟨⟨x, hx⟩, hst⟩ := authParam_complete ht after
          have := comma_eq (s := t ++ after) hw hw' hst
          simp only [List.append_assoc, List.cons_append] at hcomma this
          rw [this] at hcomma
          cases hcomma
          rw [hx] at hp
          cases hp
      | ok y =>
        obtain ⟨s2, k, v⟩ := y
        obtain ⟨t, e2, hne, ht⟩ := authParam_ok hp
        have hlen : s2.length < fuel := by
          rw [e1, e2] at hfuel
          simp at hfuel
          omega
        obtain ⟨items, text, rest, h1, h2, h3, h4⟩ := ih s2 hlen
        refine ⟨(k, v) :: items, w ++ (0x2C :: (w' ++ (t ++ text))), rest, ?_, ?_, .cons hw hw' ht h3, h4⟩
        · simp only [params] at h1
          simp only [Punctuated.drain, Punctuated.next, params, hcomma, hp, h1]
          rfl
        · rw [e1, e2, h2]; simp

/-- Draining from the beginning. -/
theorem drain_head (emptyOk : Bool) (fuel : Nat) (s : Bytes) (hfuel : s.length < fuel) :
    ∃ items text rest, (hash s (authParam emptyOk)).drain fuel = .ok (items, params emptyOk rest .done) ∧
      s = text ++ rest ∧ IsParamList emptyOk text (plainItems items) ∧
      ¬ Continues emptyOk (plainItems items) rest := by
  cases fuel with
  | zero => simp at hfuel
  | succ fuel =>
    cases hp : authParam emptyOk s with
    | error e =>
      have := authParam_error hp
      subst this
      refine ⟨[], [], s, ?_, rfl, .nil, ?_⟩
      · simp only [Punctuated.drain, Punctuated.next, hash, Punctuated.new, hp, Punctuated.failed, params]
      · rintro ⟨w, w', t, k, v, after, ht, -, -, e⟩
        simp only [plainItems, List.map_nil, if_true, List.nil_append] at e
        obtain ⟨⟨x, hx⟩, -⟩ := authParam_complete ht after
        rw [e, hx] at hp
        cases hp
    | ok y =>
      obtain ⟨s2, k, v⟩ := y
      obtain ⟨t, e2, hne, ht⟩ := authParam_ok hp
      have hlen : s2.length < fuel := by
        have : 0 < t.length := List.length_pos_iff.mpr hne
        rw [e2] at hfuel
        simp at hfuel
        omega
      obtain ⟨items, text, rest, h1, h2, h3, h4⟩ := drain_mid emptyOk fuel s2 hlen
      refine ⟨(k, v) :: items, t ++ text, rest, ?_, ?_, .cons ht h3, ?_⟩
      · simp only [params] at h1
        simp only [Punctuated.drain, Punctuated.next, hash, Punctuated.new, hp, h1, params]
        rfl
      · rw [e2, h2]; simp
      · rintro ⟨w, w', t, k, v, after, ht, hw, hw', e⟩
        exact h4 w w' t k v after ht hw hw' e

end OAuth.Server
