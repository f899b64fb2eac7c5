import Verif.Spec.Uri
import Verif.Proofs.Bytes
import Verif.Proofs.PercentEncoding

/-
The text of a URI determines its components.
-/

namespace OAuth

open Spec Uri

theorem span_inj {p : UInt8 → Bool} {a a' r r' : Bytes} (ha : ∀ b ∈ a, p b = true)
    (ha' : ∀ b ∈ a', p b = true) (hr : ∀ b, r.head? = some b → p b = false)
    (hr' : ∀ b, r'.head? = some b → p b = false) (h : a ++ r = a' ++ r') : a = a' ∧ r = r' := by
  induction a generalizing a' with
  | nil =>
    cases a' with
    | nil => exact ⟨rfl, h⟩
    | cons b a' =>
      simp only [List.nil_append, List.cons_append] at h
      have h1 := hr b (by rw [h]; rfl)
      rw [ha' b (by simp)] at h1
      cases h1
  | cons b a ih =>
    cases a' with
    | nil =>
      simp only [List.nil_append, List.cons_append] at h
      have h1 := hr' b (by rw [← h]; rfl)
      rw [ha b (by simp)] at h1
      cases h1
    | cons b' a' =>
      simp only [List.cons_append, List.cons.injEq] at h
      obtain ⟨rfl, h⟩ := h
      obtain ⟨h1, h2⟩ := ih (fun x hx => ha x (by simp [hx])) (fun x hx => ha' x (by simp [hx])) h
      exact ⟨by rw [h1], h2⟩

theorem lower_length (s : Bytes) : (lower s).length = s.length := by simp [lower]

theorem lower_idem (s : Bytes) : lower (lower s) = lower s := by
  unfold lower
  rw [List.map_map]
  apply List.map_congr_left
  have : ∀ b : UInt8, ((fun b => if 0x41 ≤ b && b ≤ 0x5A then b + 0x20 else b) ∘
      fun b => if 0x41 ≤ b && b ≤ 0x5A then b + 0x20 else b) b =
      if 0x41 ≤ b && b ≤ 0x5A then b + 0x20 else b := by
    apply forall_byte
    decide +kernel
  exact fun b _ => this b

/-- What a byte becomes in lower case, for properties that do not tell letters apart. -/
theorem mem_lower {p : UInt8 → Bool} (hp : ∀ b, p b = true → p (if 0x41 ≤ b && b ≤ 0x5A then b + 0x20 else b) = true)
    {s : Bytes} (h : ∀ b ∈ s, p b = true) : ∀ b ∈ lower s, p b = true := by
  intro b hb
  obtain ⟨x, hx, rfl⟩ := List.mem_map.mp hb
  exact hp x (h x hx)

theorem lower_append (a b : Bytes) : lower (a ++ b) = lower a ++ lower b := by simp [lower]

theorem scheme_chars {s : Bytes} (h : lower s = b!"http" ∨ lower s = b!"https") :
    ∀ b ∈ s, (b != 0x3A) = true := by
  intro b hb
  have hm : (if 0x41 ≤ b && b ≤ 0x5A then b + 0x20 else b) ∈ lower s :=
    List.mem_map.mpr ⟨b, hb, rfl⟩
  have hx : ∀ x ∈ lower s, x ∈ b!"https" := by
    rcases h with h | h <;> rw [h] <;> decide
  have h2 := hx _ hm
  revert h2
  revert b
  have : ∀ b : UInt8, (if 0x41 ≤ b && b ≤ 0x5A then b + 0x20 else b) ∈ b!"https" → (b != 0x3A) = true := by
    apply forall_byte
    decide +kernel
  intro b _ _ h2
  exact this b h2

theorem hostOk_lower {h : Bytes} (hh : HostOk h) : HostOk (lower h) := by
  rcases hh with ⟨h1, h2⟩ | ⟨a, rfl, h2⟩
  · refine .inl ⟨fun e => h1 ?_, ?_⟩
    · have := lower_length h
      rw [e] at this
      exact List.eq_nil_of_length_eq_zero this.symm
    · have := mem_lower (p := fun b => inAuthority b && b != 0x40 && b != 0x3A && b != 0x5B)
        (by apply forall_byte; decide +kernel) (s := h)
        (fun b hb => by simpa [and_assoc] using h2 b hb)
      intro b hb
      simpa [and_assoc] using this b hb
  · refine .inr ⟨lower a, by rw [lower_append, lower_append]; rfl, ?_⟩
    have := mem_lower (p := fun b => inAuthority b && b != 0x40 && b != 0x5D)
      (by apply forall_byte; decide +kernel) (s := a)
      (fun b hb => by simpa [and_assoc] using h2 b hb)
    intro b hb
    simpa [and_assoc] using this b hb

theorem hostPort_inj {h h' : Bytes} {p p' : Option Bytes} (hh : HostOk h) (hh' : HostOk h')
    (e : h ++ (p.map (b!":" ++ ·)).getD [] = h' ++ (p'.map (b!":" ++ ·)).getD []) :
    h = h' ∧ p = p' := by
  have hport : ∀ q : Option Bytes, ∀ b, ((q.map (b!":" ++ ·)).getD [] : Bytes).head? = some b →
      b = 0x3A := by
    intro q b hb
    cases q with
    | none => cases hb
    | some q => cases hb; rfl
  have hpp : (p.map (b!":" ++ ·)).getD [] = ((p'.map (b!":" ++ ·)).getD [] : Bytes) → p = p' := by
    intro e
    cases p <;> cases p' <;> simp at e ⊢
    exact e
  rcases hh with ⟨h1, h2⟩ | ⟨a, rfl, h2⟩ <;> rcases hh' with ⟨h1', h2'⟩ | ⟨a', rfl, h2'⟩
  · obtain ⟨e1, e2⟩ := span_inj (p := fun b => b != 0x3A) (fun b hb => by simpa using (h2 b hb).2.2.1)
      (fun b hb => by simpa using (h2' b hb).2.2.1) (fun b hb => by rw [hport _ b hb]; rfl)
      (fun b hb => by rw [hport _ b hb]; rfl) e
    exact ⟨e1, hpp e2⟩
  · exfalso
    cases h with
    | nil => exact h1 rfl
    | cons b h =>
      simp only [List.cons_append, List.append_assoc, List.cons.injEq] at e
      exact (h2 b (by simp)).2.2.2 e.1
  · exfalso
    cases h' with
    | nil => exact h1' rfl
    | cons b h' =>
      simp only [List.cons_append, List.append_assoc, List.cons.injEq] at e
      exact (h2' b (by simp)).2.2.2 e.1.symm
  · simp only [List.append_assoc, List.cons_append, List.nil_append, List.cons.injEq, true_and] at e
    obtain ⟨e1, e2⟩ := span_inj (p := fun b => b != 0x5D) (fun b hb => by simpa using (h2 b hb).2.2)
      (fun b hb => by simpa using (h2' b hb).2.2) (fun b hb => by cases hb; rfl)
      (fun b hb => by cases hb; rfl) e
    simp only [List.cons.injEq, true_and] at e2
    exact ⟨by rw [e1], hpp e2⟩

theorem hostOk_chars {h : Bytes} (hh : HostOk h) :
    ∀ b ∈ h, inAuthority b = true ∧ b ≠ 0x40 := by
  rcases hh with ⟨-, h2⟩ | ⟨a, rfl, h2⟩
  · exact fun b hb => ⟨(h2 b hb).1, (h2 b hb).2.1⟩
  · intro b hb
    simp only [List.mem_append, List.mem_singleton] at hb
    rcases hb with (rfl | hb) | rfl
    · decide
    · exact ⟨(h2 b hb).1, (h2 b hb).2.1⟩
    · decide

theorem uri_text_injective {u v : Uri} (hu : u.Valid) (hv : v.Valid) (h : u.text = v.text) : u = v := by
  have portChars : ∀ w : Uri, w.Valid → ∀ b ∈ ((w.port.map (b!":" ++ ·)).getD [] : Bytes),
      inAuthority b = true ∧ b ≠ 0x40 := by
    intro w hw b hb
    cases hp : w.port with
    | none => rw [hp] at hb; cases hb
    | some p =>
      rw [hp] at hb
      simp only [Option.map_some, Option.getD_some, List.cons_append, List.nil_append,
        List.mem_cons] at hb
      rcases hb with rfl | hb
      · decide
      · have := hw.port p hp b hb
        revert this
        revert b
        have : ∀ b : UInt8, 0x30 ≤ b ∧ b ≤ 0x39 → inAuthority b = true ∧ b ≠ 0x40 := by
          apply forall_byte; decide +kernel
        intro b _ h
        exact this b h
  have hostPortChars : ∀ w : Uri, w.Valid → ∀ b ∈ w.host ++ (w.port.map (b!":" ++ ·)).getD [],
      inAuthority b = true ∧ b ≠ 0x40 := by
    intro w hw b hb
    rcases List.mem_append.mp hb with hb | hb
    · exact hostOk_chars hw.host b hb
    · exact portChars w hw b hb
  have authChars : ∀ w : Uri, w.Valid → ∀ b ∈ (w.userinfo.map (· ++ b!"@")).getD [] ++
      (w.host ++ (w.port.map (b!":" ++ ·)).getD []), inAuthority b = true := by
    intro w hw b hb
    rcases List.mem_append.mp hb with hb | hb
    · cases hui : w.userinfo with
      | none => rw [hui] at hb; cases hb
      | some x =>
        rw [hui] at hb
        simp only [Option.map_some, Option.getD_some, List.mem_append, List.mem_singleton] at hb
        rcases hb with hb | rfl
        · exact (hw.userinfo x hui b hb).1
        · decide
    · exact (hostPortChars w hw b hb).1
  have tailHead : ∀ w : Uri, ∀ b, ((w.query.map (b!"?" ++ ·)).getD [] ++
      (w.fragment.map (b!"#" ++ ·)).getD [] : Bytes).head? = some b → b = 0x3F ∨ b = 0x23 := by
    intro w b hb
    cases hq : w.query with
    | some q => rw [hq] at hb; cases hb; exact .inl rfl
    | none =>
      rw [hq] at hb
      cases hf : w.fragment with
      | some f => rw [hf] at hb; cases hb; exact .inr rfl
      | none => rw [hf] at hb; cases hb
  have pathHead : ∀ w : Uri, w.Valid → ∀ b, (w.path ++ ((w.query.map (b!"?" ++ ·)).getD [] ++
      (w.fragment.map (b!"#" ++ ·)).getD []) : Bytes).head? = some b → inAuthority b = false := by
    intro w hw b hb
    cases hp : w.path with
    | nil =>
      rw [hp] at hb
      rcases tailHead w b hb with rfl | rfl <;> decide
    | cons c p =>
      rw [hp] at hb
      cases hb
      rcases hw.path with h | h
      · rw [hp] at h; cases h
      · rw [hp] at h; cases h; decide
  unfold Uri.text at h
  obtain ⟨e1, h⟩ := span_inj (p := fun b => b != 0x3A) (scheme_chars hu.scheme) (scheme_chars hv.scheme)
    (fun b hb => by cases hb; rfl) (fun b hb => by cases hb; rfl) h
  have h := List.append_cancel_left h
  obtain ⟨e2, h⟩ := span_inj (p := inAuthority) (authChars u hu) (authChars v hv) (pathHead u hu)
    (pathHead v hv) h
  obtain ⟨e3, h⟩ := span_inj (p := fun b => b != 0x3F && b != 0x23)
    (fun b hb => by simpa using hu.pathChars b hb) (fun b hb => by simpa using hv.pathChars b hb)
    (fun b hb => by rcases tailHead u b hb with rfl | rfl <;> decide)
    (fun b hb => by rcases tailHead v b hb with rfl | rfl <;> decide) h
  have fragHead : ∀ w : Uri, ∀ b, ((w.fragment.map (b!"#" ++ ·)).getD [] : Bytes).head? = some b →
      b = 0x23 := by
    intro w b hb
    cases hf : w.fragment with
    | some f => rw [hf] at hb; cases hb; rfl
    | none => rw [hf] at hb; cases hb
  have queryChars : ∀ w : Uri, w.Valid → ∀ b ∈ ((w.query.map (b!"?" ++ ·)).getD [] : Bytes),
      (b != 0x23) = true := by
    intro w hw b hb
    cases hq : w.query with
    | none => rw [hq] at hb; cases hb
    | some q =>
      rw [hq] at hb
      simp only [Option.map_some, Option.getD_some, List.cons_append, List.nil_append,
        List.mem_cons] at hb
      rcases hb with rfl | hb
      · decide
      · simpa using hw.query q hq b hb
  obtain ⟨e4, e5⟩ := span_inj (p := fun b => b != 0x23) (queryChars u hu) (queryChars v hv)
    (fun b hb => by rw [fragHead u b hb]; rfl) (fun b hb => by rw [fragHead v b hb]; rfl) h
  have opt : ∀ (c : UInt8) (x y : Option Bytes),
      (x.map ([c] ++ ·)).getD [] = ((y.map ([c] ++ ·)).getD [] : Bytes) → x = y := by
    intro c x y e
    cases x <;> cases y <;> simp at e ⊢
    exact e
  have e4 := opt _ _ _ e4
  have e5 := opt _ _ _ e5
  have noAt : ∀ w : Uri, w.Valid → (0x40 : UInt8) ∉ w.host ++ (w.port.map (b!":" ++ ·)).getD [] :=
    fun w hw hm => (hostPortChars w hw _ hm).2 rfl
  have e6 : u.userinfo = v.userinfo ∧ u.host ++ (u.port.map (b!":" ++ ·)).getD [] =
      v.host ++ (v.port.map (b!":" ++ ·)).getD [] := by
    cases hui : u.userinfo with
    | none =>
      cases hvi : v.userinfo with
      | none => rw [hui, hvi] at e2; exact ⟨rfl, e2⟩
      | some y =>
        exfalso
        rw [hui, hvi] at e2
        refine noAt u hu ?_
        rw [show u.host ++ (u.port.map (b!":" ++ ·)).getD [] = _ from e2]
        simp
    | some x =>
      cases hvi : v.userinfo with
      | none =>
        exfalso
        rw [hui, hvi] at e2
        refine noAt v hv ?_
        rw [show v.host ++ (v.port.map (b!":" ++ ·)).getD [] = _ from e2.symm]
        simp
      | some y =>
        rw [hui, hvi] at e2
        simp only [Option.map_some, Option.getD_some, List.append_assoc] at e2
        obtain ⟨f1, f2⟩ := span_inj (p := fun b => b != 0x40)
          (fun b hb => by simpa using (hu.userinfo x hui b hb).2)
          (fun b hb => by simpa using (hv.userinfo y hvi b hb).2)
          (fun b hb => by cases hb; rfl) (fun b hb => by cases hb; rfl) e2
        exact ⟨by rw [f1], List.append_cancel_left f2⟩
  obtain ⟨e6, e7⟩ := e6
  obtain ⟨e7, e8⟩ := hostPort_inj hu.host hv.host e7
  cases u
  cases v
  simp only at e1 e3 e4 e5 e6 e7 e8
  simp [e1, e3, e4, e5, e6, e7, e8]

/-- The URI in normal form. -/
def Spec.Uri.normal (u : Uri) : Uri where
  scheme := lower u.scheme
  host := lower u.host
  port := match u.port with
    | none => none
    | some p => if p = [] ∨ readDecimal p = some u.defaultPort then none else some p
  path := if u.path = [] then b!"/" else u.path

theorem normal_text (u : Uri) : u.normal.text = u.baseUri := by
  unfold Uri.text Uri.normal Uri.baseUri
  cases u.port with
  | none => simp
  | some p =>
    simp only []
    split <;> simp

theorem normal_valid {u : Uri} (hu : u.Valid) : u.normal.Valid where
  scheme := by
    have := hu.scheme
    simpa [Uri.normal, lower_idem] using this
  userinfo := by intro x hx; cases hx
  host := hostOk_lower hu.host
  port := by
    intro p hp
    simp only [Uri.normal] at hp
    split at hp
    · cases hp
    · next q hq =>
      split at hp
      · cases hp
      · cases hp; exact hu.port p hq
  path := by
    simp only [Uri.normal]
    split
    · exact .inr rfl
    · exact hu.path
  pathChars := by
    simp only [Uri.normal]
    split
    · decide
    · exact hu.pathChars
  query := by intro x hx; cases hx

/-- The base string URI is the URI itself exactly if that is in normal form. -/
theorem baseUri_iff {u : Uri} (hu : u.Valid) : u.text = u.baseUri ↔ u.Normal := by
  rw [← normal_text]
  constructor
  · intro h
    have e := uri_text_injective hu (normal_valid hu) h
    refine ⟨(congrArg Uri.scheme e).symm, congrArg Uri.userinfo e, (congrArg Uri.host e).symm, ?_, ?_,
      congrArg Uri.query e, congrArg Uri.fragment e⟩
    · intro p hp
      have h1 := congrArg Uri.port e
      simp only [Uri.normal, hp] at h1
      split at h1
      · cases h1
      · next h2 => exact not_or.mp h2
    · intro hp
      have h1 := congrArg Uri.path e
      simp only [Uri.normal, hp] at h1
      cases h1
  · intro h
    have hport : (match u.port with
        | none => none
        | some p => if p = [] ∨ readDecimal p = some u.defaultPort then none else some p) = u.port := by
      cases hp : u.port with
      | none => rfl
      | some p =>
        simp only []
        rw [if_neg (not_or.mpr (h.port p hp))]
    unfold Uri.normal Uri.text
    simp only [h.scheme, h.host, h.userinfo, h.query, h.fragment, hport, if_neg h.path]

end OAuth
