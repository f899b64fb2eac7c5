import Verif.Properties.Sendable
import Verif.Spec.UriParts

/-
C87: the URI that `to_query` returns has the request as its query.
-/

namespace OAuth

open Spec

/-- C87, the claim: for a URI without a query (the documentation warns of those that have one), `to_query`
returns the URI with the request as its query, and otherwise the same. -/
def C87_claim : Prop :=
  ∀ (r : Request) (cs : List Call), IsTrace r cs → (∀ c ∈ cs, Call.ok c) →
    (∀ k v, Call.parameterEncoded k v ∉ cs) →
    (∀ p ∈ cs.filterMap Call.pair?, ∀ b ∈ p.1, unreserved b = true) →
  ∀ (uri base : Bytes) (fragment : Option Bytes), UriParts uri base none fragment → ∀ w : World,
    ∃ out query, (Free.toQuery uri r).run w = .ok (out, w) ∧ UriParts out base query fragment ∧
      parseForm (query.getD []) = some ((cs.filterMap Call.pair?).map fun p => (p.1, p.2.text))

theorem append_sep_inj {c : UInt8} {a a' b b' : Bytes} (ha : ∀ x ∈ a, x ≠ c) (ha' : ∀ x ∈ a', x ≠ c)
    (h : a ++ c :: b = a' ++ c :: b') : a = a' ∧ b = b' := by
  induction a generalizing a' with
  | nil =>
    cases a' with
    | nil => cases h; exact ⟨rfl, rfl⟩
    | cons x a' => cases h; exact absurd rfl (ha' _ (by simp))
  | cons x a ih =>
    cases a' with
    | nil => cases h; exact absurd rfl (ha _ (by simp))
    | cons y a' =>
      simp only [List.cons_append, List.cons.injEq] at h
      obtain ⟨h1, h2⟩ := ih (fun z hz => ha z (by simp [hz])) (fun z hz => ha' z (by simp [hz])) h.2
      exact ⟨by rw [h.1, h1], h2⟩

theorem cut_inj {c : UInt8} {a a' : Bytes} {b b' : Option Bytes} (ha : ∀ x ∈ a, x ≠ c)
    (ha' : ∀ x ∈ a', x ≠ c)
    (h : a ++ (b.map (c :: ·)).getD [] = a' ++ (b'.map (c :: ·)).getD []) : a = a' ∧ b = b' := by
  cases b with
  | none =>
    cases b' with
    | none => simpa using h
    | some b' =>
      simp only [Option.map_none, Option.getD_none, List.append_nil, Option.map_some, Option.getD_some] at h
      exact absurd rfl (ha c (by rw [h]; simp))
  | some b =>
    cases b' with
    | none =>
      simp only [Option.map_none, Option.getD_none, List.append_nil, Option.map_some, Option.getD_some] at h
      exact absurd rfl (ha' c (by rw [← h]; simp))
    | some b' =>
      obtain ⟨h1, h2⟩ := append_sep_inj ha ha' (by simpa using h)
      exact ⟨h1, by rw [h2]⟩

/-- A URI has only one query and fragment. -/
theorem _root_.OAuth.Spec.UriParts.unique {uri base base' : Bytes} {q q' f f' : Option Bytes} (h : UriParts uri base q f)
    (h' : UriParts uri base' q' f') : base = base' ∧ q = q' ∧ f = f' := by
  have key : ∀ {base : Bytes} {q f : Option Bytes}, UriParts uri base q f →
      ∀ x ∈ base ++ (q.map ((0x3F : UInt8) :: ·)).getD [], x ≠ (0x23 : UInt8) := by
    intro base q f h x hx
    rcases List.mem_append.mp hx with hx | hx
    · exact (h.base x hx).2
    · cases q with
      | none => cases hx
      | some q =>
        rcases List.mem_cons.mp (by simpa using hx) with rfl | hx
        · decide
        · exact h.query q rfl x hx
  have e : (base ++ (q.map ((0x3F : UInt8) :: ·)).getD []) ++ (f.map ((0x23 : UInt8) :: ·)).getD [] =
      (base' ++ (q'.map ((0x3F : UInt8) :: ·)).getD []) ++ (f'.map ((0x23 : UInt8) :: ·)).getD [] := by
    have := h.text.symm.trans h'.text
    simpa [List.append_assoc] using this
  obtain ⟨e1, e2⟩ := cut_inj (key h) (key h') e
  obtain ⟨e3, e4⟩ := cut_inj (fun x hx => (h.base x hx).1) (fun x hx => (h'.base x hx).1) e1
  exact ⟨e3, e4, e2⟩

theorem _root_.OAuth.Spec.IsQuery.noHash {s : Bytes} (h : IsQuery s) : ∀ b ∈ s, b ≠ 0x23 := by
  have h1 : ∀ c : UInt8, queryChar c = true → c ≠ 0x23 := by apply forall_byte; decide +kernel
  have h2 : ∀ c : UInt8, uriHex c = true → c ≠ 0x23 := by apply forall_byte; decide +kernel
  induction h with
  | nil => simp
  | char hc _ ih => simpa using ⟨h1 _ hc, by simpa using ih⟩
  | escape ha hb _ ih => simpa using ⟨h2 _ ha, h2 _ hb, by simpa using ih⟩

/-- What appending `?` and a query to a URI gives, in all three cases. -/
theorem uriParts_append {uri base : Bytes} {q f : Option Bytes} (h : UriParts uri base q f) {form : Bytes}
    (hform : ∀ b ∈ form, b ≠ 0x23) :
    UriParts (uri ++ b!"?" ++ form) base (queryAfter q f form) (f.map fun f => f ++ b!"?" ++ form) := by
  obtain ⟨h1, h2, h3⟩ := h
  cases f with
  | none =>
    cases q with
    | none => exact ⟨by simp [h1, queryAfter], h2, by rintro q ⟨⟩; exact hform⟩
    | some q =>
      refine ⟨by simp [h1, queryAfter, List.append_assoc], h2, ?_⟩
      rintro _ ⟨⟩ b hb
      simp only [List.mem_append] at hb
      rcases hb with (hb | hb) | hb
      · exact h3 q rfl b hb
      · rw [List.mem_singleton.mp hb]; decide
      · exact hform b hb
  | some f => exact ⟨by cases q <;> simp [h1, queryAfter, List.append_assoc], h2, by cases q <;> simpa [queryAfter] using h3⟩

/-- What `to_query` does to a URI, whether it has a query and a fragment or not: nothing without
parameters; otherwise the request becomes the query, or is put after the query behind another `?`, or
ends up in the fragment if there is one. -/
theorem C87_parts {r : Request} {cs : List Call} (hr : IsTrace r cs) (hok : ∀ c ∈ cs, Call.ok c)
    (henc : ∀ k v, Call.parameterEncoded k v ∉ cs)
    (hkeys : ∀ p ∈ cs.filterMap Call.pair?, ∀ b ∈ p.1, unreserved b = true)
    {uri base : Bytes} {query fragment : Option Bytes} (hu : UriParts uri base query fragment)
    (w : World) :
    (cs.filterMap Call.pair? = [] ∧ (Free.toQuery uri r).run w = .ok (uri, w)) ∨
    (cs.filterMap Call.pair? ≠ [] ∧ ∃ out form, (Free.toQuery uri r).run w = .ok (out, w) ∧
      parseForm form = some ((cs.filterMap Call.pair?).map fun p => (p.1, p.2.text)) ∧
      UriParts out base (queryAfter query fragment form)
        (fragment.map fun f => f ++ b!"?" ++ form)) := by
  have hq : ∀ c : UInt8, unreserved c = true → queryChar c = true := by apply forall_byte; decide +kernel
  obtain ⟨form, h1, h2, -⟩ := C80_plain hr hok henc
    (fun p hp => isQuery_of_chars fun b hb => hq b (hkeys p hp b hb)) uri w
  obtain ⟨form', h3, h4⟩ := C03_form_round_trip_any_request hr hok henc hkeys w
  obtain rfl : form = form' := by rw [h2] at h3; cases h3; rfl
  have h5 := C13_to_query_of_to_form hr uri w w form h2
  have h6 : form = [] ↔ cs.filterMap Call.pair? = [] := by
    constructor
    · rintro rfl
      have : parseForm [] = some [] := rfl
      rw [this] at h4
      simpa using h4.symm
    · intro hn
      have h7 := C01_to_form_any_request hr hok w
      rw [h2] at h7
      cases h7
      have : cs.filterMap Call.formItem? = [] := by
        rw [List.filterMap_eq_nil_iff] at hn ⊢
        intro c hc
        cases c with
        | parameter k v => cases hn _ hc
        | parameterEncoded k v => exact absurd hc (henc k v)
        | oauth p => rfl
      rw [this]; rfl
  by_cases hn : cs.filterMap Call.pair? = []
  · rw [if_pos (h6.mpr hn)] at h5
    exact .inl ⟨hn, h5⟩
  · rw [if_neg (fun h => hn (h6.mp h))] at h5
    exact .inr ⟨hn, _, form, h5, h4, uriParts_append hu h1.noHash⟩

/-- C87, exactly: for a URI without a query, the request is its query in the URI returned, and the rest is
as before, if and only if the URI has no fragment or the request no parameters. -/
theorem C87_iff {r : Request} {cs : List Call} (hr : IsTrace r cs) (hok : ∀ c ∈ cs, Call.ok c)
    (henc : ∀ k v, Call.parameterEncoded k v ∉ cs)
    (hkeys : ∀ p ∈ cs.filterMap Call.pair?, ∀ b ∈ p.1, unreserved b = true)
    {uri base : Bytes} {fragment : Option Bytes} (hu : UriParts uri base none fragment) (w : World) :
    (∃ out query, (Free.toQuery uri r).run w = .ok (out, w) ∧ UriParts out base query fragment ∧
      parseForm (query.getD []) = some ((cs.filterMap Call.pair?).map fun p => (p.1, p.2.text))) ↔
    fragment = none ∨ cs.filterMap Call.pair? = [] := by
  rcases C87_parts hr hok henc hkeys hu w with ⟨hn, h1⟩ | ⟨hn, out, form, h1, h2, h3⟩
  · simp only [hn, or_true, iff_true]
    exact ⟨uri, none, h1, hu, rfl⟩
  · simp only [hn, or_false]
    constructor
    · rintro ⟨out', query, h4, h5, -⟩
      rw [h1] at h4
      cases h4
      obtain ⟨-, -, h6⟩ := h3.unique h5
      cases fragment with
      | none => rfl
      | some f =>
        simp only [Option.map_some, Option.some.injEq] at h6
        have := congrArg List.length h6
        simp at this
    · rintro rfl
      exact ⟨out, _, h1, h3, h2⟩

/-- C87 for URIs without a fragment. -/
theorem C87_partial {r : Request} {cs : List Call} (hr : IsTrace r cs) (hok : ∀ c ∈ cs, Call.ok c)
    (henc : ∀ k v, Call.parameterEncoded k v ∉ cs)
    (hkeys : ∀ p ∈ cs.filterMap Call.pair?, ∀ b ∈ p.1, unreserved b = true)
    {uri : Bytes} (hu : UriParts uri uri none none) (w : World) :
    ∃ out query, (Free.toQuery uri r).run w = .ok (out, w) ∧ UriParts out uri query none ∧
      parseForm (query.getD []) = some ((cs.filterMap Call.pair?).map fun p => (p.1, p.2.text)) :=
  (C87_iff hr hok henc hkeys hu w).mpr (.inl rfl)

/-- C87, the other case: nothing of the request is in the query, which is the part of a URI that is sent;
all of it is at the end of the fragment, which is not. -/
theorem C87_lost {r : Request} {cs : List Call} (hr : IsTrace r cs) (hok : ∀ c ∈ cs, Call.ok c)
    (henc : ∀ k v, Call.parameterEncoded k v ∉ cs)
    (hkeys : ∀ p ∈ cs.filterMap Call.pair?, ∀ b ∈ p.1, unreserved b = true)
    {uri base f : Bytes} {query : Option Bytes} (hu : UriParts uri base query (some f)) (w : World) :
    ∃ out f', (Free.toQuery uri r).run w = .ok (out, w) ∧ UriParts out base query (some f') := by
  rcases C87_parts hr hok henc hkeys hu w with ⟨-, h1⟩ | ⟨-, out, form, h1, -, h3⟩
  · exact ⟨uri, f, h1, hu⟩
  · exact ⟨out, _, h1, by cases query <;> exact h3⟩

variable {S : Type}

/-- C87 for `Builder::to_query`: the protocol parameters and the signature are the query if the URI has
neither query nor fragment, and do not get into the query if it has a fragment. -/
theorem C87_signed (cfg : Cfg) {b : Builder S} {name : Bytes} (hs : Sends b.signatureMethod name)
    {r : Request} {cs : List Call} (hr : IsTrace r cs) (method : Bytes) {w w' : World} {out : Bytes}
    {uri base : Bytes} {fragment : Option Bytes} (hu : UriParts uri base none fragment)
    (h : b.toQuery cfg stringWriter .ofBytes method uri r w = .ok (out, w')) :
    (fragment = none → ∃ query, UriParts out base (some query) none) ∧
    (∀ f, fragment = some f → ∃ f', UriParts out base none (some f')) := by
  obtain ⟨query, rfl, hq⟩ := (C80_sendable cfg hs hr method w w' out).2.2 uri h
  have := uriParts_append hu hq.noHash
  constructor
  · rintro rfl; exact ⟨_, this⟩
  · rintro f rfl; exact ⟨_, this⟩

namespace QueryUriExample

theorem plain : UriParts b!"https://a.b/c" b!"https://a.b/c" none none :=
  ⟨rfl, by decide, by simp⟩

theorem withFragment : UriParts b!"https://a.b/c#d" b!"https://a.b/c" none (some b!"d") :=
  ⟨rfl, by decide, by simp⟩

theorem keys : ∀ p ∈ (weave allProto Case.pairs).filterMap Call.pair?, ∀ b ∈ p.1,
    unreserved b = true := by decide +kernel

theorem noEncoded : ∀ k v, Call.parameterEncoded k v ∉ weave allProto Case.pairs := by
  intro k v h
  have : ∀ c ∈ weave allProto Case.pairs, c.formItem? = c.pair?.map fun p =>
    p.1 ++ b!"=" ++ encode p.2.text := by decide +kernel
  have := this _ h
  cases this

/-- The query of a URI without a fragment. -/
example (w : World) := C87_partial Case.trace (weave_ok Case.ok) noEncoded keys plain w

/-- With a fragment, and with a query and a fragment. -/
example (w : World) := C87_parts Case.trace (weave_ok Case.ok) noEncoded keys withFragment w
example (w : World) := C87_lost Case.trace (weave_ok Case.ok) noEncoded keys
  (show UriParts b!"https://a.b/c?x#d" b!"https://a.b/c" (some b!"x") (some b!"d") from
    ⟨rfl, by decide, by simp⟩) w

/-- The text in both cases. -/
example (w : World) : (Free.toQuery b!"https://a.b/c" Case.request).run w =
      .ok (b!"https://a.b/c?a=1%20%C3%A9&p=%26%3D%2B&p=~%25", w) ∧
    (Free.toQuery b!"https://a.b/c#d" Case.request).run w =
      .ok (b!"https://a.b/c#d?a=1%20%C3%A9&p=%26%3D%2B&p=~%25", w) := by
  have hf : (Free.toForm Case.request).run w = .ok (b!"a=1%20%C3%A9&p=%26%3D%2B&p=~%25", w) :=
    Case.eq_ok (C01_to_form_any_request Case.trace (weave_ok Case.ok) w) (by decide +kernel)
  exact ⟨C13_to_query_of_to_form Case.trace _ w w _ hf, C13_to_query_of_to_form Case.trace _ w w _ hf⟩

end QueryUriExample

open QueryUriExample in
/-- C87 is false: with a fragment, the request is not in the query. -/
theorem C87_violated : ¬ C87_claim := by
  intro h
  have := (C87_iff Case.trace (weave_ok Case.ok) noEncoded keys withFragment Case.world).mp
    (h _ _ Case.trace (weave_ok Case.ok) noEncoded keys _ _ _ withFragment Case.world)
  rcases this with h | h
  · cases h
  · exact absurd h (by decide +kernel)

end OAuth
