import Verif.Proofs.Cases
import Verif.Properties.Encoding
import Verif.Proofs.FormParse

/-
C01, C03, C04, C13, C40: plain forms and queries (`to_form`, `to_query`).
-/

namespace OAuth

open Spec

/-- All values format without error. -/
def AllOk (pairs : List Pair) : Prop := ∀ p ∈ pairs, p.2.outcome = .ok

theorem formItems_weave (ps : List Proto) (pairs : List Pair) :
    (weave ps pairs).filterMap Call.formItem? =
      pairs.map fun p => p.1 ++ b!"=" ++ encode p.2.text := by
  have hm : ∀ l : List Proto, (l.map Call.oauth).filterMap Call.formItem? = [] := by
    intro l; induction l with
    | nil => rfl
    | cons a l ih => simp [Call.formItem?]
  induction pairs generalizing ps with
  | nil => simp [weave, hm]
  | cons kv rest ih =>
    obtain ⟨k, v⟩ := kv
    simp [weave, List.filterMap_append, hm, Call.formItem?, ih]

theorem firstFailure_none {cs : List Call} (h : ∀ c ∈ cs, Call.ok c) : firstFailure cs = none := by
  rw [firstFailure, List.findSome?_eq_none_iff]
  intro c hc
  have := h c hc
  unfold Call.failure?
  cases hv : c.value? with
  | none => rfl
  | some v => simp [this v hv]

theorem weave_ok {ps : List Proto} {pairs : List Pair} (h : AllOk pairs) :
    ∀ c ∈ weave ps pairs, Call.ok c := by
  intro c hc v hv
  rcases weave_no_encoded ps pairs c hc with ⟨p, rfl⟩ | ⟨kv, hkv, rfl⟩
  · simp [Call.value?] at hv
  · simp only [Call.value?, Option.some.injEq] at hv; subst hv; exact h kv hkv

/-- C01: the form of any pairs (`AssertSorted`, hence also `ParameterList`) is the `&`-joined list of
`key=encoded value`, where the encoded value is a function of the displayed text only. -/
theorem C01_to_form (cfg : Cfg) (pairs : List Pair) (hok : AllOk pairs) (w : World) :
    (Free.toForm (AssertSorted.request cfg pairs)).run w =
      .ok (join b!"&" (pairs.map fun p => p.1 ++ b!"=" ++ encode p.2.text), w) := by
  rw [toForm_eq (isTrace_assertSorted cfg pairs), firstFailure_none (weave_ok hok),
    formItems_weave]
  rfl

/-- Values in several fragments, reserved and non-ASCII characters. -/
theorem Case.ok : AllOk Case.pairs := by unfold AllOk; decide

example (w : World) : (Free.toForm (AssertSorted.request Case.cfg Case.pairs)).run w =
    .ok (b!"a=1%20%C3%A9&p=%26%3D%2B&p=~%25", w) :=
  Case.eq_ok (C01_to_form Case.cfg Case.pairs Case.ok w) (by decide +kernel)

/-- C01 for any implementor of `Request`: each `serialize_parameter` call contributes exactly
`key=encode(text)`. -/
theorem C01_to_form_any_request {r : Request} {cs : List Call} (h : IsTrace r cs)
    (hok : ∀ c ∈ cs, Call.ok c) (w : World) :
    (Free.toForm r).run w = .ok (join b!"&" (cs.filterMap Call.formItem?), w) := by
  rw [toForm_eq h, firstFailure_none hok]
  rfl

example (w : World) : (Free.toForm Case.request).run w =
    .ok (b!"a=1%20%C3%A9&p=%26%3D%2B&p=~%25", w) :=
  Case.eq_ok (C01_to_form_any_request Case.trace (weave_ok Case.ok) w) (by decide +kernel)

/-- C01: fragmentation is invisible. -/
theorem C01_fragmentation (cfg : Cfg) (p q : List Pair) (hp : AllOk p) (hq : AllOk q)
    (h : p.map (fun x => (x.1, x.2.text)) = q.map (fun x => (x.1, x.2.text))) (w : World) :
    (Free.toForm (AssertSorted.request cfg p)).run w =
      (Free.toForm (AssertSorted.request cfg q)).run w := by
  rw [C01_to_form cfg p hp, C01_to_form cfg q hq]
  have key : ∀ l : List Pair, l.map (fun x => x.1 ++ b!"=" ++ encode x.2.text) =
      (l.map (fun x => (x.1, x.2.text))).map (fun y => y.1 ++ b!"=" ++ encode y.2) := by
    intro l; simp
  rw [key p, key q, h]

/-- The same pairs in other fragments. -/
example : ∃ q : List Pair, q ≠ Case.pairs ∧ AllOk q ∧
    Case.pairs.map (fun x => (x.1, x.2.text)) = q.map (fun x => (x.1, x.2.text)) :=
  ⟨Case.pairs.map fun x => (x.1, .ofBytes x.2.text), by decide, by unfold AllOk; decide, by decide⟩

/-- The default world of examples. -/
def World.example : World := { rng := fun _ => 0, clock := fun _ => 0 }

/-- Three pairs, one value in three fragments. -/
def examplePairs : List Pair :=
  [(b!"article_id", .ofBytes b!"123456789"), (b!"text", ⟨[b!"Hello, ", b!"", b!"wörld!"], .ok⟩),
   (b!"x", .ofBytes b!"")]

example : AllOk examplePairs := by simp [AllOk, examplePairs, Display.ofBytes]

example : ((Free.toForm (AssertSorted.request ⟨true, true, .std⟩ examplePairs)).run
    World.example).toOption.map (·.1) =
    some b!"article_id=123456789&text=Hello%2C%20w%C3%B6rld%21&x=" := by decide +kernel

/-- C03: decoding the form gives back the pairs. -/
theorem C03_form_round_trip (cfg : Cfg) (pairs : List Pair) (hok : AllOk pairs)
    (hkeys : ∀ p ∈ pairs, ∀ b ∈ p.1, unreserved b = true) (w : World) :
    ∃ s, (Free.toForm (AssertSorted.request cfg pairs)).run w = .ok (s, w) ∧
      parseForm s = some (pairs.map fun p => (p.1, p.2.text)) := by
  refine ⟨_, C01_to_form cfg pairs hok w, ?_⟩
  have := parseForm_formOf (pairs.map fun p => (p.1, p.2.text)) (by
    intro p hp
    obtain ⟨q, hq, rfl⟩ := List.mem_map.mp hp
    exact hkeys q hq)
  simpa [formOf, Function.comp_def] using this

/-- What is read back has the reserved characters, and both values of `p`. -/
example : ∃ s, (Free.toForm (AssertSorted.request Case.cfg Case.pairs)).run Case.world =
      .ok (s, Case.world) ∧
    parseForm s = some [(b!"a", b!"1 é"), (b!"p", b!"&=+"), (b!"p", b!"~%")] :=
  C03_form_round_trip Case.cfg Case.pairs Case.ok (by decide) Case.world

/-- C03, consequence: different pairs never give the same form. -/
theorem C03_form_injective (cfg : Cfg) (p q : List Pair) (hp : AllOk p) (hq : AllOk q)
    (hkp : ∀ x ∈ p, ∀ b ∈ x.1, unreserved b = true)
    (hkq : ∀ x ∈ q, ∀ b ∈ x.1, unreserved b = true) (w w' : World) (s : Bytes)
    (h1 : (Free.toForm (AssertSorted.request cfg p)).run w = .ok (s, w))
    (h2 : (Free.toForm (AssertSorted.request cfg q)).run w' = .ok (s, w')) :
    p.map (fun x => (x.1, x.2.text)) = q.map (fun x => (x.1, x.2.text)) := by
  obtain ⟨s1, e1, f1⟩ := C03_form_round_trip cfg p hp hkp w
  obtain ⟨s2, e2, f2⟩ := C03_form_round_trip cfg q hq hkq w'
  rw [h1] at e1; rw [h2] at e2
  simp only [Except.ok.injEq, Prod.mk.injEq, and_true] at e1 e2
  subst e1; subst e2
  rw [f1] at f2
  simpa using f2

example : AllOk Case.pairs ∧ (∀ x ∈ Case.pairs, ∀ b ∈ x.1, unreserved b = true) ∧
    ∃ s, (Free.toForm (AssertSorted.request Case.cfg Case.pairs)).run Case.world = .ok (s, Case.world) :=
  ⟨Case.ok, by decide, _, C01_to_form Case.cfg Case.pairs Case.ok Case.world⟩

/-- C03 for any request: `serialize_parameter` calls with URI-safe keys (no pre-encoded ones). -/
theorem C03_form_round_trip_any_request {r : Request} {cs : List Call} (h : IsTrace r cs)
    (hok : ∀ c ∈ cs, Call.ok c) (henc : ∀ k v, Call.parameterEncoded k v ∉ cs)
    (hkeys : ∀ p ∈ cs.filterMap Call.pair?, ∀ b ∈ p.1, unreserved b = true) (w : World) :
    ∃ s, (Free.toForm r).run w = .ok (s, w) ∧
      parseForm s = some ((cs.filterMap Call.pair?).map fun p => (p.1, p.2.text)) := by
  refine ⟨_, C01_to_form_any_request h hok w, ?_⟩
  have e : cs.filterMap Call.formItem? =
      ((cs.filterMap Call.pair?).map fun p => (p.1, p.2.text)).map
        (fun p => p.1 ++ b!"=" ++ encode p.2) := by
    clear h hok hkeys
    induction cs with
    | nil => rfl
    | cons c cs ih =>
      have ih := ih (fun k v hm => henc k v (by simp [hm]))
      cases c with
      | parameter k v => simp [Call.formItem?, Call.pair?, ih]
      | parameterEncoded k v => exact absurd (by simp) (henc k v)
      | oauth p => exact ih
  rw [e]
  apply parseForm_formOf
  intro p hp
  obtain ⟨q, hq, rfl⟩ := List.mem_map.mp hp
  exact hkeys q hq

example : IsTrace Case.request Case.calls ∧ (∀ c ∈ Case.calls, Call.ok c) ∧
    (∀ k v, Call.parameterEncoded k v ∉ Case.calls) ∧
    (∀ p ∈ Case.calls.filterMap Call.pair?, ∀ b ∈ p.1, unreserved b = true) := by
  refine ⟨Case.trace, weave_ok Case.ok, fun k v h => ?_, by decide⟩
  rcases weave_no_encoded _ _ _ h with ⟨p, h⟩ | ⟨kv, -, h⟩ <;> cases h

example : parseForm b!"article_id=123456789&text=Hello%2C%20w%C3%B6rld%21&x=" =
    some [(b!"article_id", b!"123456789"), (b!"text", b!"Hello, wörld!"), (b!"x", [])] := by
  decide +kernel

/-- The restriction on keys is needed: keys are written as they are (serializer/urlencode.rs l.81),
so a key containing `=` or `&` gives the form of different pairs. -/
theorem C03_keys_not_encoded :
    ∃ p q : List Pair, p.map (fun x => (x.1, x.2.text)) ≠ q.map (fun x => (x.1, x.2.text)) ∧
      AllOk p ∧ AllOk q ∧
      ∀ cfg w, (Free.toForm (AssertSorted.request cfg p)).run w =
        (Free.toForm (AssertSorted.request cfg q)).run w := by
  refine ⟨[(b!"a=1&b", .ofBytes b!"2")], [(b!"a", .ofBytes b!"1"), (b!"b", .ofBytes b!"2")],
    by decide, by simp [AllOk, Display.ofBytes], by simp [AllOk, Display.ofBytes], ?_⟩
  intro cfg w
  rw [C01_to_form _ _ (by simp [AllOk, Display.ofBytes]),
    C01_to_form _ _ (by simp [AllOk, Display.ofBytes])]
  rw [show (join b!"&" ([(b!"a=1&b", Display.ofBytes b!"2")].map fun p =>
    p.1 ++ b!"=" ++ encode p.2.text)) = (join b!"&" ([(b!"a", Display.ofBytes b!"1"),
      (b!"b", Display.ofBytes b!"2")].map fun p => p.1 ++ b!"=" ++ encode p.2.text)) from by
    decide +kernel]

/-- C13: `to_query` is the URI, and `?` and the form if there are pairs. -/
theorem C13_to_query (cfg : Cfg) (uri : Bytes) (pairs : List Pair) (hok : AllOk pairs) (w : World) :
    (Free.toQuery uri (AssertSorted.request cfg pairs)).run w =
      .ok (if pairs = [] then uri
        else uri ++ b!"?" ++ join b!"&" (pairs.map fun p => p.1 ++ b!"=" ++ encode p.2.text), w) := by
  rw [toQuery_eq (isTrace_assertSorted cfg pairs), firstFailure_none (weave_ok hok),
    formItems_weave]
  simp [queryOf, formOf, StateT.run, pure, StateT.pure, Except.pure]

example : (Free.toQuery Case.uri (AssertSorted.request Case.cfg Case.pairs)).run Case.world =
    .ok (b!"http://example.com/a?a=1%20%C3%A9&p=%26%3D%2B&p=~%25", Case.world) :=
  Case.eq_ok (C13_to_query Case.cfg Case.uri Case.pairs Case.ok Case.world) (by decide +kernel)

/-- C13 relating the two functions on any request that gives a form: the query is the URI alone iff
no parameter was serialized. -/
theorem C13_to_query_of_to_form {r : Request} {cs : List Call} (h : IsTrace r cs) (uri : Bytes)
    (w w' : World) (form : Bytes) (hf : (Free.toForm r).run w = .ok (form, w')) :
    (Free.toQuery uri r).run w = .ok (if form = [] then uri else uri ++ b!"?" ++ form, w') := by
  rw [toForm_eq h] at hf
  rw [toQuery_eq h]
  cases hff : firstFailure cs with
  | some p => rw [hff] at hf; exact absurd hf (by simp [panicM, StateT.run])
  | none =>
    rw [hff] at hf
    simp only [StateT.run, pure, StateT.pure, Except.pure, Except.ok.injEq, Prod.mk.injEq] at hf ⊢
    obtain ⟨rfl, rfl⟩ := hf
    refine ⟨?_, rfl⟩
    unfold queryOf
    cases hi : cs.filterMap Call.formItem? with
    | nil => simp [formOf, join]
    | cons i is =>
      have : formOf (i :: is) ≠ [] := by
        have hne : i ≠ [] := by
          have : i ∈ cs.filterMap Call.formItem? := by simp [hi]
          obtain ⟨c, _, hc⟩ := List.mem_filterMap.mp this
          cases c with
          | parameter k v =>
            simp only [Call.formItem?, Option.some.injEq] at hc; subst hc; simp
          | parameterEncoded k v =>
            simp only [Call.formItem?, Option.some.injEq] at hc; subst hc; simp
          | oauth p => simp [Call.formItem?] at hc
        simp [formOf, join_cons, hne]
      simp [this]

/-- C01 for `to_query` of any implementor of `Request`: what follows `uri?` is `key=encode(text)` for each
`serialize_parameter` call. -/
theorem C01_to_query {r : Request} {cs : List Call} (h : IsTrace r cs) (hok : ∀ c ∈ cs, Call.ok c)
    (uri : Bytes) (w : World) :
    (Free.toQuery uri r).run w = .ok (if cs.filterMap Call.formItem? = [] then uri
      else uri ++ b!"?" ++ join b!"&" (cs.filterMap Call.formItem?), w) := by
  rw [toQuery_eq h, firstFailure_none hok]
  simp [queryOf, formOf, StateT.run, pure, StateT.pure, Except.pure]

example : (Free.toQuery Case.uri Case.request).run Case.world =
    .ok (b!"http://example.com/a?a=1%20%C3%A9&p=%26%3D%2B&p=~%25", Case.world) :=
  Case.eq_ok (C01_to_query Case.trace (weave_ok Case.ok) Case.uri Case.world) (by decide +kernel)

example : IsTrace Case.request Case.calls ∧
    ∃ form, form ≠ [] ∧ (Free.toForm Case.request).run Case.world = .ok (form, Case.world) :=
  ⟨Case.trace, b!"a=1%20%C3%A9&p=%26%3D%2B&p=~%25", by decide,
    Case.eq_ok (C01_to_form_any_request Case.trace (weave_ok Case.ok) Case.world) (by decide +kernel)⟩

example : ((Free.toQuery b!"https://example.com/?" (AssertSorted.request ⟨true, true, .std⟩
    examplePairs)).run World.example).toOption.map (·.1) =
    some b!"https://example.com/??article_id=123456789&text=Hello%2C%20w%C3%B6rld%21&x=" := by
  decide +kernel
example : ((Free.toQuery b!"https://example.com/" Request.unit).run
    World.example).toOption.map (·.1) = some b!"https://example.com/" := by
  decide +kernel

/-- C40: forms and queries depend on the request's parameter calls only (also in how they fail);
protocol-parameter calls are invisible wherever and however often they occur, and neither the random
source nor the clock is read. -/
theorem C40_protocol_calls_ignored {r r' : Request} {cs cs' : List Call} (h : IsTrace r cs)
    (h' : IsTrace r' cs')
    (heq : cs.filter (fun c => c.proto?.isNone) = cs'.filter (fun c => c.proto?.isNone))
    (uri : Bytes) (w w' : World) :
    ((Free.toForm r).run w).map (·.1) = ((Free.toForm r').run w').map (·.1) ∧
    ((Free.toQuery uri r).run w).map (·.1) = ((Free.toQuery uri r').run w').map (·.1) ∧
    (∀ s v, (Free.toForm r).run w = .ok (s, v) → v = w) ∧
    (∀ s v, (Free.toQuery uri r).run w = .ok (s, v) → v = w) := by
  have hf : ∀ cs : List Call, firstFailure cs =
      firstFailure (cs.filter (fun c => c.proto?.isNone)) := by
    intro cs; induction cs with
    | nil => rfl
    | cons c cs ih =>
      unfold firstFailure at ih ⊢
      cases c with
      | parameter k v =>
        rw [List.filter_cons_of_pos rfl, List.findSome?_cons, List.findSome?_cons, ih]
      | parameterEncoded k v =>
        rw [List.filter_cons_of_pos rfl, List.findSome?_cons, List.findSome?_cons, ih]
      | oauth p =>
        rw [List.filter_cons_of_neg (by simp [Call.proto?]), List.findSome?_cons]
        exact ih
  have hi : ∀ cs : List Call, cs.filterMap Call.formItem? =
      (cs.filter (fun c => c.proto?.isNone)).filterMap Call.formItem? := by
    intro cs; induction cs with
    | nil => rfl
    | cons c cs ih => cases c with
      | parameter k v =>
        rw [List.filter_cons_of_pos rfl, List.filterMap_cons, List.filterMap_cons, ih]
      | parameterEncoded k v =>
        rw [List.filter_cons_of_pos rfl, List.filterMap_cons, List.filterMap_cons, ih]
      | oauth p =>
        rw [List.filter_cons_of_neg (by simp [Call.proto?]), List.filterMap_cons]
        exact ih
  rw [toForm_eq h, toForm_eq h', toQuery_eq h, toQuery_eq h', hf cs, hf cs', hi cs, hi cs', heq]
  cases firstFailure (cs'.filter (fun c => c.proto?.isNone)) with
  | some p =>
    refine ⟨rfl, rfl, fun s v h => ?_, fun s v h => ?_⟩ <;>
    · simp [panicM, StateT.run] at h
  | none =>
    refine ⟨rfl, rfl, fun s v h => ?_, fun s v h => ?_⟩ <;>
    · simp only [StateT.run, pure, StateT.pure, Except.pure, Except.ok.injEq, Prod.mk.injEq] at h
      exact h.2.symm

/-- Two requests making protocol calls in different places and numbers. -/
example : let cs : List Call := [.oauth .nonce, .parameter b!"k" (.ofBytes b!"v"), .oauth .nonce]
    let cs' : List Call := [.parameter b!"k" (.ofBytes b!"v"), .oauth .version]
    cs.filter (fun c => c.proto?.isNone) = cs'.filter (fun c => c.proto?.isNone) := by decide

end OAuth
