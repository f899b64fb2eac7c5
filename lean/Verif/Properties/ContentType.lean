import Verif.Properties.Exact
import Verif.Properties.ServerRfc
import Verif.Spec.MediaType

/-
C84: which bodies the example server takes for a form.
-/

namespace OAuth

open Spec
open Server (Lib HttpRequest Response OAuthParams Parameter Received)

/-- The body is a form (RFC 5849, 3.4.1.3.1). -/
def SaysForm (req : HttpRequest) : Prop := ∃ v, req.contentType = some v ∧ IsFormType v

/-- The form in a request: its body, if it says so. -/
inductive FormIs (req : HttpRequest) : Bytes → Prop
  | body {form : Bytes} : SaysForm req → req.body = some form → FormIs req form
  | other : ¬ SaysForm req → FormIs req []

/-- The handler is run, with these parameters. -/
def RunsWith (L : Lib) (cfg : Cfg) (now : Nat) (req : HttpRequest) (e : Expectation)
    (qs : List Parameter) : Prop :=
  ∃ o, ∀ f, e.answer L cfg (some now) req f = .ok (f qs o)

/-- C84, the claim: the parameters with which a handler is run are those of the header, the form and the
query. -/
def C84_claim : Prop :=
  ∀ (L : Lib) (cfg : Cfg) (now : Nat) (req : HttpRequest) (e : Expectation) (qs : List Parameter)
    (header : List Parameter) (form : Bytes),
    RunsWith L cfg now req e qs → HeaderParams L.emptyOk Server.dec req.authorization header →
    FormIs req form →
    qs.Perm (header ++ (Server.pairsOf form ++ Server.pairsOf (req.query.getD [])))

theorem runsWith_received {L : Lib} {cfg : Cfg} {now : Nat} {req : HttpRequest} {e : Expectation}
    {qs : List Parameter} (h : RunsWith L cfg now req e qs) :
    ∃ ps, Received L req ps ∧ qs = sortPairs ps := by
  obtain ⟨o, h⟩ := h
  by_cases hrec : ∃ ps, Received L req ps
  · obtain ⟨ps, hrec⟩ := hrec
    refine ⟨ps, hrec, ?_⟩
    unfold Expectation.answer at h
    rcases verify_exact hrec cfg now e.client e.token e.verifier with
      ⟨-, -, h2⟩ | ⟨-, -, o', h2⟩ | ⟨-, -, c, -, h2⟩
    · have := h fun _ _ => ⟨0, []⟩
      rw [h2] at this
      cases this
    · have := h fun ps' _ => if ps' = qs then ⟨1, []⟩ else ⟨0, []⟩
      rw [h2, if_pos rfl] at this
      by_cases he : sortPairs ps = qs
      · exact he.symm
      · rw [if_neg he] at this
        simp at this
    · have := h fun _ _ => ⟨c + 1, []⟩
      rw [h2] at this
      simp [Response.ofStatus] at this
  · unfold Expectation.answer at h
    have := h fun _ _ => ⟨0, []⟩
    rcases Server.verifyAndThen_of_not_received (fun ps h => hrec ⟨ps, h⟩) cfg (some now) e.client
      e.token e.verifier fun _ _ => ⟨0, []⟩ with h2 | ⟨h2, h3⟩
    · rw [h2] at this
      simp [Response.ofStatus] at this
    · unfold Server.verifyAndThen Server.readForm at this
      rw [if_pos h2, h3] at this
      cases this

theorem plain_isFormType : IsFormType b!"application/x-www-form-urlencoded" :=
  ⟨_, [], (List.append_nil _).symm, by decide, .nil⟩

/-- C84, exactly: there are no other parameters if and only if the content type is written in the one
way the server knows, is not that of a form, or the form has no parameters anyway. -/
theorem C84_iff {L : Lib} {cfg : Cfg} {now : Nat} {req : HttpRequest} {e : Expectation}
    {qs header : List Parameter} {form : Bytes} (h : RunsWith L cfg now req e qs)
    (hh : HeaderParams L.emptyOk Server.dec req.authorization header) (hf : FormIs req form) :
    qs.Perm (header ++ (Server.pairsOf form ++ Server.pairsOf (req.query.getD []))) ↔
      req.contentType = some b!"application/x-www-form-urlencoded" ∨ ¬ SaysForm req ∨
        Server.pairsOf form = [] := by
  obtain ⟨ps, hrec, rfl⟩ := runsWith_received h
  have hperm := (sortPairs_spec ps).1
  obtain ⟨form', header', h1, h2, rfl⟩ := hrec
  have hu : header' = header := by
    have e1 := (Server.collectAuthParams_iff L _ _).mpr h2
    rw [(Server.collectAuthParams_iff L _ _).mpr hh] at e1
    cases e1
    rfl
  subst hu
  have e0 : Server.pairsOf [] = [] := rfl
  by_cases hc : req.contentType = some b!"application/x-www-form-urlencoded"
  · unfold Server.formOf at h1
    rw [if_pos hc] at h1
    have : form = form' := by
      cases hf with
      | body _ hb => rw [hb] at h1; exact Option.some.inj h1
      | other hn => exact absurd ⟨_, hc, plain_isFormType⟩ hn
    subst this
    exact ⟨fun _ => .inl hc, fun _ => hperm⟩
  · unfold Server.formOf at h1
    rw [if_neg hc] at h1
    cases h1
    cases hf with
    | other hn => exact ⟨fun _ => .inr (.inl hn), fun _ => hperm⟩
    | body hs hb =>
      constructor
      · intro hp
        have := hperm.symm.trans hp
        have hl := this.length_eq
        simp only [List.length_append, e0, List.length_nil] at hl
        exact .inr (.inr (List.length_eq_zero_iff.mp (by omega)))
      · rintro (h3 | h3 | h3)
        · exact absurd h3 hc
        · exact absurd hs h3
        · rw [h3, ← e0]
          exact hperm

/-- C84, where it holds. Missing are forms whose content type has parameters or capital letters. -/
theorem C84_partial {L : Lib} {cfg : Cfg} {now : Nat} {req : HttpRequest} {e : Expectation}
    {qs header : List Parameter} {form : Bytes} (h : RunsWith L cfg now req e qs)
    (hh : HeaderParams L.emptyOk Server.dec req.authorization header) (hf : FormIs req form)
    (hc : SaysForm req → req.contentType = some b!"application/x-www-form-urlencoded") :
    qs.Perm (header ++ (Server.pairsOf form ++ Server.pairsOf (req.query.getD []))) := by
  refine (C84_iff h hh hf).mpr ?_
  by_cases hs : SaysForm req
  · exact .inl (hc hs)
  · exact .inr (.inl hs)

/-- As most browsers write it. -/
def withCharset : Bytes := b!"application/x-www-form-urlencoded; charset=UTF-8"

theorem withCharset_isFormType : IsFormType withCharset := by
  refine ⟨b!"application/x-www-form-urlencoded", b!"; charset=UTF-8", rfl, by decide, ?_⟩
  exact .cons (w := []) (w' := b!" ") (name := b!"charset") (value := b!"UTF-8") (v := b!"UTF-8")
    (rest := []) (fun _ h => (by cases h)) (fun b h => .inl (by simpa using h))
    ⟨by decide, by decide⟩ (.inl ⟨⟨by decide, by decide⟩, rfl⟩) .nil

example : IsFormType b!"Application/X-WWW-Form-URLEncoded" :=
  ⟨_, [], (List.append_nil _).symm, by decide, .nil⟩

/-- Another type that starts with the same letters. -/
example : ¬ IsFormType b!"application/x-www-form-urlencoded-2" := by
  rintro ⟨t, ps, h1, h2, h3⟩
  have hl : t.length = 33 := by
    have := congrArg List.length h2
    simp only [lower, List.length_map] at this
    exact this
  have hp : b!"-2" = ps := by
    have h : (t ++ ps).drop 33 = ps := by rw [← hl]; exact List.drop_left
    rw [← h1] at h
    exact h
  generalize hq : b!"-2" = q at hp
  subst hp
  cases h3 with
  | nil => cases hq
  | @cons w w' name value v rest hw =>
    cases w with
    | nil => cases hq
    | cons x w =>
      have := hw x (.head _)
      simp only [List.cons_append, List.cons.injEq] at hq
      rw [← hq.1] at this
      exact absurd this (by decide)

/-- The signed request, with a form added. -/
def formAdded : HttpRequest :=
  { signedOnce with contentType := some withCharset, body := some b!"status=hello" }

theorem formAdded_received : Received (Server.exampleLib true) formAdded signedOnceParams := by
  obtain ⟨form, header, h1, h2, h3⟩ := signedOnce_received
  refine ⟨[], header, rfl, h2, ?_⟩
  cases h1
  exact h3

theorem runs_of_200 {req : HttpRequest} {ps : List Parameter} {e : Expectation}
    (hrec : Received (Server.exampleLib true) req ps)
    (h : (e.answer (Server.exampleLib true) ⟨true, true, .std⟩ (some 1700000000) req
      fun _ _ => ⟨200, []⟩).toOption.map (·.status) = some 200) :
    RunsWith (Server.exampleLib true) ⟨true, true, .std⟩ 1700000000 req e (sortPairs ps) := by
  unfold Expectation.answer at h
  rcases verify_exact hrec ⟨true, true, .std⟩ 1700000000 e.client e.token e.verifier with
    ⟨-, -, h2⟩ | ⟨-, -, h2⟩ | ⟨-, -, c, hc, h2⟩
  · rw [h2] at h
    cases h
  · exact h2
  · rw [h2] at h
    have : c = 200 := Option.some.inj h
    omega

theorem formAdded_runs : RunsWith (Server.exampleLib true) ⟨true, true, .std⟩ 1700000000 formAdded
    ⟨Server.CLIENT, some Server.TOKEN, none⟩ (sortPairs signedOnceParams) :=
  runs_of_200 formAdded_received (by decide +kernel)

/-- C84 is false: a form that was not signed is passed over if its content type has a `charset`. -/
theorem C84_violated : ¬ C84_claim := by
  intro h
  obtain ⟨form, header, h1, h2, h3⟩ := signedOnce_received
  have hs : SaysForm formAdded := ⟨_, rfl, withCharset_isFormType⟩
  have := (C84_iff formAdded_runs h2 (.body hs rfl)).mp
    (h _ _ _ _ _ _ header b!"status=hello" formAdded_runs h2 (.body hs rfl))
  rcases this with h | h | h
  · exact absurd h (by decide)
  · exact h hs
  · exact absurd h (by decide +kernel)

/-- A form that was signed. -/
def signedForm (contentType : Bytes) : HttpRequest where
  method := b!"POST"
  path := b!"/echo"
  query := none
  authorization := [b!"OAuth oauth_consumer_key=\"client\",oauth_nonce=\"n\",oauth_signature_method=\"HMAC-SHA1\",oauth_timestamp=\"1700000000\",oauth_token=\"token\",oauth_signature=\"Y7alp9WBzdldkuvh%2BAzLnFX4lTU%3D\""]
  contentType := some contentType
  body := some b!"status=hello"

/-- C84 is false: a signed form is answered if its content type is written in one way, and refused if it
is written in another. -/
theorem C84_violated_refused :
    IsFormType withCharset ∧
    (Server.service (Server.exampleLib true) ⟨true, true, .std⟩ (some 1700000000)
      (signedForm b!"application/x-www-form-urlencoded")).toOption.map (·.status) = some 200 ∧
    (Server.service (Server.exampleLib true) ⟨true, true, .std⟩ (some 1700000000)
      (signedForm withCharset)).toOption.map (·.status) = some 401 :=
  ⟨withCharset_isFormType, by decide +kernel, by decide +kernel⟩

/-- What is in its header. -/
def signedFormHeader : List Parameter :=
  [(b!"oauth_consumer_key", b!"client"), (b!"oauth_nonce", b!"n"),
   (b!"oauth_signature_method", b!"HMAC-SHA1"), (b!"oauth_timestamp", b!"1700000000"),
   (b!"oauth_token", b!"token"), (b!"oauth_signature", b!"Y7alp9WBzdldkuvh+AzLnFX4lTU=")]

/-- `C84_partial` for it, if its content type is written in the first way. -/
example : ∃ qs, RunsWith (Server.exampleLib true) ⟨true, true, .std⟩ 1700000000
      (signedForm b!"application/x-www-form-urlencoded") ⟨Server.CLIENT, some Server.TOKEN, none⟩ qs ∧
    qs.Perm (signedFormHeader ++ [(b!"status", b!"hello")]) := by
  have hrec : Received (Server.exampleLib true) (signedForm b!"application/x-www-form-urlencoded")
      (signedFormHeader ++ [(b!"status", b!"hello")]) :=
    received_of (form := b!"status=hello") (by decide) (header := signedFormHeader) (by decide +kernel)
      (by decide +kernel)
  have hr := runs_of_200 (e := ⟨Server.CLIENT, some Server.TOKEN, none⟩) hrec (by decide +kernel)
  refine ⟨_, hr, ?_⟩
  obtain ⟨form, header, h1, h2, h3⟩ := hrec
  have e1 : Server.pairsOf form ++ Server.pairsOf
      ((signedForm b!"application/x-www-form-urlencoded").query.getD []) =
        [(b!"status", b!"hello")] := by
    cases h1
    decide +kernel
  have hh : header = signedFormHeader := by
    rw [e1] at h3
    exact (List.append_cancel_right h3).symm
  have := C84_partial hr h2 (.body ⟨_, rfl, plain_isFormType⟩ h1) fun _ => rfl
  rw [e1, hh] at this
  exact this

end OAuth
