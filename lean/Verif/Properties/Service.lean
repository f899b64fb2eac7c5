import Verif.Properties.Exact
import Verif.Spec.Service

/-
C44 for the whole server: what each resource asks for, and what happens without a clock.
-/

namespace OAuth

open Spec Server

theorem service_serves {L : Lib} {cfg : Cfg} {now : Option Nat} {req : HttpRequest}
    {token : Option (Credentials Bytes)} {verifier : Option Bytes}
    (h : Serves req.method req.path token verifier) :
    ∃ f, Server.service L cfg now req = Server.verifyAndThen L cfg now req knownClient token verifier f ∧
      (req.path ≠ b!"/request_temp_credentials" → ∀ ps o, (f ps o).status = 200) ∧
      (req.path = b!"/request_temp_credentials" → ∀ ps o, (f ps o).status =
        if o.callback = some b!"oob" then 200 else 400) := by
  obtain ⟨method, path, q, a, ct, body⟩ := req
  simp only at h ⊢
  cases h with
  | echo hm =>
    refine ⟨fun params _ => ⟨200, serializePairs params⟩, ?_, fun _ _ _ => rfl, fun h => absurd h (by decide)⟩
    unfold Server.service
    rw [if_pos ⟨hm, rfl⟩]
    rfl
  | temporary =>
    refine ⟨fun _ params => match params.callback with
      | some callback =>
        if callback = b!"oob" then
          ⟨200, serializePairs (credentialPairs REQUEST ++ [(b!"oauth_callback_confirmed", b!"true")])⟩
        else .ofStatus 400
      | none => .ofStatus 400, ?_, fun h => absurd rfl h, fun _ ps o => ?_⟩
    · unfold Server.service
      rw [if_neg (by simp), if_pos ⟨rfl, rfl⟩]
      rfl
    · simp only
      cases o.callback with
      | none => rfl
      | some c =>
        by_cases hc : c = b!"oob"
        · subst hc; rfl
        · simp only [if_neg hc, Option.some.injEq]; rfl
  | token =>
    refine ⟨fun _ _ => ⟨200, serializePairs (credentialPairs TOKEN)⟩, ?_, fun _ _ _ => rfl,
      fun h => absurd h (by decide)⟩
    unfold Server.service
    rw [if_neg (by simp), if_neg (by simp), if_pos ⟨rfl, rfl⟩]
    rfl

/-- C44, for the whole server: a request that is not for one of the three resources is answered 404. -/
theorem C44_not_found (L : Lib) (cfg : Cfg) (now : Option Nat) (req : HttpRequest)
    (h : ∀ token verifier, ¬ Serves req.method req.path token verifier) :
    Server.service L cfg now req = .ok (.ofStatus 404) := by
  unfold Server.service
  rw [if_neg, if_neg, if_neg]
  · rintro ⟨h1, h2⟩; exact h _ _ (by rw [h1, h2]; exact .token)
  · rintro ⟨h1, h2⟩; exact h _ _ (by rw [h1, h2]; exact .temporary)
  · rintro ⟨h1, h2⟩; exact h _ _ (by rw [h2]; exact .echo h1)

/-- C44, for the whole server: an answer other than 400, 401 and 404 is only given to a request for one of the
resources that is `Accepted` with the token and verifier that this resource asks for. -/
theorem C44_service {L : Lib} {cfg : Cfg} {now : Nat} {req : HttpRequest} {resp : Response}
    (h : Server.service L cfg (some now) req = .ok resp) (h400 : resp.status ≠ 400)
    (h401 : resp.status ≠ 401) (h404 : resp.status ≠ 404) :
    ∃ ps token verifier, Received L req ps ∧ Serves req.method req.path token verifier ∧
      Accepted L cfg now req ps knownClient token verifier := by
  by_cases hs : ∃ token verifier, Serves req.method req.path token verifier
  case neg =>
    rw [C44_not_found L cfg (some now) req fun t v ht => hs ⟨t, v, ht⟩] at h
    cases h
    exact absurd rfl h404
  obtain ⟨token, verifier, hs⟩ := hs
  obtain ⟨f, hf, -⟩ := service_serves (L := L) (cfg := cfg) (now := some now) hs
  rw [hf] at h
  obtain ⟨ps, hrec, -⟩ := C44_accepts_only_signed_partial h h400 h401
  refine ⟨ps, token, verifier, hrec, hs, ?_⟩
  rcases verify_exact hrec cfg now knownClient token verifier with
    ⟨-, -, h2⟩ | ⟨-, h1, -⟩ | ⟨-, -, c, hc, h2⟩
  · rw [h2] at h; cases h
  · exact h1
  · rw [h2] at h
    cases h
    rcases hc with rfl | rfl
    · exact absurd rfl h400
    · exact absurd rfl h401

/-- C44, for the whole server: these requests are answered 200, except those for temporary credentials whose
callback is not `oob`. -/
theorem C44_service_answers {L : Lib} {cfg : Cfg} {now : Nat} {req : HttpRequest} {ps : List Parameter}
    {token : Option (Credentials Bytes)} {verifier : Option Bytes} (hrec : Received L req ps)
    (hs : Serves req.method req.path token verifier)
    (ha : Accepted L cfg now req ps knownClient token verifier) :
    ∃ resp, Server.service L cfg (some now) req = .ok resp ∧
      (req.path ≠ b!"/request_temp_credentials" → resp.status = 200) ∧
      (req.path = b!"/request_temp_credentials" →
        (resp.status = 200 → (b!"oauth_callback", b!"oob") ∈ ps) ∧
        ((∃ v, (b!"oauth_callback", v) ∈ ps) → (∀ v, (b!"oauth_callback", v) ∈ ps → v = b!"oob") →
          resp.status = 200) ∧ (resp.status = 200 ∨ resp.status = 400)) := by
  obtain ⟨f, hf, h1, h2⟩ := service_serves (L := L) (cfg := cfg) (now := some now) hs
  obtain ⟨o, ho⟩ := (C44_accepted_iff hrec cfg now knownClient token verifier).mpr ha
  refine ⟨_, hf.trans (ho f), fun h => h1 h _ _, fun h => ?_⟩
  rw [h2 h]
  -- the callback of `o`
  obtain ⟨cb, hcb, hcb', hv⟩ := Server.verifyAndThen_of_received hrec
  have hoc : o.callback = cb := by
    have e1 := ho fun _ o => ⟨200, (o.callback.getD []) ++ (if o.callback.isSome then [1] else [])⟩
    have e2 := hv cfg (some now) knownClient token verifier
      fun _ o => ⟨200, (o.callback.getD []) ++ (if o.callback.isSome then [1] else [])⟩
    rw [e1] at e2
    cases hr : Server.readParams cb fun k => first k (sortPairs ps) with
    | error c =>
      rw [hr] at e2
      have := (ho fun _ _ => ⟨c + 1, []⟩).symm.trans (hv cfg (some now) knownClient token verifier _)
      rw [hr] at this
      simp [Response.ofStatus] at this
    | ok o' =>
      have hcb0 : o'.callback = cb := by
        unfold Server.readParams at hr
        repeat' split at hr
        all_goals cases hr
        all_goals rfl
      rw [hr] at e2
      simp only at e2
      cases hi : Server.inner L cfg (some now) req (sortPairs ps) o' knownClient token verifier with
      | error e => rw [hi] at e2; cases e2
      | ok r =>
        rw [hi] at e2
        cases r with
        | error c =>
          have := (ho fun _ _ => ⟨c + 1, []⟩).symm.trans (hv cfg (some now) knownClient token verifier _)
          rw [hr] at this
          simp only [hi] at this
          simp [Response.ofStatus] at this
        | ok u =>
          simp only [Except.ok.injEq, Response.mk.injEq, true_and] at e2
          rw [← hcb0]
          cases h3 : o.callback with
          | none =>
            cases h4 : o'.callback with
            | none => rfl
            | some b => rw [h3, h4] at e2; simp at e2
          | some a =>
            cases h4 : o'.callback with
            | none => rw [h3, h4] at e2; simp at e2
            | some b => rw [h3, h4] at e2; simpa using e2
  rw [hoc]
  refine ⟨fun h => ?_, fun ⟨v, hm⟩ hall => ?_, ?_⟩
  · split at h
    · next hc => exact hcb _ hc
    · cases h
  · cases hc : cb with
    | none =>
      have := (first_iff _ _ _).mp (hcb' hc)
      exact absurd rfl (this _ hm)
    | some w =>
      rw [hall w (hcb w hc)]
      rfl
  · split <;> simp

/-- C44: with a clock before the epoch, no handler runs: the server panics, or refuses the request before it
looks at the clock. -/
theorem C44_no_clock (L : Lib) (cfg : Cfg) (req : HttpRequest) (client : Credentials Bytes)
    (token : Option (Credentials Bytes)) (verifier : Option Bytes) :
    (∃ c, (c = 400 ∨ c = 401) ∧
      ∀ f, Server.verifyAndThen L cfg none req client token verifier f = .ok (.ofStatus c)) ∨
    ∃ e, ∀ f, Server.verifyAndThen L cfg none req client token verifier f = .error e := by
  by_cases hrec : ∃ ps, Received L req ps
  · obtain ⟨ps, hrec⟩ := hrec
    obtain ⟨cb, -, -, hv⟩ := Server.verifyAndThen_of_received hrec
    have hv := hv cfg none client token verifier
    cases hr : Server.readParams cb fun k => first k (sortPairs ps) with
    | error c =>
      rw [hr] at hv
      exact .inl ⟨c, Server.readParams_error hr, hv⟩
    | ok o =>
      rw [hr] at hv
      exact .inr ⟨_, hv⟩
  · have hn := fun f => Server.verifyAndThen_of_not_received (fun ps h => hrec ⟨ps, h⟩) cfg none client
      token verifier f
    by_cases hb : req.contentType = some formType ∧ req.body = none
    · refine .inr ⟨.server, fun f => ?_⟩
      unfold Server.verifyAndThen Server.readForm
      rw [if_pos hb.1, hb.2]
      rfl
    · refine .inl ⟨400, .inl rfl, fun f => ?_⟩
      rcases hn f with h | h
      · exact h
      · exact absurd h hb

/-- A request for the echo resource and one that is for none. -/
example : Serves forged.method forged.path (some ⟨b!"token", b!"token_secret"⟩) none ∧
    ∀ token verifier, ¬ Serves b!"DELETE" b!"/echo" token verifier := by
  refine ⟨.echo (by decide), fun token verifier h => ?_⟩
  cases h with
  | echo h => revert h; decide

/-- The theorems for them. -/
example := C44_not_found (Server.exampleLib true) ⟨true, true, .std⟩ none
  { forged with method := b!"DELETE", path := b!"/echo" } fun token verifier h => by
    cases h with
    | echo h => revert h; decide
example {ps : List Parameter} (h1 : Received (Server.exampleLib true) forged ps)
    (h2 : Accepted (Server.exampleLib true) ⟨true, true, .std⟩ 0 forged ps knownClient
      (some ⟨b!"token", b!"token_secret"⟩) none) :=
  C44_service_answers h1 (.echo (by decide)) h2
example : ∃ ps token verifier, Received (Server.exampleLib true) forged ps ∧
    Serves forged.method forged.path token verifier ∧
    Accepted (Server.exampleLib true) ⟨true, true, .std⟩ 0 forged ps knownClient token verifier := by
  have h : (Server.service (Server.exampleLib true) ⟨true, true, .std⟩ (some 0) forged).toOption.map
    (·.status) = some 200 := by decide +kernel
  cases hr : Server.service (Server.exampleLib true) ⟨true, true, .std⟩ (some 0) forged with
  | error e => rw [hr] at h; cases h
  | ok r =>
    rw [hr] at h
    replace h : r.status = 200 := by simpa [Except.toOption] using h
    exact C44_service hr (by rw [h]; decide) (by rw [h]; decide) (by rw [h]; decide)

/-- The clock is looked at: the forged request makes the server panic, one without parameters is refused. -/
example : (Server.service (Server.exampleLib true) ⟨false, true, .std⟩ none forged).toOption = none ∧
    (Server.service (Server.exampleLib true) ⟨false, true, .std⟩ none
      { forged with authorization := [] }).toOption.map (·.status) = some 401 := by
  decide +kernel

end OAuth
