import Verif.Properties.Response
import Verif.Properties.Service
import Verif.Spec.Reply

/-
C102: what is in the answers of the example server.
-/

namespace OAuth

open Spec
open Server (Lib HttpRequest Response OAuthParams Parameter Received)

/-- What the resources give, in the text of the URL Standard. -/
theorem replies : Server.serializePairs (Server.credentialPairs Server.REQUEST ++
      [(b!"oauth_callback_confirmed", b!"true")]) =
      b!"oauth_token=request&oauth_token_secret=request_secret&oauth_callback_confirmed=true" ∧
    Server.serializePairs (Server.credentialPairs Server.TOKEN) =
      b!"oauth_token=token&oauth_token_secret=token_secret" := by
  decide +kernel

/-- The function that a resource runs on requests that pass. -/
theorem service_reply {L : Lib} {cfg : Cfg} {now : Option Nat} {req : HttpRequest}
    {token : Option (Credentials Bytes)} {verifier : Option Bytes}
    (h : Serves req.method req.path token verifier) :
    ∃ f : List Parameter → OAuthParams → Response,
      Server.service L cfg now req = Server.verifyAndThen L cfg now req knownClient token verifier f ∧
      ∀ ps sorted o, sorted.Perm ps → Ascending sorted →
        (∀ v, o.callback = some v → (b!"oauth_callback", v) ∈ ps) →
        ((f sorted o).status = 200 ∧ Reply ps req.method req.path (f sorted o).body) ∨
        f sorted o = ⟨400, []⟩ := by
  obtain ⟨method, path, q, a, ct, body⟩ := req
  simp only at h ⊢
  cases h with
  | echo hm =>
    refine ⟨fun params _ => ⟨200, Server.serializePairs params⟩, ?_, fun ps sorted o h1 h2 _ => ?_⟩
    · unfold Server.service
      rw [if_pos ⟨hm, rfl⟩]
      rfl
    · exact .inl ⟨rfl, by simpa only [C65_text] using .echo hm h1 h2⟩
  | temporary =>
    refine ⟨fun _ params => match params.callback with
      | some callback =>
        if callback = b!"oob" then
          ⟨200, Server.serializePairs (Server.credentialPairs Server.REQUEST ++
            [(b!"oauth_callback_confirmed", b!"true")])⟩
        else .ofStatus 400
      | none => .ofStatus 400, ?_, fun ps sorted o h1 h2 h3 => ?_⟩
    · unfold Server.service
      rw [if_neg (by simp), if_pos ⟨rfl, rfl⟩]
      rfl
    · simp only
      cases hc : o.callback with
      | none => exact .inr rfl
      | some c =>
        by_cases ho : c = b!"oob"
        · subst ho
          refine .inl ⟨rfl, ?_⟩
          simp only [if_true]
          rw [replies.1]
          exact .temporary (h3 _ hc)
        · simp only [if_neg ho]
          exact .inr rfl
  | token =>
    refine ⟨fun _ _ => ⟨200, Server.serializePairs (Server.credentialPairs Server.TOKEN)⟩, ?_,
      fun ps sorted o _ _ _ => .inl ⟨rfl, ?_⟩⟩
    · unfold Server.service
      rw [if_neg (by simp), if_neg (by simp), if_pos ⟨rfl, rfl⟩]
      rfl
    · simp only
      rw [replies.2]
      exact .token

/-- C102: an answer is either 200, with what the resource gives for the parameters received, or one of 400, 401
and 404, with nothing in it. -/
theorem C102_answers {L : Lib} {cfg : Cfg} {now : Nat} {req : HttpRequest} {resp : Response}
    (h : Server.service L cfg (some now) req = .ok resp) :
    (resp.status = 200 ∧ ∃ ps, Received L req ps ∧ Reply ps req.method req.path resp.body) ∨
    (resp.status = 400 ∨ resp.status = 401 ∨ resp.status = 404) ∧ resp.body = [] := by
  by_cases hs : ∃ token verifier, Serves req.method req.path token verifier
  case neg =>
    rw [C44_not_found L cfg (some now) req fun t v ht => hs ⟨t, v, ht⟩] at h
    cases h
    exact .inr ⟨.inr (.inr rfl), rfl⟩
  obtain ⟨token, verifier, hs⟩ := hs
  obtain ⟨f, hf, hr⟩ := service_reply (L := L) (cfg := cfg) (now := some now) hs
  rw [hf] at h
  by_cases hrec : ∃ ps, Received L req ps
  case neg =>
    rcases Server.verifyAndThen_of_not_received (fun ps h => hrec ⟨ps, h⟩) cfg (some now) knownClient
      token verifier f with h' | ⟨h1, h2⟩
    · rw [h'] at h; cases h; exact .inr ⟨.inl rfl, rfl⟩
    · unfold Server.verifyAndThen Server.readForm at h
      rw [if_pos h1, h2] at h
      cases h
  obtain ⟨ps, hrec⟩ := hrec
  obtain ⟨cb, hcb, -, hv⟩ := Server.verifyAndThen_of_received hrec
  rw [hv] at h
  cases hrp : Server.readParams cb fun k => first k (sortPairs ps) with
  | error c =>
    rw [hrp] at h
    cases h
    rcases Server.readParams_error hrp with rfl | rfl
    · exact .inr ⟨.inl rfl, rfl⟩
    · exact .inr ⟨.inr (.inl rfl), rfl⟩
  | ok o =>
    rw [hrp] at h
    simp only [] at h
    have ho : o.callback = cb := (readParams_ok hrp).2.2.2.2.2.2.1
    cases hi : Server.inner L cfg (some now) req (sortPairs ps) o knownClient token verifier with
    | error e => rw [hi] at h; cases h
    | ok r =>
    rw [hi] at h
    cases r with
    | ok x =>
      cases x
      simp only [Except.ok.injEq] at h
      rcases hr ps (sortPairs ps) o (sortPairs_spec ps).1 (sortPairs_spec ps).2 (by rw [ho]; exact hcb)
        with ⟨h1, h2⟩ | h1
      · rw [h] at h1 h2
        exact .inl ⟨h1, ps, hrec, h2⟩
      · rw [h] at h1
        subst h1
        exact .inr ⟨.inl rfl, rfl⟩
    | error c =>
      cases h
      rcases Server.inner_outcome L cfg now req (sortPairs ps) o knownClient token verifier with
        ⟨r, e1, e2⟩ | ⟨hd, t, ht, hlt⟩
      · rw [hi] at e1
        cases e1
        rcases e2 c rfl with rfl | rfl
        · exact .inr ⟨.inl rfl, rfl⟩
        · exact .inr ⟨.inr (.inl rfl), rfl⟩
      · unfold Server.inner Server.checkTimestamp Server.addWindow at hi
        rw [ht] at hi
        simp only [] at hi
        rw [if_neg (by omega), if_pos hd] at hi
        cases hi

/-- C102: 404 says that there is no such resource, and nothing else does. -/
theorem C102_not_found_iff {L : Lib} {cfg : Cfg} {now : Nat} {req : HttpRequest} {resp : Response}
    (h : Server.service L cfg (some now) req = .ok resp) :
    resp.status = 404 ↔ ∀ token verifier, ¬ Serves req.method req.path token verifier := by
  constructor
  · intro h4 token verifier hs
    obtain ⟨f, hf, hr⟩ := service_reply (L := L) (cfg := cfg) (now := some now) hs
    rw [hf] at h
    by_cases hrec : ∃ ps, Received L req ps
    case neg =>
      rcases Server.verifyAndThen_of_not_received (fun ps h => hrec ⟨ps, h⟩) cfg (some now) knownClient
        token verifier f with h' | ⟨h1, h2⟩
      · rw [h'] at h; cases h; cases h4
      · unfold Server.verifyAndThen Server.readForm at h
        rw [if_pos h1, h2] at h
        cases h
    obtain ⟨ps, hrec⟩ := hrec
    rcases verify_exact hrec cfg now knownClient token verifier with
      ⟨-, -, h2⟩ | ⟨-, -, o, h2⟩ | ⟨-, -, c, hc, h2⟩
    · rw [h2] at h; cases h
    · obtain ⟨f', hf', g1, g2⟩ := service_serves (L := L) (cfg := cfg) (now := some now) hs
      rw [← hf, hf', h2] at h
      cases h
      by_cases hp : req.path = b!"/request_temp_credentials"
      · rw [g2 hp] at h4
        split at h4 <;> cases h4
      · rw [g1 hp] at h4
        cases h4
    · rw [h2] at h
      cases h
      rcases hc with rfl | rfl <;> cases h4
  · intro hs
    rw [C44_not_found L cfg (some now) req hs] at h
    cases h
    rfl

/-- C102: nothing of the server's secrets, nor of what was received, is in the answer to a request that is not
accepted for the resource. -/
theorem C102_nothing_disclosed {L : Lib} {cfg : Cfg} {now : Nat} {req : HttpRequest} {resp : Response}
    (h : Server.service L cfg (some now) req = .ok resp)
    (hn : ∀ ps token verifier, Received L req ps → Serves req.method req.path token verifier →
      ¬ Accepted L cfg now req ps knownClient token verifier) : resp.body = [] := by
  rcases C102_answers h with ⟨h1, -⟩ | ⟨-, h1⟩
  · obtain ⟨ps, token, verifier, g1, g2, g3⟩ := C44_service h (by rw [h1]; decide) (by rw [h1]; decide)
      (by rw [h1]; decide)
    exact absurd g3 (hn _ _ _ g1 g2)
  · exact h1

/-- A request for token credentials with a wrong consumer key: it is not accepted, and the answer is empty. -/
def stranger : HttpRequest where
  method := b!"POST"
  path := b!"/request_token"
  query := none
  authorization := [b!"OAuth oauth_consumer_key=stranger,oauth_token=request,oauth_verifier=verifier,oauth_signature_method=PLAINTEXT,oauth_signature=x"]
  contentType := none
  body := some []

theorem stranger_401 : (Server.service (Server.exampleLib true) ⟨true, true, .std⟩ (some 1700000000)
    stranger).toOption.map (·.status) = some 401 := by decide +kernel

example : ∃ resp, Server.service (Server.exampleLib true) ⟨true, true, .std⟩ (some 1700000000) stranger =
    .ok resp ∧ resp.body = [] := by
  have h0 := stranger_401
  cases h : Server.service (Server.exampleLib true) ⟨true, true, .std⟩ (some 1700000000) stranger with
  | error e => rw [h] at h0; cases h0
  | ok resp =>
    rw [h] at h0
    have h1 : resp.status = 401 := by simpa [Except.toOption] using h0
    refine ⟨resp, rfl, C102_nothing_disclosed h fun ps token verifier hrec hs ha => ?_⟩
    obtain ⟨resp', h2, h3, -⟩ := C44_service_answers hrec hs ha
    rw [h] at h2
    cases h2
    have := h3 (by decide)
    omega

/-- The three resources: what is received, in order and encoded again; temporary credentials; token credentials.
(The same requests with `PLAINTEXT` need no secret, see C44.) -/
example : ∀ a : Bytes × Bytes × Bytes × Bytes × Bytes,
    a ∈ [(b!"GET", b!"/echo", b!"z=%C3%A9&q=a+b~", b!"oauth_token=token,",
        b!"oauth_consumer_key=client&oauth_signature=x&oauth_signature_method=PLAINTEXT&oauth_token=token&q=a+b%7E&z=%C3%A9"),
      (b!"POST", b!"/request_temp_credentials", [], b!"oauth_callback=oob,",
        b!"oauth_token=request&oauth_token_secret=request_secret&oauth_callback_confirmed=true"),
      (b!"POST", b!"/request_token", [], b!"oauth_token=request,oauth_verifier=verifier,",
        b!"oauth_token=token&oauth_token_secret=token_secret")] →
    (Server.service (Server.exampleLib true) ⟨true, true, .std⟩ (some 1700000000)
      ⟨a.1, a.2.1, some a.2.2.1,
        [b!"OAuth " ++ a.2.2.2.1 ++ b!"oauth_consumer_key=client,oauth_signature_method=PLAINTEXT,oauth_signature=x"],
        none, some []⟩).toOption = some ⟨200, a.2.2.2.2⟩ := by
  decide +kernel

/-- The hypothesis of `C102_answers` and `C102_not_found_iff`: there is an answer for `DELETE /echo`, which is 404. -/
example : ∀ token verifier, ¬ Serves b!"DELETE" b!"/echo" token verifier :=
  (C102_not_found_iff (L := Server.exampleLib true) (cfg := ⟨true, true, .std⟩) (now := 1700000000)
    (req := { forged with method := b!"DELETE" }) (resp := .ofStatus 404) rfl).mp rfl

end OAuth
